/-
Model of the WMO tropopause code: /repo/src/skyborn/calc/troposphere/core.py (`trop_wmo`, `trop_wmo_profile`), its C binding
tropopause_height_module.c, and its Fortran kernels fortran/{tropopause_height.f90, stattrop_dp.f, stndAtmUS76_dp.f}.

Simplifications: floating-point numbers are reals (the float32 conversion of core.py:273-274, 481-482 and all rounding are dropped), NaN
and infinities are not modelled; a masked array element is `none`. Fortran arrays are functions with 1-based indices, `rd`/`wr` return
`none` outside the declared bounds. The five output arrays (pressure, height, index, lapse rate, success) of the grid kernels are kept
as one array of records. OpenMP loops run in index order: every iteration writes only its own output element and its private scratch.
Memory order (the F-contiguous copies made by the C binding) is not modelled: an array is its shape and its indexing function.
The xarray wrapper (xarray.py) is not modelled. numpy's `argsort` is a stable sort here (it differs only among equal keys).
-/
import Verif.Common.Loops
import Verif.Common.ND
import Verif.Common.Axes
import Mathlib.Analysis.SpecialFunctions.Pow.Real
import Mathlib.Data.List.Sort

namespace Skyborn.Trop

/-! ### US standard atmosphere: stndAtmUS76_dp.f -/

/-- stndAtmUS76_dp.f:164 `HBASE`. -/
noncomputable def hbase : ℕ → ℝ
  | 1 => 0 | 2 => 11000 | 3 => 20000 | 4 => 32000 | 5 => 47000 | 6 => 51000 | 7 => 71000 | 8 => 84852 | 9 => 84852 | 10 => 84852 | _ => 0

/-- stndAtmUS76_dp.f:166-167 `GRAD`. -/
noncomputable def grad : ℕ → ℝ
  | 1 => -0.0065 | 2 => 0 | 3 => 0.001 | 4 => 0.0028 | 5 => 0 | 6 => -0.0028 | 7 => -0.002 | _ => 0

/-- stndAtmUS76_dp.f:168-169 `ABST`. -/
noncomputable def abst : ℕ → ℝ
  | 1 => 288.15 | 2 => 216.65 | 3 => 216.65 | 4 => 228.65 | 5 => 270.65 | 6 => 270.65 | 7 => 214.65 | 8 => 186.95 | _ => 0

/-- stndAtmUS76_dp.f:170-172 `PB`. -/
noncomputable def pb : ℕ → ℝ
  | 1 => 1013.25 | 2 => 226.32064 | 3 => 54.748887 | 4 => 8.6801870 | 5 => 1.1090631 | 6 => 0.66938874 | 7 => 0.039564205
  | 8 => 0.0037338360 | _ => 0

/-- stndAtmUS76_dp.f:175-176 `G`, `R`. -/
noncomputable def stdG : ℝ := 980.665
@[inherit_doc stdG]
noncomputable def stdR : ℝ := 83143200 / 28.9644

/-- stndAtmUS76_dp.f:178-180 the search `DO I = 1,8; IF (P.GE.PB(I+1)) GO TO 37`, from `i` with `left` passes left. -/
noncomputable def findLayer (p : ℝ) : (left i : ℕ) → Option ℕ
  | 0, i => some i
  | left + 1, i => do
    let b ← rd 10 pb (i + 1)
    if b ≤ p then some i else findLayer p left (i + 1)

/-- stndAtmUS76_dp.f:137-204 `STDP2Z`, the height only (temperature and density are discarded by the caller); for `P <= PB(1)`
(the caller guarantees it; the index would be undefined otherwise). -/
noncomputable def stdp2z (p : ℝ) : Option ℝ := do
  let i ← findLayer p 8 1
  let g ← rd 10 grad i
  let a ← rd 10 abst i
  let b ← rd 10 pb i
  let h ← rd 10 hbase i
  if g ≠ 0 then some (a / (-g) * (1 - (p / b) ^ (-g * stdR / (100 * stdG))) + h)
  else some (h + 0.01 * stdR * a / stdG * Real.log (b / p))

/-- stndAtmUS76_dp.f:41-75 `DSTDATMP` for one pressure (`NP = 1`), the height. -/
noncomputable def dstdatmp (p : ℝ) : Option ℝ :=
  if 0.00373 ≤ p ∧ p ≤ 1013.25 then stdp2z p else some (-999)

/-! ### stattrop_dp.f -/

/-- stattrop_dp.f:129-131 `CONST = 1000.D0*GRAV/RGAS`. -/
noncomputable def const : ℝ := 1000 * 9.80665 / 287.04

/-- The work arrays `LAPSE(NLEVM)`, `PHALF(NLEVM)` (and `PMB(NLEV)`). -/
structure Work where
  lapse : ℕ → ℝ
  phalf : ℕ → ℝ
  pmb : ℕ → ℝ

/-- stattrop_dp.f:153-163 lapse rates and mid-layer pressures. -/
noncomputable def lapseLoop (nlev nlevm : ℕ) (p t : ℕ → ℝ) (w : Work) : Option Work :=
  doLoopM 1 (nlev - 1) w fun i w => do
    let t0 ← rd nlev t i
    let t1 ← rd nlev t (i + 1)
    let p0 ← rd nlev p i
    let p1 ← rd nlev p (i + 1)
    let lapse ← wr nlevm w.lapse i (const * ((Real.log t0 - Real.log t1) / (Real.log p0 - Real.log p1)))
    let phalf ← wr nlevm w.phalf i ((p0 + p1) * 0.5)
    some { w with lapse := lapse, phalf := phalf }

/-- stattrop_dp.f:193-199 the loop `DO L = ILEV,1,-1` with its `GO TO 100`; the first argument is `L`; returns `LAPSEAVG`. -/
noncomputable def avgLoop (nlevm : ℕ) (w : Work) (p2km : ℝ) : (l : ℕ) → (sum avg : ℝ) → (kount : ℕ) → Option ℝ
  | 0, _, avg, _ => some avg
  | l + 1, sum, avg, kount => do
    let ph ← rd nlevm w.phalf (l + 1)
    if ph < p2km then some avg
    else do
      let g ← rd nlevm w.lapse (l + 1)
      avgLoop nlevm w p2km l (sum + g) ((sum + g) / ((kount + 1 : ℕ) : ℝ)) (kount + 1)

/-- stattrop_dp.f:172-180 the interpolated tropopause pressure at layer `i`. -/
noncomputable def crossing (nlevm : ℕ) (w : Work) (lapsec : ℝ) (i : ℕ) : Option ℝ := do
  let ph0 ← rd nlevm w.phalf i
  let ph1 ← rd nlevm w.phalf (i + 1)
  let l0 ← rd nlevm w.lapse i
  let l1 ← rd nlevm w.lapse (i + 1)
  let p1 := Real.log ph0
  let p2 := Real.log ph1
  if l0 ≠ l1 then some (Real.exp (p1 + (lapsec - l0) / (l1 - l0) * (p2 - p1))) else some ph0

/-- `PTROP`, `ITROP`, `FOUND`. -/
structure Find where
  ptrop : ℝ
  itrop : ℤ
  found : Bool

/-- stattrop_dp.f:167-213 the loop `DO ILEV = NLEV - 2,1,-1`; the first argument is `ILEV`. -/
noncomputable def findLoop (nlev nlevm : ℕ) (p t : ℕ → ℝ) (w : Work) (tmsg lapsec : ℝ) : (ilev : ℕ) → Find → Option Find
  | 0, s => some s
  | ilev + 1, s => do
    let g ← rd nlevm w.lapse (ilev + 1)
    let pf ← rd nlev p (ilev + 1)
    let s ← (if g < lapsec ∧ pf < 450 then
        (if s.found then some s else do
          let ptrop ← crossing nlevm w lapsec (ilev + 1)
          let tf ← rd nlev t (ilev + 1)
          let p2km := Real.exp (Real.log ptrop - 2 * const / tf)
          let avg ← avgLoop nlevm w p2km (ilev + 1) 0 (10 ^ 9) 0
          if avg < lapsec then some ⟨max ptrop 85, ((ilev + 1 : ℕ) : ℤ), true⟩ else some ⟨tmsg, s.itrop, false⟩)
      else some s)
    findLoop nlev nlevm p t w tmsg lapsec ilev s

/-- stattrop_dp.f:44-221 `DSTATTROP`. -/
noncomputable def dstattrop (nlev nlevm : ℕ) (p t : ℕ → ℝ) (tmsg lapsec : ℝ) (w : Work) : Option (ℝ × ℤ × Work) := do
  let w ← lapseLoop nlev nlevm p t w
  let s ← findLoop nlev nlevm p t w tmsg lapsec (nlev - 2) ⟨tmsg, -999, false⟩
  some (s.ptrop, s.itrop, w)

/-- stattrop_dp.f:2-42 `STATTROPX`. -/
noncomputable def stattropx (nlev nlevm : ℕ) (pfull t : ℕ → ℝ) (tmsg lapsec : ℝ) (punit : ℕ) (w : Work) : Option (ℝ × ℤ × Work) := do
  let pmb ← doLoopM 1 nlev w.pmb fun n a => do
    let v ← rd nlev pfull n
    wr nlev a n (if punit = 0 then v else v * 0.01)
  let (ptrop, itrop, w) ← dstattrop nlev nlevm pmb t tmsg lapsec { w with pmb := pmb }
  some (if punit ≠ 0 then ptrop * 100 else ptrop, itrop - 1, w)

/-! ### tropopause_height.f90 -/

/-- One element of each of the five output arrays. -/
structure Cell where
  ptrop : ℝ
  htrop : ℝ
  itrop : ℤ
  lapse : ℝ
  success : ℤ

/-- tropopause_height.f90:179-183, 351-355, 464-468: the initial outputs. -/
noncomputable def missingCell (tmsg : ℝ) : Cell := ⟨tmsg, tmsg, -999, tmsg, 0⟩

/-- tropopause_height.f90:221-246, 385-407, 484-505: after `STATTROPX`. -/
noncomputable def finish (nlev nlevm : ℕ) (tmsg : ℝ) (punit : ℕ) (ptropTemp : ℝ) (itropTemp : ℤ) (w : Work) (c : Cell) : Option Cell :=
  if |ptropTemp - tmsg| > 1e-10 then do
    let ptrop := if punit = 0 then ptropTemp else ptropTemp * 0.01
    let h ← dstdatmp ptrop
    let lapse ← (if 1 ≤ itropTemp ∧ itropTemp < (nlev : ℤ) - 1 then rd nlevm w.lapse (itropTemp + 1).toNat else some c.lapse)
    some ⟨ptrop, h, itropTemp, lapse, 1⟩
  else some c

/-- tropopause_height.f90:471-477: the missing-value scan of the single-profile routine. -/
noncomputable def validBoth (nlev : ℕ) (p t : ℕ → ℝ) (tmsg : ℝ) : Option Bool :=
  doLoopM 1 nlev true fun k ok =>
    if ok then do
      let a ← rd nlev p k
      let b ← rd nlev t k
      some (!(decide (|a - tmsg| < 1e-10) || decide (|b - tmsg| < 1e-10)))
    else some false

/-- tropopause_height.f90:411-508 `tropopause_profile_1d`; `w` is the uninitialised scratch. -/
noncomputable def profile1d (nlev nlevm : ℕ) (p t : ℕ → ℝ) (tmsg lapsec : ℝ) (punit : ℕ) (w : Work) : Option Cell := do
  let ok ← validBoth nlev p t tmsg
  if ok then do
    let (ptrop, itrop, w) ← stattropx nlev nlevm p t tmsg lapsec punit w
    finish nlev nlevm tmsg punit ptrop itrop w (missingCell tmsg)
  else some (missingCell tmsg)

/-- tropopause_height.f90:195-202, 365-371: copy one column of the temperature, stopping at the first missing value. -/
noncomputable def copyColumn (nlev : ℕ) (col : ℕ → ℝ) (tmsg : ℝ) (prof : ℕ → ℝ) : Option ((ℕ → ℝ) × Bool) :=
  doLoopM 1 nlev (prof, true) fun k s =>
    if s.2 then do
      let v ← rd nlev col k
      let prof ← wr nlev s.1 k v
      some (prof, !decide (|v - tmsg| < 1e-10))
    else some s

/-- tropopause_height.f90:205-212, 373-380: scan of the pressure levels. -/
noncomputable def validPressure (nlev : ℕ) (p : ℕ → ℝ) (tmsg : ℝ) : Option Bool :=
  doLoopM 1 nlev true fun k ok =>
    if ok then do
      let a ← rd nlev p k
      some (!decide (|a - tmsg| < 1e-10))
    else some false

/-- Private scratch of the grid kernels. -/
structure Scratch where
  prof : ℕ → ℝ
  work : Work

/-- tropopause_height.f90:192-247 and 363-408: the body of the grid loops for one column. -/
noncomputable def gridCell (nlev nlevm : ℕ) (p col : ℕ → ℝ) (tmsg lapsec : ℝ) (punit : ℕ) (c : Cell) (s : Scratch) :
    Option (Cell × Scratch) := do
  let (prof, ok) ← copyColumn nlev col tmsg s.prof
  let ok ← (if ok then validPressure nlev p tmsg else some false)
  if ok then do
    let (ptrop, itrop, w) ← stattropx nlev nlevm p prof tmsg lapsec punit s.work
    let c ← finish nlev nlevm tmsg punit ptrop itrop w c
    some (c, ⟨prof, w⟩)
  else some (c, ⟨prof, s.work⟩)

/-- tropopause_height.f90:306-409 `tropopause_grid_2d`. -/
noncomputable def grid2d (nsp nlev nlevm : ℕ) (p : ℕ → ℝ) (t : ℕ → ℕ → ℝ) (tmsg lapsec : ℝ) (punit : ℕ) (s : Scratch) :
    Option ((ℕ → Cell) × Scratch) :=
  doLoopM 1 nsp (fun _ => missingCell tmsg, s) fun i st => do
    let c ← rd nsp st.1 i
    let r ← gridCell nlev nlevm p (t i) tmsg lapsec punit c st.2
    let out ← wr nsp st.1 i r.1
    some (out, r.2)

/-- Bounds-checked access to a 1-based matrix. -/
def wrm {α : Type} (n m : ℕ) (a : ℕ → ℕ → α) (i j : ℕ) (v : α) : Option (ℕ → ℕ → α) :=
  if (1 ≤ i ∧ i ≤ n) ∧ (1 ≤ j ∧ j ≤ m) then some (Function.update a i (Function.update (a i) j v)) else none

@[inherit_doc wrm]
def rdm {α : Type} (n m : ℕ) (a : ℕ → ℕ → α) (i j : ℕ) : Option α :=
  if (1 ≤ i ∧ i ≤ n) ∧ (1 ≤ j ∧ j ≤ m) then some (a i j) else none

/-- tropopause_height.f90:98-250 `tropopause_grid_3d`. -/
noncomputable def grid3d (nlat nlon nlev nlevm : ℕ) (p : ℕ → ℝ) (t : ℕ → ℕ → ℕ → ℝ) (tmsg lapsec : ℝ) (punit : ℕ) (s : Scratch) :
    Option ((ℕ → ℕ → Cell) × Scratch) :=
  doLoopM 1 nlon (fun _ _ => missingCell tmsg, s) fun j st =>
    doLoopM 1 nlat st fun i st => do
      let c ← rdm nlat nlon st.1 i j
      let r ← gridCell nlev nlevm p (t i j) tmsg lapsec punit c st.2
      let out ← wrm nlat nlon st.1 i j r.1
      some (out, r.2)

/-- tropopause_height.f90:252-304 `tropopause_grid_4d`; the last index of the output is the time. -/
noncomputable def grid4d (nlat nlon nlev ntime nlevm : ℕ) (p : ℕ → ℝ) (t : ℕ → ℕ → ℕ → ℕ → ℝ) (tmsg lapsec : ℝ) (punit : ℕ)
    (s : Scratch) (out : ℕ → ℕ → ℕ → Cell) : Option (ℕ → ℕ → ℕ → Cell) :=
  doLoopM 1 ntime out fun tt out => do
    let r ← grid3d nlat nlon nlev nlevm p (fun i j k => t i j k tt) tmsg lapsec punit s
    if 1 ≤ tt ∧ tt ≤ ntime then some (fun i j k => if k = tt then r.1 i j else out i j k) else none

/-! ### core.py -/

/-- Why a call raises (`crash`: the kernel accesses an array outside its bounds, `backend`: ValueError of the C binding). -/
inductive TErr
  | empty | length | dims | unique | needTime | noSpatial | axes | shape | backend | crash | index
  deriving DecidableEq

/-- numpy's `argsort` of the keys `key 0 .. key (n-1)`. -/
def argsort {κ : Type} [LinearOrder κ] (n : ℕ) (key : ℕ → κ) : List ℕ :=
  (List.range n).insertionSort (fun i j => key i ≤ key j)

/-- `a.shape[axis]` with Python's negative indices. -/
def shapeAt {α : Type} (a : NDArr α) (axis : ℤ) : Except TErr ℕ :=
  let n : ℤ := a.shape.length
  if 0 ≤ axis ∧ axis < n then .ok (a.shape.getD axis.toNat 0)
  else if -n ≤ axis ∧ axis < 0 then .ok (a.shape.getD (axis + n).toNat 0)
  else .error .index

/-- numpy's normalisation of the axes passed to `np.transpose`; an error when they are not a permutation. -/
def checkAxes (n : ℕ) (perm : List ℤ) : Except TErr (List ℕ) :=
  if perm.length = n ∧ ∀ d ∈ perm, -(n : ℤ) ≤ d ∧ d < n then
    let q := perm.map fun d : ℤ => if d < 0 then (d + (n : ℤ)).toNat else d.toNat
    if q.Nodup then .ok q else .error .axes
  else .error .axes

/-- core.py:84-120 the axis order built by `_order_dims_for_fortran`. -/
def newOrder (n : ℕ) (xdim ydim levdim : ℤ) (timedim : Option ℤ) : Except TErr (List ℤ) :=
  let base : Except TErr (List ℤ) :=
    if n = 2 then
      (if 0 ≤ ydim then .ok [ydim, levdim] else if 0 ≤ xdim then .ok [xdim, levdim] else .error .noSpatial)
    else
      match timedim with
      | some td =>
        if n = 3 ∧ 0 ≤ td ∧ ((0 ≤ xdim) ↔ ¬ (0 ≤ ydim)) then .ok [if 0 ≤ ydim then ydim else xdim, td, levdim]
        else .ok ((if 0 ≤ ydim then [ydim] else []) ++ (if 0 ≤ xdim then [xdim] else []) ++ (if 0 ≤ levdim then [levdim] else []) ++
          (if 0 ≤ td then [td] else []))
      | none =>
        .ok ((if 0 ≤ ydim then [ydim] else []) ++ (if 0 ≤ xdim then [xdim] else []) ++ (if 0 ≤ levdim then [levdim] else []))
  base.map fun l => l ++ ((List.range n).map (fun i : ℕ => (i : ℤ))).filter (fun i => i ∉ l)

/-- core.py:142-185 `_restore_dims_from_fortran`, the permutation applied to the outputs. -/
def restoreOrder (inverseOrder : List ℕ) : List ℕ :=
  (inverseOrder.filter (fun q => q ≠ 2)).map fun q => if 2 < q then q - 1 else q

/-- `ma.filled(a, missing_value)` (core.py:318-322, 494-498). -/
def filled (a : NDArr (Option ℝ)) (missing : ℝ) : NDArr ℝ := ⟨a.shape, fun idx => (a.get idx).getD missing⟩

/-- `np.take(a, idx, axis)`. -/
def takeAxis {α : Type} (a : NDArr α) (sel : List ℕ) (axis : ℕ) : NDArr α :=
  ⟨a.shape.set axis sel.length, fun idx => a.get (idx.set axis (sel.getD (idx.getD axis 0) 0))⟩

/-- core.py:384 the unit flag (`pressure_unit.lower() == "hpa"`, ASCII lower-casing). -/
def punitOf (unit : String) : ℕ := if unit.toList.map Char.toLower = ['h', 'p', 'a'] then 0 else 1

/-- core.py:279-316 the checks of `trop_wmo`. -/
def checks (ndim : ℕ) (levSize pLen : ℕ) (xdim ydim levdim : ℤ) (timedim : Option ℤ) : Except TErr Unit :=
  if levSize = 0 ∨ pLen = 0 then .error .empty
  else if pLen ≠ levSize then .error .length
  else
    let td : ℤ := timedim.getD (-1)
    let ds := [xdim, ydim, levdim, td].filter (fun d => 0 ≤ d)
    if ∃ d ∈ ds, (ndim : ℤ) ≤ d then .error .dims
    else if ¬ ds.Nodup then .error .unique
    else if ndim = 3 ∧ ((0 ≤ xdim) ↔ ¬ (0 ≤ ydim)) ∧ ¬ (0 ≤ td) then .error .needTime
    else .ok ()

/-- A kernel result: `none` = out-of-bounds access. -/
def orCrash {α : Type} : Option α → Except TErr α
  | some a => .ok a
  | none => .error .crash

/-- tropopause_height_module.c `py_tropopause_grid_2d`, `_3d`, `_4d` (selected by core.py:389-427): shape checks, then the kernel.
`s`, `out0` are the uninitialised scratch and output buffers. -/
noncomputable def backend (p t : NDArr ℝ) (tmsg lapsec : ℝ) (punit nlevm : ℕ) (s : Scratch) (out0 : ℕ → ℕ → ℕ → Cell) : Except TErr (NDArr Cell) :=
  let pf : ℕ → ℝ := fun k => p.get [k - 1]
  match t.shape with
  | [n, nlev] =>
    if p.shape ≠ [nlev] ∨ nlevm ≠ nlev + 1 then .error .backend
    else (orCrash (grid2d n nlev nlevm pf (fun i k => t.get [i - 1, k - 1]) tmsg lapsec punit s)).map fun r =>
      ⟨[n], fun idx => r.1 (idx.getD 0 0 + 1)⟩
  | [nlat, nlon, nlev] =>
    if p.shape ≠ [nlev] ∨ nlevm ≠ nlev + 1 then .error .backend
    else (orCrash (grid3d nlat nlon nlev nlevm pf (fun i j k => t.get [i - 1, j - 1, k - 1]) tmsg lapsec punit s)).map fun r =>
      ⟨[nlat, nlon], fun idx => r.1 (idx.getD 0 0 + 1) (idx.getD 1 0 + 1)⟩
  | [nlat, nlon, nlev, ntime] =>
    if p.shape ≠ [nlev] ∨ nlevm ≠ nlev + 1 then .error .backend
    else (orCrash (grid4d nlat nlon nlev ntime nlevm pf (fun i j k tt => t.get [i - 1, j - 1, k - 1, tt - 1]) tmsg lapsec punit s out0)).map
      fun r => ⟨[nlat, nlon, ntime], fun idx => r (idx.getD 0 0 + 1) (idx.getD 1 0 + 1) (idx.getD 2 0 + 1)⟩
  | _ => .error .shape

/-- core.py:333-357 sorting of the levels. Simplification: `pressure[:-1] <= pressure[1:]` is evaluated on the first axis; a
multi-dimensional pressure is rejected by the C binding afterwards anyway. -/
noncomputable def sortLevels (check : Bool) (p t : NDArr ℝ) : NDArr ℝ × NDArr ℝ :=
  let n := p.shape.headD 0
  if check = true ∧ ((List.range (n - 1)).all fun k => decide (p.get [k] ≤ p.get [k + 1])) = false then
    let sel := argsort n (fun k => p.get [k])
    (takeAxis p sel 0, takeAxis t sel (if t.shape.length = 2 then 1 else 2))
  else (p, t)

/-- core.py:188-445 `trop_wmo` on numpy arrays. -/
noncomputable def tropWmo (temperature pressure : NDArr (Option ℝ)) (xdim ydim levdim : ℤ) (timedim : Option ℤ) (unit : String)
    (lapsec missing : ℝ) (check : Bool) (s : Scratch) (out0 : ℕ → ℕ → ℕ → Cell) : Except TErr (NDArr Cell) := do
  let levSize ← shapeAt temperature levdim
  let n := temperature.shape.length
  checks n levSize (pressure.shape.headD 0) xdim ydim levdim timedim
  let p := filled pressure missing
  let t := filled temperature missing
  let order ← newOrder n xdim ydim levdim timedim
  let perm ← checkAxes n order
  let inverse := argsort n (fun i => order.getD i 0)
  let (p, t) := sortLevels check p (t.transpose perm)
  let out ← backend p t missing lapsec (punitOf unit) (p.shape.headD 0 + 1) s out0
  if t.shape.length = 2 then .ok out
  else .ok (out.transpose (restoreOrder inverse))

/-- core.py:448-556 `trop_wmo_profile`. -/
noncomputable def tropWmoProfile (temperature pressure : NDArr (Option ℝ)) (unit : String) (lapsec missing : ℝ) (w : Work) :
    Except TErr Cell :=
  match pressure.shape, temperature.shape with
  | [np], [nt] =>
    if np = 0 ∨ nt = 0 then .error .empty
    else if np ≠ nt then .error .length
    else
      let p := filled pressure missing
      let t := filled temperature missing
      orCrash (profile1d np (np + 1) (fun k => p.get [k - 1]) (fun k => t.get [k - 1]) missing lapsec (punitOf unit) w)
  | _, _ => .error .shape

end Skyborn.Trop
