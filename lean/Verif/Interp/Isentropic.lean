/-
Model of `interp_to_isentropic` (/repo/src/skyborn/interp/interpolation.py:238-325, 2143-2252), its C binding
(/repo/src/skyborn/interp/isentropic_kernels_module.c) and its Fortran kernel (/repo/src/skyborn/interp/fortran/isentropic_kernels.f90).

Simplifications: floating-point numbers are reals (no rounding), a NaN is `none`, infinities are not modelled, `p0` is meant to be
positive (`(p0 / p) ** kappa` is `Real.rpow`). Fortran arrays are functions with 1-based indices; `rd`/`wr` return `none` outside the
declared bounds. The Fortran condition `j >= 1 .and. x(j) > tx` is evaluated left to right (the standard leaves the order open).
Coordinates, attributes, dtype restoration, lazy-array rejection and the search for a default `lev_dim` are not modelled.
-/
import Verif.Common.Loops
import Verif.Common.ND
import Mathlib.Analysis.SpecialFunctions.Pow.Real

namespace Skyborn.Isen

/-! ### Fortran kernel -/

/-- isentropic_kernels.f90:21-28 `valid_value` for a value that is not NaN and a finite marker. -/
noncomputable def validValue (v spvl : ℝ) : Bool := decide (v ≠ spvl)

/-- isentropic_kernels.f90:42-46, the inner `do while` of `sort_pairs`, from `j` down. -/
noncomputable def sortInner (n : ℕ) (tx : ℝ) : ℕ → (ℕ → ℝ) → (ℕ → ℝ) → Option ((ℕ → ℝ) × (ℕ → ℝ) × ℕ)
  | 0, x, y => some (x, y, 0)
  | j + 1, x, y => do
    let xj ← rd n x (j + 1)
    if tx < xj then do
      let yj ← rd n y (j + 1)
      let x ← wr n x (j + 2) xj
      let y ← wr n y (j + 2) yj
      sortInner n tx j x y
    else some (x, y, j + 1)

/-- isentropic_kernels.f90:31-50 `sort_pairs`. -/
noncomputable def sortPairs (n : ℕ) (x y : ℕ → ℝ) : Option ((ℕ → ℝ) × (ℕ → ℝ)) :=
  doLoopM 2 n (x, y) fun i s => do
    let tx ← rd n s.1 i
    let ty ← rd n s.2 i
    let r ← sortInner n tx (i - 1) s.1 s.2
    let x ← wr n r.1 (r.2.2 + 1) tx
    let y ← wr n r.2.1 (r.2.2 + 1) ty
    some (x, y)

/-- isentropic_kernels.f90:72-77, the search for an exact match (`some v` in the state: the function has returned `v`). -/
noncomputable def exactLoop (n : ℕ) (x y : ℕ → ℝ) (t : ℝ) : Option (Option ℝ) :=
  doLoopM 1 n none fun k s =>
    match s with
    | some v => some (some v)
    | none => do
      let xk ← rd n x k
      if t = xk then do
        let yk ← rd n y k
        some (some yk)
      else some none

/-- isentropic_kernels.f90:79-92, the search for the interval. -/
noncomputable def intervalLoop (n : ℕ) (x y : ℕ → ℝ) (t : ℝ) : Option (Option ℝ) :=
  doLoopM 1 (n - 1) none fun k s =>
    match s with
    | some v => some (some v)
    | none => do
      let x0 ← rd n x k
      let x1 ← rd n x (k + 1)
      if x0 ≤ t ∧ t ≤ x1 then do
        let y0 ← rd n y k
        let y1 ← rd n y (k + 1)
        if x1 = x0 then some (some y0) else some (some (y0 + (y1 - y0) * (t - x0) / (x1 - x0)))
      else some none

/-- isentropic_kernels.f90:53-93 `interp_sorted_profile`. -/
noncomputable def interpSorted (n : ℕ) (x y : ℕ → ℝ) (t : ℝ) (kxtrp : Bool) (spvl : ℝ) : Option ℝ :=
  if n < 2 then some spvl
  else do
    let x1 ← rd n x 1
    let xn ← rd n x n
    if t < x1 then (if kxtrp then rd n y 1 else some spvl)
    else if xn < t then (if kxtrp then rd n y n else some spvl)
    else
      match ← exactLoop n x y t with
      | some v => some v
      | none =>
        match ← intervalLoop n x y t with
        | some v => some v
        | none => some spvl

/-- State of the loop at isentropic_kernels.f90:107-118. -/
structure Acc where
  nvalid : ℕ
  theta : ℕ → ℝ
  values : ℕ → ℝ
  idx : ℕ

/-- isentropic_kernels.f90:107-118: collect the usable levels of a column. -/
noncomputable def collect (nin nlev ninner : ℕ) (df tf pf : ℕ → ℝ) (p0 kappa spvl : ℝ) (start : ℕ) (junk : ℕ → ℝ) : Option Acc :=
  doLoopM 1 nlev ⟨0, junk, junk, start⟩ fun _ s => do
    let d ← rd nin df s.idx
    let t ← rd nin tf s.idx
    let p ← rd nin pf s.idx
    if validValue d spvl && validValue t spvl && validValue p spvl && decide (0 < p) then do
      let th ← wr nlev s.theta (s.nvalid + 1) (t * (p0 / p) ^ kappa)
      let va ← wr nlev s.values (s.nvalid + 1) d
      some ⟨s.nvalid + 1, th, va, s.idx + ninner⟩
    else some ⟨s.nvalid, s.theta, s.values, s.idx + ninner⟩

/-- isentropic_kernels.f90:96-134 `interp_isentropic_flat_profile`. `start` is `base_in + inner`, `ostart` is `base_out + inner`, `junk`
the uninitialised contents of the local arrays. -/
noncomputable def flatProfile (nin nout nlev ninner ntheta : ℕ) (df tf pf lev : ℕ → ℝ) (p0 kappa spvl : ℝ) (kxtrp : Bool)
    (start ostart : ℕ) (junk out : ℕ → ℝ) : Option (ℕ → ℝ) := do
  let a ← collect nin nlev ninner df tf pf p0 kappa spvl start junk
  let r ← doLoopM 1 ntheta (out, ostart) fun _ s => do
    let o ← wr nout s.1 s.2 spvl
    some (o, s.2 + ninner)
  if a.nvalid < 2 then some r.1
  else do
    let s ← sortPairs a.nvalid a.theta a.values
    let r ← doLoopM 1 ntheta (r.1, ostart) fun k q => do
      let t ← rd ntheta lev k
      let v ← interpSorted a.nvalid s.1 s.2 t kxtrp spvl
      let o ← wr nout q.1 q.2 v
      some (o, q.2 + ninner)
    some r.1

/-- isentropic_kernels.f90:139-163 `dinterp_to_isentropic_corder_into_impl`; the 0-based loop variables are `o - 1` and `i - 1`. -/
noncomputable def kernel (nouter nlev ninner ntheta : ℕ) (df tf pf lev : ℕ → ℝ) (p0 kappa spvl : ℝ) (kxtrp : Bool) (junk out : ℕ → ℝ) :
    Option (ℕ → ℝ) :=
  doLoopM 1 nouter out fun o out =>
    doLoopM 1 ninner out fun i out =>
      flatProfile (nouter * nlev * ninner) (nouter * ntheta * ninner) nlev ninner ntheta df tf pf lev p0 kappa spvl kxtrp
        ((o - 1) * nlev * ninner + 1 + (i - 1)) ((o - 1) * ntheta * ninner + 1 + (i - 1)) junk out

/-! ### Python wrapper -/

/-- An `xarray.DataArray` as far as values are concerned: named dimensions in storage order, sizes, and the value at a labelled
index (which depends only on the array's own dimensions). -/
structure XArr (D : Type) where
  dims : List D
  sz : D → ℕ
  val : (D → ℕ) → Option ℝ
  ext : ∀ f g, (∀ d ∈ dims, f d = g d) → val f = val g

variable {D : Type} [DecidableEq D]

/-- `array.shape`. -/
def XArr.shape (a : XArr D) : List ℕ := a.dims.map a.sz

/-- The contiguous C-order data buffer, 0-based. -/
def XArr.flat (a : XArr D) : ℕ → Option ℝ := fun q => a.val fun d => (unravel a.shape q).getD (a.dims.idxOf d) 0

/-- interpolation.py:78 `_SPVL`. -/
noncomputable def defaultSpvl : ℝ := -9.96921e36

/-- interpolation.py:1322-1329 `_compiled_float64_flat_with_missing`, as a 1-based buffer. -/
def XArr.buffer (a : XArr D) (spvl : ℝ) : ℕ → ℝ := fun q => (a.flat (q - 1)).getD spvl

/-- Exceptions of `interp_to_isentropic`. -/
inductive IErr
  | levDim
  | thetaNotFinite
  | alignment
  | bufferLength
  | outOfBounds
  deriving DecidableEq

/-- `xr.align(a, b, join="exact")`: shared dimensions have equal size. Neither array is transposed or broadcast. -/
def aligned (a b : XArr D) : Bool := a.dims.all fun d => decide (d ∈ b.dims → a.sz d = b.sz d)

/-- `output[output == spvl] = nan` (interpolation.py:280). -/
noncomputable def decode (spvl v : ℝ) : Option ℝ := open Classical in if v = spvl then none else some v

/-- interpolation.py:2143-2252 `interp_to_isentropic` and :238-325. `mv` is `missing_value` (`none` = NaN), `outDim` the name of the output
dimension, `junk` and `empty` the uninitialised memory. -/
noncomputable def interpToIsentropic (data temp pres : XArr D) (theta : List (Option ℝ)) (lev outDim : D) (p0 kappa : ℝ) (extrapolate : Bool)
    (mv : Option ℝ) (junk empty : ℕ → ℝ) : Except IErr (List D × ((D → ℕ) → Option ℝ)) :=
  if lev ∉ data.dims ∨ lev ∉ temp.dims ∨ lev ∉ pres.dims then .error .levDim
  else if theta.any Option.isNone then .error .thetaNotFinite
  else if !(aligned temp pres && aligned data temp) then .error .alignment
  else
    let spvl := mv.getD defaultSpvl
    let axis := data.dims.idxOf lev
    let nouter := (data.shape.take axis).prod
    let ninner := (data.shape.drop (axis + 1)).prod
    let nlev := data.sz lev
    let ntheta := theta.length
    if data.shape.prod ≠ nouter * nlev * ninner ∨ temp.shape.prod ≠ nouter * nlev * ninner ∨ pres.shape.prod ≠ nouter * nlev * ninner then
      .error .bufferLength
    else
      match kernel nouter nlev ninner ntheta (data.buffer spvl) (temp.buffer spvl) (pres.buffer spvl)
          (fun k => ((theta[k - 1]?).getD none).getD 0) p0 kappa spvl extrapolate junk empty with
      | none => .error .outOfBounds
      | some out =>
        let dims := data.dims.map fun d => if d = lev then outDim else d
        .ok (dims, fun f => decode spvl (out (ravel (data.shape.set axis ntheta) (dims.map f) + 1)))

end Skyborn.Isen
