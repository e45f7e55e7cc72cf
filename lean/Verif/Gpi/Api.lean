/-
Model of /repo/src/skyborn/calc/GPI/core.py on NumPy arrays.

Simplifications: an array element is a real or NaN (`none`); infinities, float32 rounding, warnings, printing and copies are not modelled. Pressure levels that
are not one-dimensional are `unmodelled`, and so are calls in which a NaN or an infinity arises in the Fortran code (see Model.lean).
-/
import Verif.Gpi.Model
import Verif.Common.ND

namespace Skyborn.Gpi

open Classical

/-- The exceptions. -/
inductive Err
  | value
  | type
  | unmodelled
  deriving DecidableEq

/-- core.py:161-198 `_validate_input_arrays`: NaN becomes the missing value. -/
noncomputable def clean (a : NDArr (Option ℝ)) : NDArr ℝ := ⟨a.shape, fun i => (a.get i).getD undef⟩

/-- core.py:174-183: some element of the array is missing. -/
def hasMissing (a : NDArr ℝ) : Prop := ∃ i, InB a.shape i ∧ a.get i = undef

/-- core.py:55-66 `_postprocess_results`, `_postprocess_scalar` (`np.isclose` with its default tolerances). -/
noncomputable def post (v : ℝ) : Option ℝ := if |v - undef| ≤ 1e-8 + 1e-5 * |undef| then none else some v

/-- `numpy.flip` along one axis. -/
def flipAxis {α : Type} (axis : ℕ) (a : NDArr α) : NDArr α :=
  ⟨a.shape, fun i => a.get (i.set axis (a.shape.getD axis 0 - 1 - i.getD axis 0))⟩

/-- core.py:201-250 `_ensure_pressure_ordering`: the levels come in the wrong order. -/
def upside (p : NDArr ℝ) : Prop := p.shape.getD 0 0 > 1 ∧ p.get [0] < p.get [p.shape.getD 0 0 - 1]

/-- core.py:69-77: the axis of the levels, 0 for profiles and three dimensions, 1 for four. -/
def levelAxis (ndim : ℕ) : ℕ := if ndim = 4 then 1 else 0

/-- The index of level `k` (from 1) above the point `idx`. -/
def column (idx : List ℕ) (k : ℕ) : List ℕ := idx.insertIdx (levelAxis (idx.length + 1)) (k - 1)

/-- The prepared arrays of a gridded call (core.py:310-336). -/
structure Grid where
  n : ℕ
  sst : NDArr ℝ
  psl : NDArr ℝ
  p : NDArr ℝ
  t : NDArr ℝ
  r : NDArr ℝ
  missing : Bool

/-- core.py:253-307 `_validate_dimensions` for three and four dimensions: the shape of the surface fields. -/
def surface (shape : List ℕ) : List ℕ := shape.eraseIdx (levelAxis shape.length)

/-- core.py:310-336 `_prepare_gridded_inputs`. -/
noncomputable def prepareGrid (sst psl p t r : NDArr (Option ℝ)) : Except Err Grid :=
  match p.shape with
  | [n] =>
    let t' := if upside (clean p) then flipAxis (levelAxis t.shape.length) (clean t) else clean t
    let r' := if upside (clean p) then flipAxis (levelAxis t.shape.length) (clean r) else clean r
    let p' := if upside (clean p) then flipAxis 0 (clean p) else clean p
    if t.shape.getD (levelAxis t.shape.length) 0 ≠ n ∨ sst.shape ≠ surface t.shape ∨ psl.shape ≠ surface t.shape ∨ t.shape ≠ r.shape then .error .value
    else .ok ⟨n, clean sst, clean psl, p', t', r',
      decide (hasMissing (clean sst) ∨ hasMissing (clean psl) ∨ hasMissing (clean p) ∨ hasMissing (clean t) ∨ hasMissing (clean r))⟩
  | _ => .error .unmodelled

/-- One point of the gridded routines. -/
noncomputable def Grid.point (g : Grid) (source : ℕ) (ckcd : ℝ) (idx : List ℕ) : Option (Res × Option ℕ) :=
  if g.missing then
    pointMissing g.n (fun k => g.p.get [k - 1]) (g.sst.get idx) (g.psl.get idx) (fun k => g.t.get (column idx k)) (fun k => g.r.get (column idx k)) source ckcd
  else pointPlain g.n (fun k => g.p.get [k - 1]) (g.sst.get idx) (g.psl.get idx) (fun k => g.t.get (column idx k)) (fun k => g.r.get (column idx k)) source ckcd

/-- tropical_cyclone_potential_intensity.f90:101-107, 204-213: the flag after the points `l`: that of the last point computed. -/
def lastFlag (init : ℕ) (l : List (Option ℕ)) : ℕ := l.foldl (fun f x => x.getD f) init

/-- tropical_cyclone_potential_intensity.f90:299, 413, 914, 997, 1116, 1228: the flag after the points `l`: the last one that is not 1. -/
def stickyStep (f : ℕ) : Option ℕ → ℕ
  | some c => if c ≠ 1 then c else f
  | none => f

@[inherit_doc stickyStep] def stickyFlag (l : List (Option ℕ)) : ℕ := l.foldl stickyStep 1

/-- tropical_cyclone_potential_intensity.f90:80-81: the points of a three-dimensional call in the order of the loops. -/
def points2 (nlat nlon : ℕ) : List (List ℕ) := (List.range nlon).flatMap fun x => (List.range nlat).map fun y => [y, x]

/-- The results of all points; the flag of the routine is `flag` of the flags of the points in the order `order`. Every pass of the loops writes the cells of its
own point only. -/
noncomputable def Grid.all (g : Grid) (source : ℕ) (ckcd : ℝ) (order : List (List ℕ)) (flag : List (Option ℕ) → ℕ) : Except Err ((List ℕ → Res) × ℕ) :=
  if ∃ idx ∈ order, g.point source ckcd idx = none then .error .unmodelled
  else .ok (fun idx => ((g.point source ckcd idx).map Prod.fst).getD (skipped undef 0), flag (order.map fun idx => ((g.point source ckcd idx).bind Prod.snd)))

/-- core.py:433-481, _module.c:296, 396: the flag of the call without diagnostics. Three dimensions: the loops are sequential; without missing values the
Fortran routine does not set the flag before the first point (`error_flag = 0` of the caller remains). Four dimensions: the points are computed in
parallel, `order` is the order in which they set the flag. -/
def gridFlag (ndim : ℕ) (missing : Bool) : List (Option ℕ) → ℕ := if ndim = 4 then stickyFlag else lastFlag (if missing then 1 else 0)

/-- What `potential_intensity` returns: minimum pressure, maximum wind and flag. -/
structure Intensity where
  shape : List ℕ
  pmin : List ℕ → Option ℝ
  vmax : List ℕ → Option ℝ
  flag : ℕ

/-- What `pi_log_decomposition` returns. -/
structure Decomposition where
  shape : List ℕ
  pmin : List ℕ → Option ℝ
  vmax : List ℕ → Option ℝ
  t0 : List ℕ → Option ℝ
  otl : List ℕ → Option ℝ
  lnpi : List ℕ → Option ℝ
  lneff : List ℕ → Option ℝ
  lndiseq : List ℕ → Option ℝ
  lnckcd : Option ℝ
  flag : ℕ

/-- `float(x)`. -/
def scalar (a : NDArr (Option ℝ)) : Except Err ℝ :=
  if a.shape.prod ≠ 1 then .error .type
  else match a.get (a.shape.map fun _ => 0) with
    | none => .error .unmodelled
    | some x => .ok x

/-- core.py:339-391 `_prepare_profile_inputs`: pressure, temperature, mixing ratio, number of levels used. -/
noncomputable def prepareProfile (p t r : NDArr (Option ℝ)) (actual : Option ℤ) : Except Err ((ℕ → ℝ) × (ℕ → ℝ) × (ℕ → ℝ) × ℕ) :=
  match p.shape with
  | [n] =>
    if r.shape = [] then .error .type
    else if t.shape.getD 0 0 ≠ n ∨ r.shape.getD 0 0 ≠ n then .error .value
    else if t.shape ≠ r.shape then .error .value
    else
      let t' := if upside (clean p) then flipAxis 0 (clean t) else clean t
      let r' := if upside (clean p) then flipAxis 0 (clean r) else clean r
      let p' := if upside (clean p) then flipAxis 0 (clean p) else clean p
      let a := actual.getD n
      if a < 1 ∨ a > n then .error .value
      else .ok (fun k => p'.get [k - 1], fun k => t'.get [k - 1], fun k => r'.get [k - 1], a.toNat)
  | _ => .error .unmodelled

/-- core.py:394-425, 428-460: a profile. -/
noncomputable def profileCall (sst psl p t r : NDArr (Option ℝ)) (actual : Option ℤ) (source : ℕ) (ckcd : ℝ) : Except Err Res := do
  let s ← scalar sst
  let q ← scalar psl
  let (p', t', r', a) ← prepareProfile p t r actual
  match profile s q p' t' r' a source ckcd with
  | none => .error .unmodelled
  | some res => .ok res

/-- core.py:589-642 `potential_intensity`. `order`: the order in which the points of a four-dimensional call set the flag. -/
noncomputable def potentialIntensity (sst psl p t r : NDArr (Option ℝ)) (actual : Option ℤ) (order : List (List ℕ)) : Except Err Intensity :=
  if t.shape.length = 1 then do
    let res ← profileCall sst psl p t r actual 0 0.9
    .ok ⟨[], fun _ => post res.pmin, fun _ => post res.vmax, res.flag⟩
  else if t.shape.length = 3 ∨ t.shape.length = 4 then do
    let g ← prepareGrid sst psl p t r
    let (f, flag) ← g.all 0 0.9 (if t.shape.length = 4 then order else points2 (t.shape.getD 1 0) (t.shape.getD 2 0)) (gridFlag t.shape.length g.missing)
    .ok ⟨surface t.shape, fun i => post (f i).pmin, fun i => post (f i).vmax, flag⟩
  else .error .value

/-- core.py:80-87 `_normalize_outflow_source`. -/
def sourceFlag (s : String) : Except Err ℕ := if s = "cape_star" then .ok 0 else if s = "cape_env" then .ok 1 else .error .value

/-- tropical_cyclone_potential_intensity.f90:254-255: only the three-dimensional routine without missing values replaces a ratio that is not positive. -/
noncomputable def ratioUsed (ndim : ℕ) (missing : Bool) (ckcd : ℝ) : ℝ := if ndim = 3 ∧ missing = false ∧ ¬ ckcd > 0 then 0.9 else ckcd

/-- core.py:541-586 `pi_log_decomposition`. The source is looked at after the preparation of the arrays. -/
noncomputable def piLogDecomposition (sst psl p t r : NDArr (Option ℝ)) (ckcd : ℝ) (source : String) (order : List (List ℕ)) : Except Err Decomposition :=
  if t.shape.length = 1 then do
    let s ← scalar sst
    let q ← scalar psl
    let (p', t', r', a) ← prepareProfile p t r none
    let src ← sourceFlag source
    match profile s q p' t' r' a src ckcd with
    | none => .error .unmodelled
    | some res => .ok ⟨[], fun _ => post res.pmin, fun _ => post res.vmax, fun _ => post res.tout, fun _ => post res.lout, fun _ => post res.lnpi, fun _ => post res.lneff,
        fun _ => post res.lndiseq, post res.lnckcd, res.flag⟩
  else if t.shape.length = 3 ∨ t.shape.length = 4 then do
    let g ← prepareGrid sst psl p t r
    let src ← sourceFlag source
    let k := ratioUsed t.shape.length g.missing ckcd
    let (f, flag) ← g.all src k order stickyFlag
    .ok ⟨surface t.shape, fun i => post (f i).pmin, fun i => post (f i).vmax, fun i => post (f i).tout, fun i => post (f i).lout, fun i => post (f i).lnpi,
      fun i => post (f i).lneff, fun i => post (f i).lndiseq, post (lnRatio k), flag⟩
  else .error .value

/-- core.py:90-98 `_sst_to_kelvin`. -/
noncomputable def sstKelvin (x : Option ℝ) (units : String) : Except Err (Option ℝ) :=
  if units = "K" ∨ units = "k" then .ok x else if units = "C" ∨ units = "c" then .ok (x.map (· + 273.15)) else .error .value

/-- core.py:484-538 `log_decompose_pi`, one element: lnpi, lneff, lndiseq, lnCKCD. A temperature of zero and a ratio that is not positive (infinities, NaN
with a warning) are `unmodelled`. -/
noncomputable def logDecompose (pi sst t0 : Option ℝ) (ckcd : ℝ) (units : String) : Except Err (Option ℝ × Option ℝ × Option ℝ × ℝ) := do
  let s ← sstKelvin sst units
  if ckcd ≤ 0 ∨ t0 = some 0 then .error .unmodelled
  else
    let lneff : Option ℝ := match s, t0 with
      | some s, some t => if (s - t) / t > 0 then some (Real.log ((s - t) / t)) else none
      | _, _ => none
    let lnpi : Option ℝ := match pi with
      | some v => if v > 0 then some (2 * Real.log v) else none
      | none => none
    .ok (lnpi, lneff, match lnpi, lneff with
      | some a, some b => some (a - b - Real.log ckcd)
      | _, _ => none, Real.log ckcd)

end Skyborn.Gpi
