/-
`ReducedGaussianSpharmt`: construction, the tables it keeps, and its methods.

Modelled: `/repo/src/skyborn/spharm/reduced_gaussian.py` lines 22-902 with the compiled kernels of `Verif.RedGauss.Model`,
`GradModel` and `VecModel`, and the spectral utilities of `Verif.Spectral.Model`. The bindings
(`_spherepack_reduced_module.c`, `reduced_bindings.f90`) pass arrays through; a kernel's `ierror` raises. Numbers are
real; the conversions to 32-bit floats are not modelled. The compiled extension has the three routines the module looks
for at import (lines 46-52), so the fall-backs of lines 273-276, 512-514 and 632-644 are not modelled. Assignments to the
attributes after construction (lines 195-203) are not modelled.

State: the dictionaries of the module, the saved workspaces of the compiled module, the dictionaries of the object. Every
call gets its own `Env`: schedule of the parallel loops and contents of uninitialised memory.
-/
import Verif.RedGauss.GradModel
import Verif.RedGauss.VecModel
import Verif.Spectral.Closed
import Verif.Common.ND

namespace Skyborn.RedGauss

open Skyborn

/-- A table: row, packed position (or the transposed one: packed position, row). -/
abbrev Table := ℕ → ℕ → ℝ

/-- What the compiled library computes for `nlat` rows: `gaqd` (colatitudes and weights, from 1) and `legin`. -/
structure Lib where
  /-- colatitudes -/ theta : ℕ → ℕ → ℝ
  /-- weights -/ weight : ℕ → ℕ → ℝ
  /-- Legendre functions: `nlat`, order, degree, row -/ leg : ℕ → ℕ → ℕ → ℕ → ℝ

/-- `ValidationError`, or `SpheremackError` with the `ierror` of the routine. -/
inductive Fail
  | validation
  | spherepack (ierror : ℕ)
  deriving DecidableEq

/-- The precision modes (reduced_gaussian.py:22-28). -/
inductive Prec | auto | single | double
  deriving DecidableEq

/-- `_validate_precision` (reduced_gaussian.py:166-175) with `PRECISION_ALIASES` (22-28). -/
def validatePrecision (p : String) : Except Fail Prec :=
  match p.toLower with
  | "auto" => .ok .auto
  | "single" => .ok .single
  | "float32" => .ok .single
  | "double" => .ok .double
  | "float64" => .ok .double
  | _ => .error .validation

/-- The attributes of an object (reduced_gaussian.py:131-141). -/
structure Cfg where
  /-- `pl` -/ pl : List ℕ
  /-- `rsphere` -/ rsphere : ℝ
  /-- `legfunc` -/ legfunc : String
  /-- `precision` -/ precision : Prec
  /-- `_weights` -/ weights : ℕ → ℝ
  /-- `_sin_theta` -/ sinTheta : ℕ → ℝ

/-- `nlat`. -/
def Cfg.nlat (c : Cfg) : ℕ := c.pl.length

/-- `npoints`. -/
def Cfg.npoints (c : Cfg) : ℕ := c.pl.sum

/-- `pl(j)` as Fortran reads it. -/
def Cfg.row (c : Cfg) (j : ℕ) : ℕ := c.pl.getD (j - 1) 0

/-- The module's dictionaries and the saved workspaces of the compiled module. -/
structure World where
  /-- FFT workspaces -/ fft : Option FftCache
  /-- vector work arrays -/ vec : Option VecCache
  /-- `_GLOBAL_BASIS_CACHE` -/ gB : List ((ℕ × ℕ) × Table)
  /-- `_GLOBAL_DBASIS_CACHE` -/ gD : List ((ℕ × ℕ) × Table)
  /-- `_GLOBAL_BASIS_TRANSPOSED_CACHE` -/ gBT : List ((ℕ × ℕ) × Table)
  /-- `_GLOBAL_DBASIS_TRANSPOSED_CACHE` -/ gDT : List ((ℕ × ℕ) × Table)
  /-- `_GLOBAL_GAUSSIAN_GEOMETRY_CACHE` -/ geom : List (ℕ × ((ℕ → ℝ) × (ℕ → ℝ)))

/-- After import. -/
def World.fresh : World := ⟨none, none, [], [], [], [], []⟩

/-- The dictionaries of an object (reduced_gaussian.py:142-145). -/
structure Caches where
  /-- `_basis_cache` -/ b : List (ℕ × Table)
  /-- `_dbasis_cache` -/ d : List (ℕ × Table)
  /-- `_basis_transposed_cache` -/ bT : List (ℕ × Table)
  /-- `_dbasis_transposed_cache` -/ dT : List (ℕ × Table)

/-- After construction. -/
def Caches.fresh : Caches := ⟨[], [], [], []⟩

/-- A method body on the world and the object's dictionaries; what was stored before an exception stays. -/
abbrev M (α : Type) := ExceptT Fail (StateM (World × Caches)) α

/-- `_cache_basis_array` (reduced_gaussian.py:55-65): the oldest entry goes when the dictionary is full. -/
def cacheBasis (max : ℕ) (d : List ((ℕ × ℕ) × Table)) (key : ℕ × ℕ) (value : Table) : List ((ℕ × ℕ) × Table) :=
  if (d.lookup key).isSome then d
  else (if d.length ≥ max then d.tail else d) ++ [(key, value)]

/-- `_cached_gaussian_geometry` (reduced_gaussian.py:68-82) with `gaussian_lats_wts` (spherical_harmonics.py:1752-1775):
latitudes `90 - θ·180/π`, of which the cosine is taken. -/
noncomputable def geometry (lib : Lib) (W : World) (nlat : ℕ) : ((ℕ → ℝ) × (ℕ → ℝ)) × World :=
  match W.geom.lookup nlat with
  | some g => (g, W)
  | none =>
    let lat := fun j => 90 - lib.theta nlat j * (180 / Real.pi)
    let g : (ℕ → ℝ) × (ℕ → ℝ) := (lib.weight nlat, fun j => Real.cos (lat j * (Real.pi / 180)))
    (g, { W with geom := W.geom ++ [(nlat, g)] })

/-- `__init__` (reduced_gaussian.py:105-145) with `_validate_pl` (147-156) and `_validate_legfunc` (158-164). `pl` holds
integers that fit 32 bits. -/
noncomputable def construct (lib : Lib) (W : World) (pl : NDArr ℤ) (rsphere : ℝ) (legfunc precision : String) : Except Fail (Cfg × World) :=
  match pl.shape with
  | [n] =>
    if n < 3 then .error .validation
    else if (List.range n).any fun j => decide (pl.get [j] < 4) then .error .validation
    else if legfunc ≠ "stored" ∧ legfunc ≠ "computed" then .error .validation
    else match validatePrecision precision with
      | .error e => .error e
      | .ok prec =>
        if rsphere ≤ 0 then .error .validation
        else
          let g := geometry lib W n
          .ok (⟨(List.range n).map fun j => (pl.get [j]).toNat, rsphere, legfunc, prec, g.1.1, g.1.2⟩, g.2)
  | _ => .error .validation

/-! ### Tables -/

/-- A call of a compiled routine. -/
def raise {α : Type} : Except ℕ α → M α
  | .ok a => pure a
  | .error e => throw (.spherepack e)

/-- A step that does not touch the state. -/
def lift {α : Type} : Except Fail α → M α
  | .ok a => pure a
  | .error e => throw e

/-- `_basis` (reduced_gaussian.py:225-253). -/
def basisM (lib : Lib) (c : Cfg) (T : ℕ) : M Table := do
  let s ← get
  match s.2.b.lookup T with
  | some b => return b
  | none =>
    match s.1.gB.lookup (c.nlat, T) with
    | some b => do
      modify fun s => (s.1, { s.2 with b := s.2.b ++ [(T, b)] })
      return b
    | none => do
      let b ← raise (legendreBasis c.nlat T (lib.leg c.nlat))
      modify fun s => ({ s.1 with gB := cacheBasis 2 s.1.gB (c.nlat, T) b }, { s.2 with b := s.2.b ++ [(T, b)] })
      return b

/-- `_dbasis` (reduced_gaussian.py:255-292). -/
noncomputable def dbasisM (E : Env) (lib : Lib) (c : Cfg) (T : ℕ) : M Table := do
  let s ← get
  match s.2.d.lookup T with
  | some d => return d
  | none =>
    match s.1.gD.lookup (c.nlat, T) with
    | some d => do
      modify fun s => (s.1, { s.2 with d := s.2.d ++ [(T, d)] })
      return d
    | none => do
      let b ← basisM lib c T
      let d ← raise (legendreDeriv c.nlat T (lib.theta c.nlat) b E)
      modify fun s => ({ s.1 with gD := cacheBasis 2 s.1.gD (c.nlat, T) d }, { s.2 with d := s.2.d ++ [(T, d)] })
      return d

/-- `_basis_transposed` (reduced_gaussian.py:299-309): the module's dictionary. -/
def sharedBasisTM (lib : Lib) (c : Cfg) (T : ℕ) : M Table := do
  let s ← get
  match s.1.gBT.lookup (c.nlat, T) with
  | some b => return b
  | none => do
    let b ← basisM lib c T
    let t : Table := fun nm j => b j nm
    modify fun s => ({ s.1 with gBT := cacheBasis 1 s.1.gBT (c.nlat, T) t }, s.2)
    return t

/-- `_basis_transposed` (reduced_gaussian.py:294-310). -/
def basisTM (lib : Lib) (c : Cfg) (T : ℕ) : M Table := do
  let s ← get
  match s.2.bT.lookup T with
  | some b => return b
  | none => do
    let b ← sharedBasisTM lib c T
    modify fun s => (s.1, { s.2 with bT := s.2.bT ++ [(T, b)] })
    return b

/-- `_dbasis_transposed` (reduced_gaussian.py:317-327): the module's dictionary. -/
noncomputable def sharedDbasisTM (E : Env) (lib : Lib) (c : Cfg) (T : ℕ) : M Table := do
  let s ← get
  match s.1.gDT.lookup (c.nlat, T) with
  | some d => return d
  | none => do
    let d ← dbasisM E lib c T
    let t : Table := fun nm j => d j nm
    modify fun s => ({ s.1 with gDT := cacheBasis 1 s.1.gDT (c.nlat, T) t }, s.2)
    return t

/-- `_dbasis_transposed` (reduced_gaussian.py:312-328). -/
noncomputable def dbasisTM (E : Env) (lib : Lib) (c : Cfg) (T : ℕ) : M Table := do
  let s ← get
  match s.2.dT.lookup T with
  | some d => return d
  | none => do
    let d ← sharedDbasisTM E lib c T
    modify fun s => (s.1, { s.2 with dT := s.2.dT ++ [(T, d)] })
    return d

/-! ### Validation and shapes -/

/-- `_validate_ntrunc` (reduced_gaussian.py:215-223). -/
def validateNtrunc (c : Cfg) (t : Option ℤ) : Except Fail ℕ :=
  match t with
  | none => .ok (c.nlat - 1)
  | some t => if t < 0 ∨ t > (c.nlat : ℤ) - 1 then .error .validation else .ok t.toNat

/-- `_validate_grid_data` (reduced_gaussian.py:330-354): the extra dimensions, and the data with these flattened to one. -/
def validateGrid (c : Cfg) (x : NDArr ℝ) : Except Fail (List ℕ × NDArr ℝ) :=
  match x.shape with
  | [] => .error .validation
  | p :: extra =>
    if p ≠ c.npoints then .error .validation
    else match x.reshape [c.npoints, extra.prod] with
      | some y => .ok (extra, y)
      | none => .error .validation

/-- `_validate_spectral_data` (reduced_gaussian.py:356-392); `ntruncOf` is the expression of line 366. -/
noncomputable def validateSpec (c : Cfg) (s : NDArr ℂ) : Except Fail (ℤ × List ℕ × NDArr ℂ) :=
  match s.shape with
  | [] => .error .validation
  | len :: extra =>
    let t := Spectral.ntruncOf len
    if (t + 1) * (t + 2) / 2 ≠ (len : ℤ) then .error .validation
    else if t > (c.nlat : ℤ) - 1 then .error .validation
    else match s.reshape [len, extra.prod] with
      | some y => .ok (t, extra, y)
      | none => .error .validation

/-- A flattened array as Fortran sees it: position, slice, from 1. -/
def toF {α : Type} (y : NDArr α) : ℕ → ℕ → α := fun p k => y.get [p - 1, k - 1]

/-- Back to NumPy. -/
def ofF {α : Type} [Zero α] (len nt : ℕ) (f : ℕ → ℕ → α) : NDArr α :=
  ⟨[len, nt], fun idx => match idx with | [a, b] => f (a + 1) (b + 1) | _ => 0⟩

/-- `_restore_spectral_shape`, `_restore_grid_shape` (reduced_gaussian.py:394-430) without the conversion of the number type. -/
def restore {α : Type} (len : ℕ) (extra : List ℕ) (s : NDArr α) : Except Fail (NDArr α) :=
  if extra = [] then .ok ⟨[len], fun idx => s.get (idx ++ [0])⟩
  else match s.reshape (len :: extra) with
    | some y => .ok y
    | none => .error .validation

/-- `_validate_paired_grid_data` (reduced_gaussian.py:744-754). -/
def validateWind (c : Cfg) (u v : NDArr ℝ) : Except Fail (List ℕ × NDArr ℝ × NDArr ℝ) := do
  if u.shape ≠ v.shape then throw .validation
  let (extra, y) ← validateGrid c u
  let (vextra, z) ← validateGrid c v
  if extra ≠ vextra then throw .validation
  return (extra, y, z)

/-- `_validate_paired_spectral_data` (reduced_gaussian.py:756-770). -/
noncomputable def validatePair (c : Cfg) (s t : NDArr ℂ) : Except Fail (ℤ × List ℕ × NDArr ℂ × NDArr ℂ) := do
  if s.shape ≠ t.shape then throw .validation
  let (n, extra, y) ← validateSpec c s
  let (n', extra', z) ← validateSpec c t
  if extra.prod ≠ extra'.prod ∨ n ≠ n' ∨ extra ≠ extra' then throw .validation
  return (n, extra, y, z)

/-! ### Calls of the kernels -/

/-- A kernel that uses the FFT workspaces. -/
def withFft {α : Type} (f : Option FftCache → Except ℕ (α × FftCache)) : M α := do
  let s ← get
  let (a, e) ← raise (f s.1.fft)
  modify fun s => ({ s.1 with fft := some e }, s.2)
  return a

/-- `_analyze_scalar` (reduced_gaussian.py:432-452). -/
noncomputable def analyzeScalar (E : Env) (lib : Lib) (c : Cfg) (nt : ℕ) (x : ℕ → ℕ → ℝ) (ntrunc : Option ℤ) : M (ℕ → ℕ → ℂ) := do
  let T ← lift (validateNtrunc c ntrunc)
  let b ← basisM lib c T
  withFft fun e => RedGauss.grdtospec E e x c.row c.weights b c.npoints c.nlat T nt

/-- `_synthesize_scalar` (reduced_gaussian.py:454-474); `nmdim` is the length of the spectrum. -/
noncomputable def synthesizeScalar (E : Env) (lib : Lib) (c : Cfg) (nmdim nt : ℕ) (s : ℕ → ℕ → ℂ) (ntrunc : Option ℤ) : M (ℕ → ℕ → ℝ) := do
  let T ← lift (validateNtrunc c ntrunc)
  let b ← basisTM lib c T
  withFft fun e => RedGauss.spectogrd E e s c.row (fun j nm => b nm j) nmdim c.nlat T nt c.npoints

/-- `_synthesize_scalar_pair` (reduced_gaussian.py:476-514). -/
noncomputable def synthesizePair (E E' : Env) (lib : Lib) (c : Cfg) (nmdim nt : ℕ) (s t : ℕ → ℕ → ℂ) (ntrunc : Option ℤ) : M ((ℕ → ℕ → ℝ) × (ℕ → ℕ → ℝ)) := do
  let T ← lift (validateNtrunc c ntrunc)
  if nt = 1 then
    let a ← synthesizeScalar E lib c nmdim nt s (some T)
    let b ← synthesizeScalar E' lib c nmdim nt t (some T)
    return (a, b)
  else
    let b ← basisTM lib c T
    let g ← withFft fun e => RedGauss.spectogrdPair E e s t c.row (fun j nm => b nm j) nmdim c.nlat T nt c.npoints
    return (g 1, g 2)

/-- `_analyze_wind` (reduced_gaussian.py:516-546): (`divspec`, `vrtspec`). -/
noncomputable def analyzeWind (E : Env) (lib : Lib) (c : Cfg) (nt : ℕ) (u v : ℕ → ℕ → ℝ) (ntrunc : Option ℤ) : M (ℕ → ℕ → ℂ × ℂ) := do
  let T ← lift (validateNtrunc c ntrunc)
  let b ← basisTM lib c T
  let d ← dbasisTM E lib c T
  let s ← get
  let (a, e, ve) ← raise (RedGauss.getvrtdivspec E s.1.fft s.1.vec u v c.row c.weights (fun j nm => b nm j) (fun j nm => d nm j) c.sinTheta c.npoints c.nlat T nt c.rsphere)
  modify fun s => ({ s.1 with fft := some e, vec := some ve }, s.2)
  return a

/-- `_analyze_vorticity` (component 1) and `_analyze_divergence` (component 2) (reduced_gaussian.py:548-612). -/
noncomputable def analyzeComponent (E : Env) (lib : Lib) (c : Cfg) (nt : ℕ) (u v : ℕ → ℕ → ℝ) (ntrunc : Option ℤ) (component : ℕ) : M (ℕ → ℕ → ℂ) := do
  let T ← lift (validateNtrunc c ntrunc)
  let b ← basisTM lib c T
  let d ← dbasisTM E lib c T
  withFft fun e => getvecspecComponent E e u v c.row c.weights (fun j nm => b nm j) (fun j nm => d nm j) c.sinTheta c.npoints c.nlat T nt c.rsphere component

/-- `_synthesize_gradient` (reduced_gaussian.py:614-655). -/
noncomputable def synthesizeGrad (E : Env) (lib : Lib) (c : Cfg) (nmdim nt : ℕ) (s : ℕ → ℕ → ℂ) (ntrunc : Option ℤ) : M Grids := do
  let T ← lift (validateNtrunc c ntrunc)
  let b ← basisTM lib c T
  let d ← dbasisTM E lib c T
  withFft fun e => RedGauss.getgrad E e s c.row (fun j nm => b nm j) (fun j nm => d nm j) c.sinTheta nmdim c.nlat T nt c.npoints c.rsphere

/-- `_synthesize_gradient_pair` (reduced_gaussian.py:657-690). -/
noncomputable def synthesizeGradPair (E : Env) (lib : Lib) (c : Cfg) (nmdim nt : ℕ) (s t : ℕ → ℕ → ℂ) (ntrunc : Option ℤ) : M Grids := do
  let T ← lift (validateNtrunc c ntrunc)
  let b ← basisTM lib c T
  let d ← dbasisTM E lib c T
  withFft fun e => getgradPair E e s t c.row (fun j nm => b nm j) (fun j nm => d nm j) c.sinTheta nmdim c.nlat T nt c.npoints c.rsphere

/-! ### Public methods -/

/-- Number of coefficients of truncation `T` (the bindings size the output by the table, `_spherepack_reduced_module.c:327`). -/
def specLen (T : ℕ) : ℕ := (T + 1) * (T + 2) / 2

/-- Length of a spectrum. -/
def headLen {α : Type} (s : NDArr α) : ℕ := s.shape.headD 0

/-- `grdtospec` (reduced_gaussian.py:695-714). -/
noncomputable def grdtospecM (E : Env) (lib : Lib) (c : Cfg) (x : NDArr ℝ) (ntrunc : Option ℤ) : M (NDArr ℂ) := do
  let (extra, y) ← lift (validateGrid c x)
  let T ← lift (validateNtrunc c ntrunc)
  let z ← analyzeScalar E lib c extra.prod (toF y) (some T)
  lift (restore (specLen T) extra (ofF (specLen T) extra.prod z))

/-- `spectogrd` (reduced_gaussian.py:716-727). -/
noncomputable def spectogrdM (E : Env) (lib : Lib) (c : Cfg) (s : NDArr ℂ) : M (NDArr ℝ) := do
  let (t, extra, y) ← lift (validateSpec c s)
  let g ← synthesizeScalar E lib c (headLen s) extra.prod (toF y) (some t)
  lift (restore c.npoints extra (ofF c.npoints extra.prod g))

/-- `_spectogrd_pair` (reduced_gaussian.py:729-742). -/
noncomputable def spectogrdPairM (E E' : Env) (lib : Lib) (c : Cfg) (s t : NDArr ℂ) : M (NDArr ℝ × NDArr ℝ) := do
  let (n, extra, y, z) ← lift (validatePair c s t)
  let (a, b) ← synthesizePair E E' lib c (headLen s) extra.prod (toF y) (toF z) (some n)
  let a ← lift (restore c.npoints extra (ofF c.npoints extra.prod a))
  let b ← lift (restore c.npoints extra (ofF c.npoints extra.prod b))
  return (a, b)

/-- `getvrtdivspec` (reduced_gaussian.py:772-788): vorticity, divergence. -/
noncomputable def getvrtdivspecM (E : Env) (lib : Lib) (c : Cfg) (u v : NDArr ℝ) (ntrunc : Option ℤ) : M (NDArr ℂ × NDArr ℂ) := do
  let (extra, y, z) ← lift (validateWind c u v)
  let T ← lift (validateNtrunc c ntrunc)
  let a ← analyzeWind E lib c extra.prod (toF y) (toF z) (some T)
  let vrt ← lift (restore (specLen T) extra (ofF (specLen T) extra.prod fun p k => (a p k).2))
  let div ← lift (restore (specLen T) extra (ofF (specLen T) extra.prod fun p k => (a p k).1))
  return (vrt, div)

/-- `getvrtspec` (`component = 1`, reduced_gaussian.py:790-801) and `getdivspec` (`component = 2`, 803-814). -/
noncomputable def getcomponentM (E : Env) (lib : Lib) (c : Cfg) (u v : NDArr ℝ) (ntrunc : Option ℤ) (component : ℕ) : M (NDArr ℂ) := do
  let (extra, y, z) ← lift (validateWind c u v)
  let T ← lift (validateNtrunc c ntrunc)
  let a ← analyzeComponent E lib c extra.prod (toF y) (toF z) (some T) component
  lift (restore (specLen T) extra (ofF (specLen T) extra.prod a))

/-- `_invlap` (reduced_gaussian.py:692-693). -/
noncomputable def invlapF (c : Cfg) (len nt : ℕ) (s : ℕ → ℕ → ℂ) : ℕ → ℕ → ℂ := fun p k =>
  ((Spectral.invlap len nt c.rsphere (fun q => s q.1 q.2) fun _ => 0).getD fun _ => 0) (p, k)

/-- `getuv` (reduced_gaussian.py:816-836). -/
noncomputable def getuvM (E : Env) (lib : Lib) (c : Cfg) (vrt div : NDArr ℂ) : M (NDArr ℝ × NDArr ℝ) := do
  let (n, extra, y, z) ← lift (validatePair c vrt div)
  let psi := invlapF c (headLen vrt) extra.prod (toF y)
  let chi := invlapF c (headLen vrt) extra.prod (toF z)
  let g ← synthesizeGradPair E lib c (headLen vrt) extra.prod chi psi (some n)
  let u ← lift (restore c.npoints extra (ofF c.npoints extra.prod fun p k => g 1 p k - g 4 p k))
  let v ← lift (restore c.npoints extra (ofF c.npoints extra.prod fun p k => g 2 p k + g 3 p k))
  return (u, v)

/-- `getgrad` (reduced_gaussian.py:838-849). -/
noncomputable def getgradM (E : Env) (lib : Lib) (c : Cfg) (s : NDArr ℂ) : M (NDArr ℝ × NDArr ℝ) := do
  let (t, extra, y) ← lift (validateSpec c s)
  let g ← synthesizeGrad E lib c (headLen s) extra.prod (toF y) (some t)
  let u ← lift (restore c.npoints extra (ofF c.npoints extra.prod (g 1)))
  let v ← lift (restore c.npoints extra (ofF c.npoints extra.prod (g 2)))
  return (u, v)

/-- `getgrad_pair` (reduced_gaussian.py:851-874). -/
noncomputable def getgradPairM (E : Env) (lib : Lib) (c : Cfg) (s t : NDArr ℂ) : M ((NDArr ℝ × NDArr ℝ) × (NDArr ℝ × NDArr ℝ)) := do
  let (n, extra, y, z) ← lift (validatePair c s t)
  let g ← synthesizeGradPair E lib c (headLen s) extra.prod (toF y) (toF z) (some n)
  let u ← lift (restore c.npoints extra (ofF c.npoints extra.prod (g 1)))
  let v ← lift (restore c.npoints extra (ofF c.npoints extra.prod (g 2)))
  let u' ← lift (restore c.npoints extra (ofF c.npoints extra.prod (g 3)))
  let v' ← lift (restore c.npoints extra (ofF c.npoints extra.prod (g 4)))
  return ((u, v), (u', v'))

/-- `_invlapspec` (reduced_gaussian.py:876-886). -/
noncomputable def invlapspecM (c : Cfg) (s : NDArr ℂ) : M (NDArr ℂ) := do
  let (_, extra, y) ← lift (validateSpec c s)
  lift (restore (headLen s) extra (ofF (headLen s) extra.prod (invlapF c (headLen s) extra.prod (toF y))))

/-- `specsmooth` (reduced_gaussian.py:888-900). -/
noncomputable def specsmoothM (E E' : Env) (lib : Lib) (c : Cfg) (x smooth : NDArr ℝ) : M (NDArr ℝ) := do
  if smooth.shape ≠ [c.nlat] then throw .validation
  let s ← grdtospecM E lib c x none
  let (_, extra, y) ← lift (validateSpec c s)
  let len := headLen s
  let z := (Spectral.multsmoothfact c.nlat len extra.prod (fun q => toF y q.1 q.2) (fun n => smooth.get [n - 1]) fun _ => 0).getD fun _ => 0
  let r ← lift (restore len extra (ofF len extra.prod fun p k => z (p, k)))
  spectogrdM E' lib c r

end Skyborn.RedGauss
