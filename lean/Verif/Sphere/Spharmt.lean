/-
The `Spharmt` methods: validation, packing of the coefficients, the transforms, restoration of the shapes.

Modelled: `/repo/src/skyborn/spharm/spherical_harmonics.py` lines 578-1749. The packing routines are those of
`Verif.Spectral.Model` (loop by loop), the length tests those of `Verif.Sphere.Lengths`.

What stands for the SPHEREPACK workers: a synthesis is the expansion its documentation states
(`Verif.Sphere.Field`), restricted to the modes its loops visit, evaluated at the grid points; an analysis is a
parameter of the instance, of which nothing is assumed here except which slots it writes. Numbers are real
(the conversions to 32-bit floats and back are not modelled), so inputs with NaN or infinities are outside the
model of this file.
-/
import Verif.Sphere.Lengths
import Verif.Sphere.Field
import Verif.Spectral.Closed
import Verif.Common.ND

namespace Skyborn.Sphere

open Skyborn Skyborn.Spectral

/-! ### Instances -/

/-- A constructed `Spharmt` (spherical_harmonics.py:195-236). The analyses act on one slice, indexed from zero by
row and column; the coefficients are indexed by wavenumbers `m`, `n` from zero. -/
structure Inst where
  /-- rows -/ nlat : ℕ
  /-- columns -/ nlon : ℕ
  /-- radius of the sphere -/ rsphere : ℝ
  /-- `gridtype` -/ grid : Grid
  /-- `legfunc` -/ leg : Leg
  /-- latitude of row `i` in radians -/ lat : ℕ → ℝ
  /-- `shaes`/`shaec`/`shags`/`shagc`: coefficients `(a, b)` -/
  anaS : (ℕ → ℕ → ℝ) → ℕ → ℕ → ℝ × ℝ
  /-- `vhaes`/`vhaec`/`vhags`/`vhagc` of `(v, w)` with `ityp = 0`: `(br, bi, cr, ci)` -/
  anaV : (ℕ → ℕ → ℝ) → (ℕ → ℕ → ℝ) → ℕ → ℕ → ℝ × ℝ × ℝ × ℝ
  /-- the same with `ityp = 1`: `(br, bi)` -/
  anaDiv : (ℕ → ℕ → ℝ) → (ℕ → ℕ → ℝ) → ℕ → ℕ → ℝ × ℝ
  /-- the same with `ityp = 2`: `(cr, ci)` -/
  anaVrt : (ℕ → ℕ → ℝ) → (ℕ → ℕ → ℝ) → ℕ → ℕ → ℝ × ℝ

/-- Longitude of column `j` in radians (shaes.f: `phi(j) = (j-1)*2*pi/nlon`). -/
noncomputable def Inst.lon (I : Inst) (j : ℕ) : ℝ := 2 * Real.pi * j / I.nlon

/-- The ways a call can fail: an exception, a read or write outside an array, or a result that contains a
number never computed (uninitialised memory, or not finite). -/
inductive Fail
  | err (e : Err)
  | outOfBounds
  | undefined
  deriving DecidableEq

/-- `_call_spherepack_safely` (spherical_harmonics.py:328-345). -/
def raise : Except Err Unit → Except Fail Unit
  | .ok () => .ok ()
  | .error e => .error (.err e)

/-- A compiled routine that stays inside its arrays, or not. -/
def inside {α : Type} : Option α → Except Fail α
  | some a => .ok a
  | none => .error .outOfBounds

/-! ### Modes the loops visit -/

/-- Modes of the scalar transforms: `mmax = min(nlat, nlon/2+1)` (shaes.f90:99, shses.f90, shaec, shags, shagc). -/
def sModes (nlat nlon : ℕ) : Finset (ℕ × ℕ) :=
  (Finset.range nlat ×ˢ Finset.range nlat).filter fun p => p.1 ≤ p.2 ∧ p.1 < min nlat (nlon / 2 + 1)

/-- Modes of the vector transforms: `mmax = min(nlat, (nlon+1)/2)`, `np1 ≥ 2`, and the limits `ndo1`, `ndo2`
which leave out `n = nlat - 1` for even `m` (vhses.f90:346, 382-385, 397, 406, 426, 459; the same in vhsec, vhsgs,
vhsgc, vhaes, vhaec, vhags, vhagc). -/
def vModes (nlat nlon : ℕ) : Finset (ℕ × ℕ) :=
  (Finset.range nlat ×ˢ Finset.range nlat).filter fun p =>
    p.1 ≤ p.2 ∧ 1 ≤ p.2 ∧ p.1 < min nlat ((nlon + 1) / 2) ∧ (p.2 = nlat - 1 → p.1 % 2 = 1)

/-! ### Validation and shapes -/

/-- `_validate_grid_data` (spherical_harmonics.py:578-603): the extra dimensions and the data with these
flattened to one (`expand_dims` for a two-dimensional array is the same reshape). -/
def validateGrid (I : Inst) (x : NDArr ℝ) : Except Fail (List ℕ × NDArr ℝ) :=
  match x.shape with
  | a :: b :: extra =>
    if a ≠ I.nlat ∨ b ≠ I.nlon then .error (.err .validation)
    else match x.reshape [I.nlat, I.nlon, extra.prod] with
      | some y => .ok (extra, y)
      | none => .error (.err .validation)
  | _ => .error (.err .validation)

/-- `_validate_spectral_data` (spherical_harmonics.py:605-637). -/
noncomputable def validateSpec (I : Inst) (s : NDArr ℂ) : Except Fail (ℕ × List ℕ × NDArr ℂ) :=
  match s.shape with
  | len :: extra =>
    if ntruncOf len > (I.nlat : ℤ) - 1 then .error (.err .validation)
    else match s.reshape [len, extra.prod] with
      | some y => .ok (len, extra, y)
      | none => .error (.err .validation)
  | [] => .error (.err .validation)

/-- `_validate_ntrunc` (spherical_harmonics.py:971-981) with `max_allowed = nlat - 1`. -/
def validateNtrunc (I : Inst) (ntrunc : Option ℤ) : Except Fail ℕ :=
  match ntrunc with
  | none => .ok (I.nlat - 1)
  | some t => if t < 0 ∨ t > (I.nlat : ℤ) - 1 then .error (.err .validation) else .ok t.toNat

/-- `_restore_grid_shape` (spherical_harmonics.py:639-657). -/
def restoreGrid (I : Inst) (extra : List ℕ) (g : NDArr ℝ) : Except Fail (NDArr ℝ) :=
  if extra = [] then .ok ⟨[I.nlat, I.nlon], fun idx => g.get (idx ++ [0])⟩
  else match g.reshape (I.nlat :: I.nlon :: extra) with
    | some y => .ok y
    | none => .error (.err .validation)

/-- `_restore_spectral_shape` (spherical_harmonics.py:659-677). -/
def restoreSpec (len : ℕ) (extra : List ℕ) (s : NDArr ℂ) : Except Fail (NDArr ℂ) :=
  if extra = [] then .ok ⟨[len], fun idx => s.get (idx ++ [0])⟩
  else match s.reshape (len :: extra) with
    | some y => .ok y
    | none => .error (.err .validation)

/-- A two-dimensional spectral array as Fortran sees it: `(nm, i)` from one. -/
def toF (s : NDArr ℂ) : ℕ × ℕ → ℂ := fun p => s.get [p.1 - 1, p.2 - 1]

/-- Back to NumPy. -/
def ofF (len nt : ℕ) (f : ℕ × ℕ → ℂ) : NDArr ℂ :=
  ⟨[len, nt], fun idx => match idx with | [a, b] => f (a + 1, b + 1) | _ => 0⟩

/-- A three-dimensional grid array from its slices; `f k i j`, all from zero. -/
def ofSlices (I : Inst) (nt : ℕ) (f : ℕ → ℕ → ℕ → ℝ) : NDArr ℝ :=
  ⟨[I.nlat, I.nlon, nt], fun idx => match idx with | [i, j, k] => f k i j | _ => 0⟩

/-- Slice `k` (from zero) of a three-dimensional grid array, as an analysis sees it: nothing outside the grid. -/
def sliceOf (I : Inst) (g : NDArr ℝ) (k : ℕ) : ℕ → ℕ → ℝ :=
  fun i j => if i < I.nlat ∧ j < I.nlon then g.get [i, j, k] else 0

/-! ### Scalar transforms -/

/-- Scalar synthesis of the two-dimensional coefficients of `nt` slices. -/
noncomputable def synthS (I : Inst) (nt : ℕ) (a b : ℕ × ℕ × ℕ → ℝ) : NDArr ℝ :=
  ofSlices I nt fun k i j =>
    scalarField (sModes I.nlat I.nlon) (fun m n => a (m + 1, n + 1, k + 1)) (fun m n => b (m + 1, n + 1, k + 1))
      (I.lat i) (I.lon j)

/-- `spectogrd` (spherical_harmonics.py:1056-1131). -/
noncomputable def spectogrd (I : Inst) (s : NDArr ℂ) : Except Fail (NDArr ℝ) := do
  let (len, extra, y) ← validateSpec I s
  let (a, b) ← inside (onedtotwod I.nlat len extra.prod (toF y))
  raise (scalarSynthesis I.grid I.leg I.nlat I.nlon extra.prod)
  restoreGrid I extra (synthS I extra.prod a b)

/-- `grdtospec` (spherical_harmonics.py:983-1054). The analysis writes the rows `m < min(nlat, nlon/2+1)` of its two
arrays, which the binding does not clear (shaes.f90:166-173, _spherepack_module.c:787-788): a truncation that reads
a later row returns what the memory held. -/
noncomputable def grdtospec (I : Inst) (x : NDArr ℝ) (ntrunc : Option ℤ) : Except Fail (NDArr ℂ) := do
  let (extra, y) ← validateGrid I x
  let T ← validateNtrunc I ntrunc
  raise (scalarAnalysis I.grid I.leg I.nlat I.nlon extra.prod)
  if min I.nlat (I.nlon / 2 + 1) < T + 1 ∧ 0 < extra.prod then throw .undefined
  let z ← inside (twodtooned I.nlat T extra.prod
    (fun p => (I.anaS (sliceOf I y (p.2.2 - 1)) (p.1 - 1) (p.2.1 - 1)).1)
    (fun p => (I.anaS (sliceOf I y (p.2.2 - 1)) (p.1 - 1) (p.2.1 - 1)).2))
  restoreSpec (specLen T) extra (ofF (specLen T) extra.prod z)

/-- `_spectogrd_pair` (spherical_harmonics.py:679-688): `np.stack(..., axis=-1)`, one call, the two last entries. -/
noncomputable def spectogrdPair (I : Inst) (s t : NDArr ℂ) : Except Fail (NDArr ℝ × NDArr ℝ) := do
  if s.shape ≠ t.shape then throw (.err .validation)
  let st : NDArr ℂ := ⟨s.shape ++ [2], fun idx => if idx.getLast?.getD 0 = 0 then s.get idx.dropLast else t.get idx.dropLast⟩
  let g ← spectogrd I st
  return (⟨g.shape.dropLast, fun idx => g.get (idx ++ [0])⟩, ⟨g.shape.dropLast, fun idx => g.get (idx ++ [1])⟩)

/-- `_invlapspec` (spherical_harmonics.py:690-700). -/
noncomputable def invlapspec (I : Inst) (s : NDArr ℂ) : Except Fail (NDArr ℂ) := do
  let (len, extra, y) ← validateSpec I s
  let z ← inside (invlap len extra.prod I.rsphere (toF y) fun _ => 0)
  restoreSpec len extra (ofF len extra.prod z)

/-! ### Vector transforms -/

/-- The two grids of a wind, checked and flattened (spherical_harmonics.py:717-722, 832-837). -/
def validateWind (I : Inst) (u v : NDArr ℝ) : Except Fail (List ℕ × NDArr ℝ × NDArr ℝ) := do
  if u.shape ≠ v.shape then throw (.err .validation)
  let (extra, y) ← validateGrid I u
  let (vextra, z) ← validateGrid I v
  if extra ≠ vextra then throw (.err .validation)
  return (extra, y, z)

/-- What SPHEREPACK is given: colatitudinal and eastward components (spherical_harmonics.py:769-771, 886-888). -/
def colat (I : Inst) (z : NDArr ℝ) (k : ℕ) : ℕ → ℕ → ℝ := fun i j => - sliceOf I z k i j

/-- The coefficients a vector analysis leaves: zero outside the modes it visits (vhaes.f90:102-127, 233-259 and the
same in vhaec, vhags, vhagc). -/
def kept (I : Inst) (x : ℕ → ℕ → ℝ) (p : ℕ × ℕ × ℕ) : Option ℝ :=
  if (p.1 - 1, p.2.1 - 1) ∈ vModes I.nlat I.nlon then some (x (p.1 - 1) (p.2.1 - 1)) else some 0

open Classical in
/-- All entries of a packed array are numbers that were computed. -/
noncomputable def settle (len nt : ℕ) (x : ℕ × ℕ → Option ℂ) : Except Fail (ℕ × ℕ → ℂ) :=
  if ∀ p : ℕ × ℕ, 1 ≤ p.1 → p.1 ≤ len → 1 ≤ p.2 → p.2 ≤ nt → (x p).isSome then .ok fun p => (x p).getD 0
  else .error .undefined

/-- `getvrtdivspec` (spherical_harmonics.py:1133-1165, 702-821). -/
noncomputable def getvrtdivspec (I : Inst) (u v : NDArr ℝ) (ntrunc : Option ℤ) : Except Fail (NDArr ℂ × NDArr ℂ) := do
  let (extra, y, z) ← validateWind I u v
  let T ← validateNtrunc I ntrunc
  raise (vectorAnalysis I.grid I.leg .both I.nlat I.nlon extra.prod)
  let c := fun k => I.anaV (colat I z k) (sliceOf I y k)
  let (vrt, div) ← inside (twodtoonedVrtdiv I.nlat T extra.prod I.rsphere
    (fun p => kept I (fun m n => (c (p.2.2 - 1) m n).1) p) (fun p => kept I (fun m n => (c (p.2.2 - 1) m n).2.1) p)
    (fun p => kept I (fun m n => (c (p.2.2 - 1) m n).2.2.1) p) (fun p => kept I (fun m n => (c (p.2.2 - 1) m n).2.2.2) p))
  let vrt ← settle (specLen T) extra.prod vrt
  let div ← settle (specLen T) extra.prod div
  let a ← restoreSpec (specLen T) extra (ofF (specLen T) extra.prod vrt)
  let b ← restoreSpec (specLen T) extra (ofF (specLen T) extra.prod div)
  return (a, b)

/-- `getvrtspec` (spherical_harmonics.py:1167-1177, 823-969). -/
noncomputable def getvrtspec (I : Inst) (u v : NDArr ℝ) (ntrunc : Option ℤ) : Except Fail (NDArr ℂ) := do
  let (extra, y, z) ← validateWind I u v
  let T ← validateNtrunc I ntrunc
  raise (vectorAnalysis I.grid I.leg .vrt I.nlat I.nlon extra.prod)
  let c := fun k => I.anaVrt (colat I z k) (sliceOf I y k)
  let vrt ← inside (twodtoonedVrt I.nlat T extra.prod I.rsphere
    (fun p => kept I (fun m n => (c (p.2.2 - 1) m n).1) p) (fun p => kept I (fun m n => (c (p.2.2 - 1) m n).2) p))
  let vrt ← settle (specLen T) extra.prod vrt
  restoreSpec (specLen T) extra (ofF (specLen T) extra.prod vrt)

/-- `getdivspec` (spherical_harmonics.py:1179-1189, 823-969). -/
noncomputable def getdivspec (I : Inst) (u v : NDArr ℝ) (ntrunc : Option ℤ) : Except Fail (NDArr ℂ) := do
  let (extra, y, z) ← validateWind I u v
  let T ← validateNtrunc I ntrunc
  raise (vectorAnalysis I.grid I.leg .div I.nlat I.nlon extra.prod)
  let c := fun k => I.anaDiv (colat I z k) (sliceOf I y k)
  let div ← inside (twodtoonedDiv I.nlat T extra.prod I.rsphere
    (fun p => kept I (fun m n => (c (p.2.2 - 1) m n).1) p) (fun p => kept I (fun m n => (c (p.2.2 - 1) m n).2) p))
  let div ← settle (specLen T) extra.prod div
  restoreSpec (specLen T) extra (ofF (specLen T) extra.prod div)

/-- An entry of a coefficient array that is finite, or zero. -/
noncomputable def num (x : ℕ × ℕ × ℕ → Option ℝ) (k m n : ℕ) : ℝ := (x (m + 1, n + 1, k + 1)).getD 0

open Classical in
/-- A vector synthesis of `nt` slices and the return to geographic components: `u = w`, `v = -v`
(spherical_harmonics.py:1267-1274, 1341-1345, 1394-1398). A coefficient that is not finite spoils the result
exactly when the loops read it. -/
noncomputable def synthV (I : Inst) (nt : ℕ) (br bi cr ci : ℕ × ℕ × ℕ → Option ℝ) : Except Fail (NDArr ℝ × NDArr ℝ) :=
  if ∀ k < nt, ∀ p ∈ vModes I.nlat I.nlon, ∀ x ∈ [br, bi, cr, ci], (x (p.1 + 1, p.2 + 1, k + 1)).isSome then
    .ok (ofSlices I nt fun k i j =>
          uField (vModes I.nlat I.nlon) (num br k) (num bi k) (num cr k) (num ci k) (I.lat i) (I.lon j),
        ofSlices I nt fun k i j =>
          vField (vModes I.nlat I.nlon) (num br k) (num bi k) (num cr k) (num ci k) (I.lat i) (I.lon j))
  else .error .undefined

/-- `getuv` (spherical_harmonics.py:1405-1457, 1191-1274). -/
noncomputable def getuv (I : Inst) (vrt div : NDArr ℂ) : Except Fail (NDArr ℝ × NDArr ℝ) := do
  if vrt.shape ≠ div.shape then throw (.err .validation)
  let (len, extra, y) ← validateSpec I vrt
  let (dlen, dextra, z) ← validateSpec I div
  if extra.prod ≠ dextra.prod ∨ ntruncOf len ≠ ntruncOf dlen ∨ extra ≠ dextra then throw (.err .validation)
  let (br, bi, cr, ci) ← inside (onedtotwodVrtdiv I.nlat len extra.prod I.rsphere (toF y) (toF z))
  raise (vectorSynthesis I.grid I.leg .both I.nlat I.nlon extra.prod)
  let (u, v) ← synthV I extra.prod br bi cr ci
  let u ← restoreGrid I extra u
  let v ← restoreGrid I extra v
  return (u, v)

/-- `_getuv_spec_component(..., "div")` (spherical_harmonics.py:1276-1345). -/
noncomputable def getuvDiv (I : Inst) (div : NDArr ℂ) : Except Fail (NDArr ℝ × NDArr ℝ) := do
  let (len, extra, y) ← validateSpec I div
  let (br, bi) ← inside (onedtotwodDiv I.nlat len extra.prod I.rsphere (toF y))
  raise (vectorSynthesis I.grid I.leg .div I.nlat I.nlon extra.prod)
  let (u, v) ← synthV I extra.prod br bi (fun _ => some 0) fun _ => some 0
  let u ← restoreGrid I extra u
  let v ← restoreGrid I extra v
  return (u, v)

/-- `_getuv_spec_component(..., "vrt")` (spherical_harmonics.py:1347-1398). -/
noncomputable def getuvVrt (I : Inst) (vrt : NDArr ℂ) : Except Fail (NDArr ℝ × NDArr ℝ) := do
  let (len, extra, y) ← validateSpec I vrt
  let (cr, ci) ← inside (onedtotwodVrt I.nlat len extra.prod I.rsphere (toF y))
  raise (vectorSynthesis I.grid I.leg .vrt I.nlat I.nlon extra.prod)
  let (u, v) ← synthV I extra.prod (fun _ => some 0) (fun _ => some 0) cr ci
  let u ← restoreGrid I extra u
  let v ← restoreGrid I extra v
  return (u, v)

/-- `getgrad` (spherical_harmonics.py:1624-1649). -/
noncomputable def getgrad (I : Inst) (chi : NDArr ℂ) : Except Fail (NDArr ℝ × NDArr ℝ) := do
  let (len, extra, y) ← validateSpec I chi
  let z ← inside (lap len extra.prod I.rsphere (toF y) fun _ => 0)
  let d ← restoreSpec len extra (ofF len extra.prod z)
  getuvDiv I d

/-- `getpsichi_spec_component` (spherical_harmonics.py:1473-1487): `getpsispec` and `getchispec`. -/
noncomputable def getpsispec (I : Inst) (u v : NDArr ℝ) (ntrunc : Option ℤ) : Except Fail (NDArr ℂ) := do
  invlapspec I (← getvrtspec I u v ntrunc)

/-- `getchispec` (spherical_harmonics.py:1497-1503). -/
noncomputable def getchispec (I : Inst) (u v : NDArr ℝ) (ntrunc : Option ℤ) : Except Fail (NDArr ℂ) := do
  invlapspec I (← getdivspec I u v ntrunc)

/-- `getpsi` (spherical_harmonics.py:1534-1553). -/
noncomputable def getpsi (I : Inst) (u v : NDArr ℝ) (ntrunc : Option ℤ) : Except Fail (NDArr ℝ) := do
  spectogrd I (← getpsispec I u v ntrunc)

/-- `getchi` (spherical_harmonics.py:1555-1574). -/
noncomputable def getchi (I : Inst) (u v : NDArr ℝ) (ntrunc : Option ℤ) : Except Fail (NDArr ℝ) := do
  spectogrd I (← getchispec I u v ntrunc)

/-- `getpsichispec` (spherical_harmonics.py:1505-1532). -/
noncomputable def getpsichispec (I : Inst) (u v : NDArr ℝ) (ntrunc : Option ℤ) : Except Fail (NDArr ℂ × NDArr ℂ) := do
  if u.shape ≠ v.shape then throw (.err .validation)
  let (extra, _) ← validateGrid I u
  let T ← validateNtrunc I ntrunc
  let (vrt, div) ← getvrtdivspec I u v (some T)
  let (len, vextra, y) ← validateSpec I vrt
  let (dlen, dextra, z) ← validateSpec I div
  if vextra ≠ extra ∨ dextra ≠ extra then throw (.err .validation)
  let psi ← inside (invlap len extra.prod I.rsphere (toF y) fun _ => 0)
  let chi ← inside (invlap dlen extra.prod I.rsphere (toF z) fun _ => 0)
  let a ← restoreSpec len extra (ofF len extra.prod psi)
  let b ← restoreSpec dlen extra (ofF dlen extra.prod chi)
  return (a, b)

/-- `getpsichi` (spherical_harmonics.py:1576-1622): the statements of `getpsichispec` and one paired synthesis. -/
noncomputable def getpsichi (I : Inst) (u v : NDArr ℝ) (ntrunc : Option ℤ) : Except Fail (NDArr ℝ × NDArr ℝ) := do
  let (a, b) ← getpsichispec I u v ntrunc
  spectogrdPair I a b

/-- `specsmooth` (spherical_harmonics.py:1651-1686). -/
noncomputable def specsmooth (I : Inst) (x : NDArr ℝ) (smooth : NDArr ℝ) : Except Fail (NDArr ℝ) := do
  let _ ← validateGrid I x
  if smooth.shape ≠ [I.nlat] then throw (.err .validation)
  let s ← grdtospec I x (some ((I.nlat : ℤ) - 1))
  let (len, extra, y) ← validateSpec I s
  let z ← inside (multsmoothfact I.nlat len extra.prod (toF y) (fun n => smooth.get [n - 1]) fun _ => 0)
  let s' ← restoreSpec len extra (ofF len extra.prod z)
  spectogrd I s'

/-- `regrid` (spherical_harmonics.py:1691-1749). -/
noncomputable def regrid (A B : Inst) (x : NDArr ℝ) (ntrunc : Option ℤ) (smooth : Option (NDArr ℝ)) :
    Except Fail (NDArr ℝ) := do
  match x.shape with
  | a :: b :: _ => if a ≠ A.nlat ∨ b ≠ A.nlon then throw (.err .validation)
  | _ => throw (.err .validation)
  match smooth with
  | some w => if w.shape ≠ [B.nlat] then throw (.err .validation)
  | none => pure ()
  let t := ntrunc.getD (min ((B.nlat : ℤ) - 1) ((A.nlat : ℤ) - 1))
  let s ← grdtospec A x (some t)
  match smooth with
  | some w =>
    let (len, extra, y) ← validateSpec A s
    let z ← inside (multsmoothfact B.nlat len extra.prod (toF y) (fun n => w.get [n - 1]) fun _ => 0)
    let s' ← restoreSpec len extra (ofF len extra.prod z)
    spectogrd B s'
  | none => spectogrd B s

end Skyborn.Sphere
