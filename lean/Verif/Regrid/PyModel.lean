/-
Model of the regridder classes of /repo/src/skyborn/interp/regridding.py (`regrid_array` of the three regridders) on top of the
kernels of Verif/Regrid/Model.lean. Grids are in radians, as stored in `Grid`. The caching of weights and indices (a frozen
dataclass field filled on first use) is not modelled: the cached value is a function of the grids.
-/
import Verif.Regrid.Model

namespace Skyborn.Regrid

open Skyborn

/-- regridding.py:168-198 `Grid`: the two coordinate vectors. -/
structure Grid (K : Type) where
  nlon : ℕ
  lon : ℕ → K
  nlat : ℕ
  lat : ℕ → K

/-- The C-order data buffer of an array. -/
def NDArr.buf {α : Type} (a : NDArr α) : ℕ → α := fun k => a.get (unravel a.shape k)

/-- The array with a given C-order data buffer. -/
def NDArr.ofBuf {α : Type} (shape : List ℕ) (b : ℕ → α) : NDArr α := ⟨shape, fun idx => b (ravel shape idx)⟩

/-- `field_arr.shape[:-2]`. -/
def lead {α : Type} (a : NDArr α) : List ℕ := a.shape.take (a.shape.length - 2)

/-- `field_arr.shape[-2:]`. -/
def trail {α : Type} (a : NDArr α) : List ℕ := a.shape.drop (a.shape.length - 2)

/-- regridding.py:627-714 `ConservativeRegridder.regrid_array` (`_conservative_nd` / `_conservative_2d`, both the native
`conservative_regrid`, regrid_module.c:297-520). -/
noncomputable def conservativeRegrid (src tgt : Grid ℝ) (field : NDArr (Option ℝ)) : Except RErr (NDArr (Option ℝ)) :=
  if trail field ≠ [src.nlon, src.nlat] then .error .valueError
  else do
    let lonW ← longitudeWeights (2 * Real.pi) src.nlon src.lon tgt.nlon tgt.lon
    let latW ← latitudeWeights Real.sin (Real.pi / 2) src.nlat src.lat tgt.nlat tgt.lat
    let out ← run <| conservativeCore (lead field).prod src.nlon src.nlat tgt.nlon tgt.nlat (NDArr.buf field) lonW latW
    return NDArr.ofBuf (lead field ++ [tgt.nlon, tgt.nlat]) out

section
variable {K : Type} [Field K] [LinearOrder K]

/-- regridding.py:50-52 `_is_strictly_increasing_1d`. -/
def pyStrictInc (n : ℕ) (x : ℕ → K) : Bool := (List.range (n - 1)).all fun i => decide (x (i + 1) - x i > 0)

/-- regridding.py:55-66 `_supports_native_regular_grid`. -/
def supportsNative (src tgt : Grid K) : Bool :=
  decide (src.nlon > 1) && decide (src.nlat > 1) && decide (tgt.nlon > 0) && decide (tgt.nlat > 0) && pyStrictInc src.nlon src.lon &&
    pyStrictInc src.nlat src.lat && pyStrictInc tgt.nlon tgt.lon && pyStrictInc tgt.nlat tgt.lat

/-- `np.interp(x, xp, fp)` (external), as NumPy documents and implements it for increasing `xp` with `n ≥ 1` points: constant
beyond the ends, the table value at a knot, linear in between (with NaN table values propagating through the arithmetic). -/
def npInterp (n : ℕ) (xp : ℕ → K) (fp : ℕ → Option K) (x : K) : Option K :=
  if x ≤ xp 0 then fp 0
  else if x ≥ xp (n - 1) then fp (n - 1)
  else
    let j := Nat.findGreatest (fun j => xp j ≤ x) (n - 2)
    if x = xp j then fp j else lerp ((x - xp j) / (xp (j + 1) - xp j)) (fp j) (fp (j + 1))

/-- regridding.py:416-450 `_bilinear_2d`, the NumPy path, for one slice. `np.interp` with an empty `xp` raises
ValueError; it is only called when the loops run. -/
def bilinearPy (src tgt : Grid K) (field : ℕ → ℕ → Option K) : Except RErr (ℕ → ℕ → Option K) :=
  if (src.nlat = 0 ∧ src.nlon > 0) ∨ (src.nlon = 0 ∧ tgt.nlat > 0) then .error .valueError
  else
    let latInterp : ℕ → ℕ → Option K := fun i j => npInterp src.nlat src.lat (field i) (tgt.lat j)
    .ok fun i j => npInterp src.nlon src.lon (fun c => latInterp c j) (tgt.lon i)

/-- regridding.py:413-481 `BilinearRegridder.regrid_array` (`_bilinear_nd`, `_bilinear_2d`). -/
def bilinearRegrid (src tgt : Grid K) (field : NDArr (Option K)) : Except RErr (NDArr (Option K)) :=
  if trail field ≠ [src.nlon, src.nlat] then .error .valueError
  else if supportsNative src tgt then do
    let out ← bilinearNative (lead field).prod src.nlon src.nlat (NDArr.buf field) src.lon src.lat tgt.nlon tgt.nlat tgt.lon tgt.lat
    return NDArr.ofBuf (lead field ++ [tgt.nlon, tgt.nlat]) out
  else if (lead field).prod > 0 ∧ ((src.nlat = 0 ∧ src.nlon > 0) ∨ (src.nlon = 0 ∧ tgt.nlat > 0)) then .error .valueError
  else
    .ok ⟨lead field ++ [tgt.nlon, tgt.nlat], fun idx =>
      let l := idx.take (lead field).length
      match bilinearPy src tgt (fun c d => field.get (l ++ [c, d])) with
      | .ok r => r (idx.getD (lead field).length 0) (idx.getD ((lead field).length + 1) 0)
      | .error _ => none⟩
end

/-- regridding.py:361-410 `NearestRegridder.regrid_array` (`_nearest_neighbor_nd`); `indices` = the table of nearest
neighbours, whatever computed it (BallTree by default, the compiled search when enabled). -/
def nearestRegrid {α : Type} (nslon nslat ntlon ntlat : ℕ) (nidx : ℕ) (idx : ℕ → ℤ) (field : NDArr α) :
    Except RErr (NDArr (Option α)) :=
  if trail field ≠ [nslon, nslat] then .error .valueError
  else do
    let out ← nearestApply (lead field).prod (nslon * nslat) (NDArr.buf field) nidx idx ntlon ntlat
    return NDArr.ofBuf (lead field ++ [ntlon, ntlat]) out

end Skyborn.Regrid
