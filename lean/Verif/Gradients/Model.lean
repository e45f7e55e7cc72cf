/-
Model of /repo/src/skyborn/gradients.py.

`none` = the Python code raises (ValueError of the size check, IndexError of a bad axis, or a broadcasting error). Fields are real
valued without NaN; division by zero (repeated coordinates) is not given a meaning: the theorems assume distinct coordinates. An
integer field in `calculate_zonal_gradient` (result array of integer dtype, so values are truncated) is not modelled.
-/
import Verif.Common.ND
import Verif.Common.Grid2
import Mathlib.Algebra.Order.Field.Basic
import Mathlib.Tactic.FieldSimp
import Mathlib.Tactic.NormNum
import Mathlib.Analysis.SpecialFunctions.Trigonometric.Basic
import Mathlib.Analysis.Real.Pi.Bounds

namespace Skyborn.Gradients

open Skyborn

/-- Python's reading of a possibly negative axis of an array with `nd` dimensions; `none` = IndexError. -/
def normAxis (nd : ℕ) (axis : ℤ) : Option ℕ :=
  if 0 ≤ axis ∧ axis < nd then some axis.toNat
  else if axis < 0 ∧ 0 ≤ axis + nd then some (axis + nd).toNat
  else none

section
variable {K : Type} [Field K] [LinearOrder K]

/-- `field[tuple(idx)]` with `idx[axis] = j` and full slices elsewhere (as a function of the full multi-index, whose `axis` entry is
ignored); `none` = IndexError. -/
def take (f : NDArr K) (k j : ℕ) : Option (List ℕ → K) :=
  if j < f.shape.getD k 0 then some fun idx => f.get (idx.set k j) else none

/-- `gradient[tuple(idx)] = v` with `idx[axis] = j`. -/
def put (g : NDArr K) (k j : ℕ) (v : List ℕ → K) : Option (NDArr K) :=
  if j < g.shape.getD k 0 then some ⟨g.shape, fun idx => if idx.getD k 0 = j then v idx else g.get idx⟩ else none

/-- `np.allclose(dx, dx[0])` with the default tolerances rtol = 1e-5, atol = 1e-8 (`n` = number of distances). -/
def allClose (n : ℕ) (d : ℕ → K) : Bool :=
  (List.range (n - 1)).all fun i => decide (|(d (i + 1) - d i) - (d 1 - d 0)| ≤ 1 / 10 ^ 8 + 1 / 10 ^ 5 * |d 1 - d 0|)

/-- gradients.py:62-94, the branch for uniform spacing. -/
def uniformGrad (f : NDArr K) (k n : ℕ) (d : ℕ → K) (g : NDArr K) : Option (NDArr K) := do
  let h := d 1 - d 0
  let g ← forM 1 (n - 1) g fun i g => do
    let fw ← take f k (i + 1)
    let bw ← take f k (i - 1)
    put g k i fun idx => (fw idx - bw idx) / (2 * h)
  let l ← take f k 0
  let lp ← take f k 1
  let g ← put g k 0 fun idx => (lp idx - l idx) / h
  let r ← take f k (n - 1)
  let rm ← take f k (n - 2)
  put g k (n - 1) fun idx => (r idx - rm idx) / h

/-- gradients.py:96-131, the branch for variable spacing. -/
def generalGrad (f : NDArr K) (k n : ℕ) (d : ℕ → K) (g : NDArr K) : Option (NDArr K) :=
  forM 0 n g fun i g =>
    if i = 0 then do
      let p ← take f k 1
      let c ← take f k i
      put g k i fun idx => (p idx - c idx) / (d 1 - d 0)
    else if i = n - 1 then do
      let c ← take f k i
      let m ← take f k (i - 1)
      put g k i fun idx => (c idx - m idx) / (d i - d (i - 1))
    else do
      let fw ← take f k (i + 1)
      let bw ← take f k (i - 1)
      let c ← take f k i
      let h1 := d i - d (i - 1)
      let h2 := d (i + 1) - d i
      put g k i fun idx => -h2 / (h1 * (h1 + h2)) * bw idx + (h2 - h1) / (h1 * h2) * c idx + h1 / (h2 * (h1 + h2)) * fw idx

/-- gradients.py:41-46: the distances used (`pi` = np.pi). -/
def distances (pi : K) (x : ℕ → K) (radius : Option K) : ℕ → K :=
  match radius with
  | some r => fun i => x i * pi / 180 * r
  | none => x

/-- gradients.py:16-133 `calculate_gradient`; `nx`, `x` = the one-dimensional coordinate array. -/
def calculateGradient (pi : K) (f : NDArr K) (nx : ℕ) (x : ℕ → K) (axis : ℤ) (radius : Option K) : Option (NDArr K) := do
  let k ← normAxis f.shape.length axis
  let n := f.shape.getD k 0
  if nx ≠ n then none
  else
    let d := distances pi x radius
    let g : NDArr K := ⟨f.shape, fun _ => 0⟩
    if n < 2 then return g
    else if allClose n d then uniformGrad f k n d g
    else generalGrad f k n d g

/-- gradients.py:136-153 `calculate_meridional_gradient`. -/
def meridionalGradient (pi : K) (f : NDArr K) (nlat : ℕ) (lat : ℕ → K) (latAxis : ℤ) (radius : K) : Option (NDArr K) :=
  calculateGradient pi f nlat lat latAxis (some radius)

/-- gradients.py:156-169 `calculate_vertical_gradient`. -/
def verticalGradient (pi : K) (f : NDArr K) (np : ℕ) (p : ℕ → K) (pAxis : ℤ) : Option (NDArr K) :=
  calculateGradient pi f np p pAxis none

/-- `field[tuple(idx)]` with `idx[axis] = i`: the array without that axis. -/
def sliceAxis (f : NDArr K) (k i : ℕ) : Option (NDArr K) :=
  if i < f.shape.getD k 0 then some ⟨f.shape.eraseIdx k, fun r => f.get (r.insertIdx k i)⟩ else none
end

/-- gradients.py:197-211: the 3-D and 4-D branches, for coordinate vectors as long as the field's axes. `effective_distances` has
`nlat * nlon` entries, which is what the size check compares with `nlon`. When it passes (`nlat = 1`), `dx[0]` keeps `nlon - 1`
columns and assigning the quotient to a slice with one column raises, unless `nlon = 2`. -/
noncomputable def zonalDefault (f : NDArr ℝ) (nlon : ℕ) (lon : ℕ → ℝ) (nlat : ℕ) (lat : ℕ → ℝ) (lonAxis : ℤ) (radius : ℝ) : Option (NDArr ℝ) :=
  let cosLat := Real.cos (lat 0 * (Real.pi / 180))
  if nlat * nlon ≠ nlon then none
  else if nlon < 2 then some ⟨f.shape, fun _ => 0⟩
  else if nlon = 2 then calculateGradient Real.pi f nlon (fun i => lon i * (Real.pi / 180) * radius * cosLat) lonAxis (some 1)
  else none

/-- gradients.py:214-238: the branch for the other layouts, one latitude at a time. -/
noncomputable def zonalLoop (f : NDArr ℝ) (nlon : ℕ) (lon : ℕ → ℝ) (nlat : ℕ) (lat : ℕ → ℝ) (lonAxis latAxis : ℤ) (radius : ℝ) :
    Option (NDArr ℝ) := do
  let q ← normAxis f.shape.length latAxis
  let cosLat : ℕ → ℝ := fun i => Real.cos (lat i * (Real.pi / 180))
  let effLon : ℕ → ℝ := fun i => lon i * (Real.pi / 180) * radius
  forM 0 nlat (⟨f.shape, fun _ => 0⟩ : NDArr ℝ) fun i g => do
    let cur : ℕ → ℝ := fun j => effLon j * cosLat i
    let s ← sliceAxis f q i
    let r ← calculateGradient Real.pi s nlon cur lonAxis (some 1)
    put g q i fun idx => r.get (idx.eraseIdx q)

/-- gradients.py:172-238 `calculate_zonal_gradient`. -/
noncomputable def zonalGradient (f : NDArr ℝ) (nlon : ℕ) (lon : ℕ → ℝ) (nlat : ℕ) (lat : ℕ → ℝ) (lonAxis latAxis : ℤ) (radius : ℝ) :
    Option (NDArr ℝ) :=
  if (f.shape.length = 4 ∨ f.shape.length = 3) ∧ lonAxis = -1 ∧ latAxis = -2 then zonalDefault f nlon lon nlat lat lonAxis radius
  else zonalLoop f nlon lon nlat lat lonAxis latAxis radius

end Skyborn.Gradients
