/-
Specification vocabulary for regridding, independent of the code's loops.
-/
import Mathlib.Algebra.BigOperators.Group.Finset.Basic
import Mathlib.Algebra.BigOperators.Finprod
import Mathlib.Algebra.Order.Field.Basic
import Mathlib.Analysis.SpecialFunctions.Trigonometric.Basic
import Mathlib.Analysis.SpecialFunctions.Trigonometric.Inverse

namespace Skyborn.Regrid.Spec

variable {K : Type} [Field K] [LinearOrder K]

/-- The first `n` entries increase strictly. -/
def StrictInc (n : ℕ) (x : ℕ → K) : Prop := ∀ i j, i < j → j < n → x i < x j

/-- Boundary number `i` (0..n) of the `n` latitude cells around the points `x`: half-way between neighbouring points, the
poles at the two ends. -/
def latEdge (halfpi : K) (n : ℕ) (x : ℕ → K) (i : ℕ) : K :=
  if i = 0 then -halfpi else if i = n then halfpi else (x (i - 1) + x i) / 2

/-- Length of the intersection of the intervals `[a, b]` and `[c, d]`. -/
def inter (a b c d : K) : K := max 0 (min b d - max a c)

/-- Area of the latitude band between boundaries `i` and `i + 1` (as a fraction of the circumference times the radius). -/
noncomputable def bandArea (n : ℕ) (x : ℕ → ℝ) (i : ℕ) : ℝ :=
  Real.sin (latEdge (Real.pi / 2) n x (i + 1)) - Real.sin (latEdge (Real.pi / 2) n x i)

/-- A latitude axis: increasing, between the poles. -/
def LatAxis (n : ℕ) (x : ℕ → ℝ) : Prop := StrictInc n x ∧ ∀ i, i < n → -(Real.pi / 2) ≤ x i ∧ x i ≤ Real.pi / 2

/-- Boundary number `i` (0..n) of the `n` cells of a periodic longitude axis: half-way between neighbouring points, the last
and first point being neighbours across the seam. -/
def lonEdge (P : K) (n : ℕ) (x : ℕ → K) (i : ℕ) : K :=
  if i = 0 then (x (n - 1) - P + x 0) / 2 else if i = n then (x (n - 1) + (x 0 + P)) / 2 else (x (i - 1) + x i) / 2

/-- A global longitude axis with period `P`: increasing, neighbours (also across the seam) less than half a period apart. -/
structure LonAxis (P : K) (n : ℕ) (x : ℕ → K) : Prop where
  pos : 0 < n
  inc : StrictInc n x
  gap : ∀ i, i + 1 < n → x (i + 1) - x i < P / 2
  seam : x (n - 1) < x 0 + P
  seamGap : x 0 + P - x (n - 1) < P / 2

/-- Width of cell `i`. -/
def lonWidth (P : K) (n : ℕ) (x : ℕ → K) (i : ℕ) : K := lonEdge P n x (i + 1) - lonEdge P n x i

/-- Length of the intersection, on the circle of circumference `P`, of the arcs `[a, b]` and `[c, d]` (each shorter than the
circle): the total length `[a, b]` has in common with all the copies of `[c, d]` on the line. -/
noncomputable def circleOverlap (P a b c d : K) : K := ∑ᶠ k : ℤ, inter a b (c + k * P) (d + k * P)

/-- `r` is the mean of the present values of `f` (on `n` by `m` points) with weights `W`: missing exactly when no present value
has positive weight (weights are non-negative), otherwise the weighted sum of the present values over their total weight. -/
def IsMaskedMean (n m : ℕ) (W : ℕ → ℕ → K) (f : ℕ → ℕ → Option K) : Option K → Prop
  | none => ∀ c, c < n → ∀ d, d < m → f c d = none ∨ W c d = 0
  | some r => (∃ c, c < n ∧ ∃ d, d < m ∧ f c d ≠ none ∧ 0 < W c d) ∧
      r * (∑ c ∈ Finset.range n, ∑ d ∈ Finset.range m, if f c d = none then 0 else W c d) =
        ∑ c ∈ Finset.range n, ∑ d ∈ Finset.range m, W c d * (f c d).getD 0

/-- The target `t`, moved to the nearest end of the axis `x` (of `n` points) if it lies outside, is at fraction `a` of the way
from point `l` to its neighbour `r` (on a one-point axis both are that point). -/
def Bracket (n : ℕ) (x : ℕ → K) (t : K) (l r : ℕ) (a : K) : Prop :=
  r < n ∧ (r = l + 1 ∨ (n = 1 ∧ l = 0 ∧ r = 0)) ∧ 0 ≤ a ∧ a ≤ 1 ∧ x l + a * (x r - x l) = max (x 0) (min (x (n - 1)) t)

/-- `v` is the bilinear interpolation, at the (clamped) target (`s`, `t`), of the values `f` given on the axes `x` and `y`: the
mean of the four corners of a cell containing the target, each weighted with the relative area of the opposite rectangle. -/
def Bilinear (n m : ℕ) (x y : ℕ → K) (f : ℕ → ℕ → K) (s t v : K) : Prop :=
  ∃ l r a p q b, Bracket n x s l r a ∧ Bracket m y t p q b ∧
    v = (1 - a) * (1 - b) * f l p + a * (1 - b) * f r p + (1 - a) * b * f l q + a * b * f r q

/-- Great-circle angle between two points of the sphere (longitudes and latitudes in radians): the angle between the unit vectors
`(cos lat cos lon, cos lat sin lon, sin lat)`. -/
noncomputable def angle (lon lat lon' lat' : ℝ) : ℝ :=
  Real.arccos (Real.cos lat * Real.cos lon * (Real.cos lat' * Real.cos lon') + Real.cos lat * Real.sin lon * (Real.cos lat' * Real.sin lon') +
    Real.sin lat * Real.sin lat')

end Skyborn.Regrid.Spec
