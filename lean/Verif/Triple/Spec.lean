import Verif.Triple.Model

/-! What a user expects of `grid_to_triple` and `triple_to_grid`; nothing here refers to the kernels. -/

namespace Skyborn.Triple.Spec

open Classical in
/-- The cells of a grid that do not hold the missing value, row by row, as (x, y, value). -/
noncomputable def triples (nx ny : ℕ) (data x y : Arr) (mp : V) : List (V × V × V) :=
  (List.range ny).flatMap fun j => (List.range nx).filterMap fun i =>
    if data.get [j, i] = mp then none else some (x.get [i], y.get [j], data.get [j, i])

/-- An array of finite coordinates as float64 data. -/
def toArr (x : NDArr ℝ) : Arr := ⟨x.shape, fun ix => some (x.get ix)⟩

/-- Row `r` of a 3 × n array, as float64 data. -/
def row (a : Arr) (r : ℕ) : Arr := ⟨[a.shape.getD 1 0], fun ix => a.get [r, ix.getD 0 0]⟩

/-- Row `r` of a 3 × n array, as coordinates. -/
noncomputable def coordRow (a : Arr) (r : ℕ) : NDArr ℝ := ⟨[a.shape.getD 1 0], fun ix => (a.get [r, ix.getD 0 0]).getD 0⟩

/-- A strictly increasing coordinate axis of `n` points. -/
def Axis (n : ℕ) (g : NDArr ℝ) : Prop := g.shape = [n] ∧ ∀ i, i + 1 < n → g.get [i] < g.get [i + 1]

/-- An evenly spaced axis. -/
def Even (n : ℕ) (g : NDArr ℝ) : Prop := ∃ d, 0 < d ∧ ∀ i, i < n → g.get [i] = g.get [0] + i * d

/-- Axis whose spacings are all within 0.001 of the first (what the program takes for "evenly spaced"). -/
def NearlyEven (n : ℕ) (g : NDArr ℝ) : Prop :=
  ∀ i, 1 ≤ i → i + 1 < n → |(g.get [i + 1] - g.get [i]) - (|g.get [1] - g.get [0]|)| ≤ 0.001

/-- Point `i` of the axis is nearest to `v` (no other point is nearer). -/
def Nearest (n : ℕ) (g : NDArr ℝ) (v : ℝ) (i : ℕ) : Prop := i < n ∧ ∀ j, j < n → |v - g.get [i]| ≤ |v - g.get [j]|

/-- `v` lies in the part of the axis that belongs to point `i`: from the midpoint with the previous point (included) to the midpoint with
the next one (excluded). -/
def Owns (n : ℕ) (g : NDArr ℝ) (i : ℕ) (v : ℝ) : Prop :=
  i < n ∧ (1 ≤ i → (g.get [i - 1] + g.get [i]) / 2 ≤ v) ∧ (i + 1 < n → v < (g.get [i] + g.get [i + 1]) / 2)

/-- Great-circle distance in km between two points given in degrees on a sphere of radius 6371.22 km. -/
noncomputable def greatCircle (lat1 lon1 lat2 lon2 : ℝ) : ℝ :=
  let r := Real.pi / 180
  6371.22 * Real.arccos (Real.sin (lat1 * r) * Real.sin (lat2 * r) + Real.cos (lat1 * r) * Real.cos (lat2 * r) * Real.cos ((lon1 - lon2) * r))

end Skyborn.Triple.Spec
