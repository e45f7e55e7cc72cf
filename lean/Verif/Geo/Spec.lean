/-
What the geostrophic wind of a height field on a latitude–longitude grid is: finite differences of the balance
`f u = -g ∂z/∂y`, `f v = g ∂z/∂x`. Indices are 0-based; `z i j` is the height at latitude `lat i` and longitude number `j`.
-/
import Mathlib.Analysis.SpecialFunctions.Trigonometric.Basic

namespace Skyborn.Geo.Spec

/-- Gravity, earth's rotation rate and radius (SI). -/
noncomputable def g : ℝ := 9.80616
@[inherit_doc g]
noncomputable def Ω : ℝ := 7.292e-5
@[inherit_doc g]
noncomputable def radius : ℝ := 6371220

/-- Degrees to radians. -/
noncomputable def toRad (d : ℝ) : ℝ := d * (Real.pi / 180)

/-- The Coriolis parameter at latitude `φ` (degrees). -/
noncomputable def coriolis (φ : ℝ) : ℝ := 2 * Ω * Real.sin (toRad φ)

/-- Geostrophic balance is used off the equator and off the poles. -/
def Usable (φ : ℝ) : Prop := φ ≠ 0 ∧ |φ| ≤ 89.999

noncomputable instance : DecidablePred Usable := fun _ => Classical.propDecidable _

/-- The neighbouring rows: the next one, or the row itself at the edge. -/
def north (n i : ℕ) : ℕ := min (i + 1) (n - 1)
@[inherit_doc north]
def south (i : ℕ) : ℕ := i - 1

/-- The neighbouring columns: around the globe on a cyclic grid, otherwise the column itself at the edge. -/
def east (m : ℕ) (cyc : Bool) (j : ℕ) : ℕ := if cyc then (j + 1) % m else min (j + 1) (m - 1)
@[inherit_doc east]
def west (m : ℕ) (cyc : Bool) (j : ℕ) : ℕ := if cyc then (j + m - 1) % m else j - 1

/-- Number of grid intervals between the western and the eastern neighbour. -/
def intervals (m : ℕ) (cyc : Bool) (j : ℕ) : ℕ := if cyc then 2 else east m cyc j - west m cyc j

/-- A datum, or nothing when it carries the missing value. -/
noncomputable def datum (missing a : ℝ) : Option ℝ := if a = missing then none else some a

/-- The difference of two data, when both are there. -/
noncomputable def diff (missing a b : ℝ) : Option ℝ := (datum missing a).bind fun x => (datum missing b).map fun y => x - y

/-- Zonal wind: minus `g / f` times the height difference over the northward distance between the neighbours. -/
noncomputable def zonal (n : ℕ) (z : ℕ → ℕ → ℝ) (lat : ℕ → ℝ) (missing : ℝ) (i j : ℕ) : Option ℝ :=
  if Usable (lat i) then
    (diff missing (z (north n i) j) (z (south i) j)).map fun d =>
      -(g / coriolis (lat i)) * (d / (radius * toRad (lat (north n i) - lat (south i))))
  else none

/-- Meridional wind: `g / f` times the height difference over the eastward distance between the neighbours. -/
noncomputable def meridional (m : ℕ) (cyc : Bool) (z : ℕ → ℕ → ℝ) (lat : ℕ → ℝ) (dlon missing : ℝ) (i j : ℕ) : Option ℝ :=
  if Usable (lat i) then
    (diff missing (z i (east m cyc j)) (z i (west m cyc j))).map fun d =>
      (g / coriolis (lat i)) * (d / (radius * Real.cos (toRad (lat i)) * toRad (intervals m cyc j * dlon)))
  else none

/-- A longitude list that goes around the globe: at least three points, and either the span plus one (mean) step or the span itself is
within 1 degree of 360. -/
def Cyclic (lon : List ℝ) : Prop :=
  3 ≤ lon.length ∧
    let span := lon.getD (lon.length - 1) 0 - lon.getD 0 0
    |span + span / ((lon.length : ℝ) - 1) - 360| < 1 ∨ |span - 360| < 1

noncomputable instance : DecidablePred Cyclic := fun _ => Classical.propDecidable _

/-- The horizontal field through element `idx`: axis `y` is latitude, axis `x` longitude. -/
def slice {α : Type} (get : List ℕ → α) (y x : ℕ) (idx : List ℕ) : ℕ → ℕ → α := fun a b => get ((idx.set y a).set x b)

end Skyborn.Geo.Spec
