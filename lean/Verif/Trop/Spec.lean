/-
What a WMO thermal tropopause is, written without reference to the code: levels `0 .. n-1` from the top of the atmosphere down, layer
`k` between levels `k` and `k+1`.
-/
import Mathlib.Analysis.SpecialFunctions.Pow.Real

namespace Skyborn.Trop.Spec

/-- A usable sounding: `n` levels of strictly increasing positive pressure (hPa) with positive temperatures (K). -/
structure Sounding (n : ℕ) (p t : ℕ → ℝ) : Prop where
  ppos : ∀ k, k < n → 0 < p k
  tpos : ∀ k, k < n → 0 < t k
  asc : ∀ k, k + 1 < n → p k < p (k + 1)

/-- `1000 g / R` in K/km. -/
noncomputable def gR : ℝ := 1000 * 9.80665 / 287.04

/-- Hydrostatic lapse rate of layer `k`, K/km: `gR * d ln T / d ln p`. -/
noncomputable def gamma (p t : ℕ → ℝ) (k : ℕ) : ℝ :=
  gR * ((Real.log (t k) - Real.log (t (k + 1))) / (Real.log (p k) - Real.log (p (k + 1))))

/-- Middle pressure of layer `k`. -/
noncomputable def mid (p : ℕ → ℝ) (k : ℕ) : ℝ := (p k + p (k + 1)) / 2

/-- Pressure at which the lapse rate, linear in `ln p` through the middles of layers `k` and `k+1`, equals `c` (the middle of layer `k`
if both lapse rates agree). -/
noncomputable def cross (p t : ℕ → ℝ) (c : ℝ) (k : ℕ) : ℝ :=
  if gamma p t k = gamma p t (k + 1) then mid p k
  else Real.exp (Real.log (mid p k) +
    (c - gamma p t k) / (gamma p t (k + 1) - gamma p t k) * (Real.log (mid p (k + 1)) - Real.log (mid p k)))

/-- Pressure two kilometres above the crossing (hydrostatic, at the temperature of level `k`). -/
noncomputable def above (p t : ℕ → ℝ) (c : ℝ) (k : ℕ) : ℝ := cross p t c k * Real.exp (-(2 * gR / t k))

/-- The layers from `k` upwards whose middle is within two kilometres of the crossing. -/
noncomputable def within (p t : ℕ → ℝ) (c : ℝ) (k : ℕ) : Finset ℕ :=
  (Finset.range (k + 1)).filter fun l => above p t c k ≤ mid p l

/-- Layer `k` of an `n`-level sounding holds a tropopause for the criterion `c` (K/km): there is a layer below it to interpolate with,
its lapse rate is below `c`, its upper level is above 450 hPa, and the mean lapse rate of the layers within 2 km is below `c`. -/
def Qualifies (n : ℕ) (p t : ℕ → ℝ) (c : ℝ) (k : ℕ) : Prop :=
  k + 3 ≤ n ∧ gamma p t k < c ∧ p k < 450 ∧ (within p t c k).Nonempty ∧
    (∑ l ∈ within p t c k, gamma p t l) / ((within p t c k).card : ℝ) < c

/-- The tropopause layer: the lowest one that qualifies. -/
def IsTropopause (n : ℕ) (p t : ℕ → ℝ) (c : ℝ) (k : ℕ) : Prop :=
  Qualifies n p t c k ∧ ∀ j, k < j → ¬ Qualifies n p t c j

/-- A value equal to the missing-value marker (within the code's tolerance `1e-10`). -/
def Marker (tmsg v : ℝ) : Prop := |v - tmsg| < 1e-10

/-- Height (m) of the pressure `p` (hPa) in the US standard atmosphere 1976, troposphere and lower stratosphere (`p ≥ 54.75` hPa):
a layer with lapse rate 6.5 K/km from 1013.25 hPa, 288.15 K, and an isothermal layer at 216.65 K from 11 km, 226.32064 hPa;
`-999` below sea level. -/
noncomputable def height (p : ℝ) : ℝ :=
  if 1013.25 < p then -999
  else if 226.32064 ≤ p then 288.15 / 0.0065 * (1 - (p / 1013.25) ^ ((0.0065 * (8314.32 / 28.9644) / 9.80665 : ℝ)))
  else 11000 + (8314.32 / 28.9644) * 216.65 / 9.80665 * Real.log (226.32064 / p)

end Skyborn.Trop.Spec
