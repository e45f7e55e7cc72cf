/-
What the reduced-Gaussian transforms are meant to compute, without reference to the code.
-/
import Verif.Sphere.Legendre
import Mathlib.Analysis.SpecialFunctions.Complex.Circle
import Mathlib.Analysis.SpecialFunctions.Exp

namespace Skyborn.RedGauss.Spec

/-- Longitude of point `i = 1, 2, …, N` of a row of `N` equally spaced points starting at Greenwich. -/
noncomputable def lon (N i : ℕ) : ℝ := 2 * Real.pi * ((i : ℝ) - 1) / N

/-- First packed position of row `j = 1, 2, …`, minus one: the rows are stored one after the other. -/
def rowStart (pl : ℕ → ℕ) (j : ℕ) : ℕ := ∑ i ∈ Finset.Ico 1 j, pl i

/-- Packed position (from 1) of the coefficient of order `m`, degree `n` at truncation `T`: all degrees of order 0, then
all degrees of order 1, and so on. -/
def pos (T m n : ℕ) : ℕ := (∑ k ∈ Finset.range m, (T + 1 - k)) + (n - m) + 1

/-- Fourier coefficient `m` of the values `x 1, …, x N` on a circle. -/
noncomputable def circleCoef (N : ℕ) (x : ℕ → ℝ) (m : ℕ) : ℂ :=
  (1 / (N : ℂ)) * ∑ i ∈ Finset.Icc 1 N, (x i : ℂ) * Complex.exp (-(Complex.I * (m * lon N i)))

/-- The spherical-harmonic series with coefficients `a m n` (order, degree), all degrees up to `T`, at colatitude `θ` and
longitude `l`: the real field `∑ₘ ∑ₙ aₘₙ Pₙᵐ(cos θ) e^{iml}` with the conjugate terms of the negative orders. -/
noncomputable def series (T : ℕ) (a : ℕ → ℕ → ℂ) (θ l : ℝ) : ℝ :=
  ∑ m ∈ Finset.range (T + 1), (if m = 0 then 1 else 2) *
    ((∑ n ∈ Finset.Icc m T, a m n * (Sphere.pbar m n θ : ℂ)) * Complex.exp (Complex.I * (m * l))).re

end Skyborn.RedGauss.Spec

namespace Skyborn.RedGauss.Spec

/-- What is assumed of the Gaussian rows `gaqd` returns: colatitudes strictly between the poles, rows and weights
symmetric about the equator. -/
structure Rows (nlat : ℕ) (θ w : ℕ → ℝ) : Prop where
  /-- between the poles -/
  inside : ∀ j, 1 ≤ j → j ≤ nlat → 0 < θ j ∧ θ j < Real.pi
  /-- symmetric -/
  mirror : ∀ j, 1 ≤ j → j ≤ nlat → θ (nlat - j + 1) = Real.pi - θ j
  /-- symmetric weights -/
  weight : ∀ j, 1 ≤ j → j ≤ nlat → w (nlat - j + 1) = w j

/-- The Legendre table of a grid: row `j`, packed position. -/
def IsBasis (nlat T : ℕ) (θ : ℕ → ℝ) (b : ℕ → ℕ → ℝ) : Prop :=
  ∀ j m n, 1 ≤ j → j ≤ nlat → m ≤ n → n ≤ T → b j (pos T m n) = Sphere.pbar m n (θ j)

/-- The table of derivatives with respect to colatitude. -/
def IsDeriv (nlat T : ℕ) (θ : ℕ → ℝ) (d : ℕ → ℕ → ℝ) : Prop :=
  ∀ j m n, 1 ≤ j → j ≤ nlat → m ≤ n → n ≤ T → HasDerivAt (Sphere.pbar m n) (d j (pos T m n)) (θ j)

end Skyborn.RedGauss.Spec
