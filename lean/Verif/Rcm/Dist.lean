/-
The distance routine of the curvilinear kernels is the great-circle angle (C175).
-/
import Verif.Rcm.Model
import Mathlib.Analysis.Real.Pi.Bounds
import Mathlib.Tactic.Linarith
import Mathlib.Tactic.LinearCombination

namespace Skyborn.Rcm

/-- The degree in radians, as the program has it. -/
noncomputable def Spec.degree : ℝ := 0.01745329238474369

/-- The difference of two longitudes in degrees, the shorter way round. -/
noncomputable def Spec.lonGap (l₁ l₂ : ℝ) : ℝ := min (min |l₁ - l₂| |360 - l₁ + l₂|) |360 - l₂ + l₁|

/-- The angle between two points of the sphere (spherical law of cosines), in radians. -/
noncomputable def Spec.angle (lat₁ lon₁ lat₂ lon₂ : ℝ) : ℝ :=
  Real.arccos (Real.sin (lat₁ * Spec.degree) * Real.sin (lat₂ * Spec.degree) +
    Real.cos (lat₁ * Spec.degree) * Real.cos (lat₂ * Spec.degree) * Real.cos (Spec.lonGap lon₁ lon₂ * Spec.degree))

theorem Spec.lonGap_self (l : ℝ) : Spec.lonGap l l = 0 := by
  rw [Spec.lonGap]; simp [min_eq_left]

theorem Spec.lonGap_comm (a b : ℝ) : Spec.lonGap a b = Spec.lonGap b a := by
  rw [Spec.lonGap, Spec.lonGap, abs_sub_comm a b, min_right_comm]

/-- C175: the routine computes the great-circle angle, in units of 1/57.29577995691645 radian. -/
theorem C175_great_circle (lat₁ lon₁ lat₂ lon₂ : ℝ) :
    dgcdist lat₁ lon₁ lat₂ lon₂ = Spec.angle lat₁ lon₁ lat₂ lon₂ * 57.29577995691645 := by
  rw [dgcdist]
  by_cases h : lat₁ = lat₂ ∧ lon₁ = lon₂
  · rw [if_pos h, Spec.angle, h.1, h.2, Spec.lonGap_self]
    have : Real.sin (lat₂ * Spec.degree) * Real.sin (lat₂ * Spec.degree) +
        Real.cos (lat₂ * Spec.degree) * Real.cos (lat₂ * Spec.degree) * Real.cos (0 * Spec.degree) = 1 := by
      rw [zero_mul, Real.cos_zero]; linear_combination Real.sin_sq_add_cos_sq (lat₂ * Spec.degree)
    rw [this, Real.arccos_one, zero_mul]
  · rw [if_neg h]
    dsimp only
    rw [Spec.angle, show (0.01745329238474369 : ℝ) = Spec.degree from rfl]
    rw [show min (min |lon₁ - lon₂| |360 - lon₁ + lon₂|) |360 - lon₂ + lon₁| = Spec.lonGap lon₁ lon₂ from rfl]
    generalize lat₁ * Spec.degree = a
    generalize lat₂ * Spec.degree = b
    generalize Spec.lonGap lon₁ lon₂ * Spec.degree = d
    congr 1
    rw [atan2]
    set Y := (Real.cos b * Real.sin d) ^ 2 + (Real.cos a * Real.sin b - Real.sin a * Real.cos b * Real.cos d) ^ 2 with hY
    set X := Real.sin a * Real.sin b + Real.cos a * Real.cos b * Real.cos d with hX
    have hYn : 0 ≤ Y := by positivity
    have hone : X ^ 2 + Y = 1 := by
      have h1 := Real.sin_sq_add_cos_sq a
      have h2 := Real.sin_sq_add_cos_sq b
      have h3 := Real.sin_sq_add_cos_sq d
      rw [hX, hY]
      linear_combination (Real.sin b ^ 2 + Real.cos b ^ 2 * Real.cos d ^ 2) * h1 + h2 + Real.cos b ^ 2 * h3
    have hnorm : ‖(⟨X, Real.sqrt Y⟩ : ℂ)‖ = 1 := by
      have : ‖(⟨X, Real.sqrt Y⟩ : ℂ)‖ ^ 2 = 1 := by
        rw [← Complex.normSq_eq_norm_sq, Complex.normSq_mk, Real.mul_self_sqrt hYn]; linarith [hone]
      have h0 := norm_nonneg (⟨X, Real.sqrt Y⟩ : ℂ)
      nlinarith
    have hne : (⟨X, Real.sqrt Y⟩ : ℂ) ≠ 0 := by
      intro hc; rw [hc, norm_zero] at hnorm; exact zero_ne_one hnorm
    rw [Complex.arg_of_im_nonneg_of_ne_zero (Real.sqrt_nonneg Y) hne, hnorm, div_one]

theorem Spec.angle_comm (a b c d : ℝ) : Spec.angle a b c d = Spec.angle c d a b := by
  rw [Spec.angle, Spec.angle, Spec.lonGap_comm]; congr 1; ring

/-- C175: the distance does not depend on the order of the two points. -/
theorem C175_symmetric (a b c d : ℝ) : dgcdist a b c d = dgcdist c d a b := by
  rw [C175_great_circle, C175_great_circle, Spec.angle_comm]

theorem dgcdist_nonneg (a b c d : ℝ) : 0 ≤ dgcdist a b c d := by
  rw [C175_great_circle]
  exact mul_nonneg (Real.arccos_nonneg _) (by norm_num)

theorem Spec.angle_le (a b c d : ℝ) : Spec.angle a b c d ≤ Real.pi := Real.arccos_le_pi _

/-- C175: no distance exceeds 181 (degrees). -/
theorem C175_le (a b c d : ℝ) : dgcdist a b c d ≤ 181 := by
  rw [C175_great_circle]
  have h1 := Spec.angle_le a b c d
  have h2 := Real.pi_lt_d2
  nlinarith [Real.arccos_nonneg (Real.sin (a * Spec.degree) * Real.sin (c * Spec.degree) +
    Real.cos (a * Spec.degree) * Real.cos (c * Spec.degree) * Real.cos (Spec.lonGap b d * Spec.degree))]

/-- The search radius of the fallback of `rcm2points` exceeds every distance. -/
theorem dgcdist_le_dkm (a b c d : ℝ) : dgcdist a b c d ≤ dkm := by
  have h1 := C175_le a b c d
  have h2 := Real.pi_gt_three
  rw [dkm, Real.arctan_one]
  nlinarith

/-- C175: the distance is zero exactly when the angle is. -/
theorem dgcdist_eq_zero (a b c d : ℝ) : dgcdist a b c d = 0 ↔ Spec.angle a b c d = 0 := by
  rw [C175_great_circle]
  constructor
  · intro h; rcases mul_eq_zero.mp h with h | h
    · exact h
    · norm_num at h
  · intro h; rw [h, zero_mul]

end Skyborn.Rcm
