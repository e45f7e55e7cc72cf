/- Textbook definitions used to state the properties of the statistics functions. -/
import Mathlib.Analysis.SpecialFunctions.Sqrt
import Mathlib.Algebra.BigOperators.Intervals
import Mathlib.Algebra.BigOperators.Field
import Mathlib.Algebra.Order.BigOperators.Ring.Finset
import Mathlib.Data.Real.Sqrt
import Mathlib.Tactic.Ring
import Mathlib.Tactic.Linarith
import Mathlib.Tactic.FieldSimp

namespace Skyborn.Stats
open scoped BigOperators

/-- Average of a series over a set of times. -/
noncomputable def Spec.avg (V : Finset ℕ) (x : ℕ → ℝ) : ℝ := (∑ t ∈ V, x t) / V.card

/-- Sum of the products of the deviations from the averages. -/
noncomputable def Spec.cov (V : Finset ℕ) (x y : ℕ → ℝ) : ℝ := ∑ t ∈ V, (x t - Spec.avg V x) * (y t - Spec.avg V y)

/-- Pearson's correlation coefficient over a set of times. -/
noncomputable def Spec.pearson (V : Finset ℕ) (x y : ℕ → ℝ) : ℝ := Spec.cov V x y / Real.sqrt (Spec.cov V x x * Spec.cov V y y)

/-- Sum of squared deviations of `y` from the line `a x + b`. -/
noncomputable def Spec.sse (V : Finset ℕ) (x y : ℕ → ℝ) (a b : ℝ) : ℝ := ∑ t ∈ V, (y t - (a * x t + b)) ^ 2

/-- A series varies on a set of times. -/
def Spec.Varies (V : Finset ℕ) (x : ℕ → ℝ) : Prop := ∃ s ∈ V, ∃ t ∈ V, x s ≠ x t

open Spec

variable {V : Finset ℕ} {x y z : ℕ → ℝ}

theorem avg_congr (h : ∀ t ∈ V, x t = y t) : avg V x = avg V y := by
  unfold avg; rw [Finset.sum_congr rfl h]

theorem cov_congr {x' y' : ℕ → ℝ} (hx : ∀ t ∈ V, x t = x' t) (hy : ∀ t ∈ V, y t = y' t) : cov V x y = cov V x' y' := by
  unfold cov
  rw [avg_congr hx, avg_congr hy]
  exact Finset.sum_congr rfl fun t ht => by rw [hx t ht, hy t ht]

theorem cov_comm : cov V x y = cov V y x := Finset.sum_congr rfl fun t _ => mul_comm _ _

theorem cov_self_nonneg : 0 ≤ cov V x x := Finset.sum_nonneg fun t _ => mul_self_nonneg _

theorem avg_affine (hV : V.Nonempty) (a b : ℝ) : avg V (fun t => a * x t + b) = a * avg V x + b := by
  have hc : (V.card : ℝ) ≠ 0 := by exact_mod_cast hV.card_ne_zero
  unfold avg
  rw [Finset.sum_add_distrib, ← Finset.mul_sum, Finset.sum_const, nsmul_eq_mul]
  field_simp

theorem cov_affine (a b : ℝ) : cov V (fun t => a * x t + b) y = a * cov V x y := by
  rcases V.eq_empty_or_nonempty with rfl | hV
  · simp [cov]
  · unfold cov
    rw [avg_affine hV, Finset.mul_sum]
    exact Finset.sum_congr rfl fun t _ => by ring

theorem cov_affine_right (a b : ℝ) : cov V x (fun t => a * y t + b) = a * cov V x y := by
  rw [cov_comm, cov_affine, cov_comm]

theorem sum_dev (hV : V.Nonempty) : ∑ t ∈ V, (x t - avg V x) = 0 := by
  have hc : (V.card : ℝ) ≠ 0 := by exact_mod_cast hV.card_ne_zero
  unfold avg
  rw [Finset.sum_sub_distrib, Finset.sum_const, nsmul_eq_mul]
  field_simp
  ring

theorem cov_add (x y z : ℕ → ℝ) : cov V x (fun t => y t + z t) = cov V x y + cov V x z := by
  have : avg V (fun t => y t + z t) = avg V y + avg V z := by
    unfold avg; rw [Finset.sum_add_distrib, add_div]
  unfold cov
  rw [this, ← Finset.sum_add_distrib]
  exact Finset.sum_congr rfl fun t _ => by ring

/-- Cauchy-Schwarz. -/
theorem cov_sq_le : cov V x y ^ 2 ≤ cov V x x * cov V y y := by
  have h := Finset.sum_mul_sq_le_sq_mul_sq V (fun t => x t - avg V x) (fun t => y t - avg V y)
  unfold cov
  simp only [← pow_two]
  exact h

theorem cov_self_pos_iff : 0 < cov V x x ↔ Varies V x := by
  constructor
  · intro h
    by_contra hc
    unfold Varies at hc
    push Not at hc
    apply absurd h
    rw [not_lt]
    apply le_of_eq
    apply Finset.sum_eq_zero
    intro t ht
    have hV : V.Nonempty := ⟨t, ht⟩
    have hcard : (V.card : ℝ) ≠ 0 := by exact_mod_cast hV.card_ne_zero
    have : avg V x = x t := by
      unfold avg
      rw [Finset.sum_congr rfl fun s hs => hc s hs t ht, Finset.sum_const, nsmul_eq_mul]
      field_simp
    rw [this, sub_self, zero_mul]
  · rintro ⟨s, hs, t, ht, hne⟩
    rcases cov_self_nonneg (V := V) (x := x) |>.lt_or_eq with h | h
    · exact h
    exfalso
    have hz := (Finset.sum_eq_zero_iff_of_nonneg fun t _ => mul_self_nonneg _).mp h.symm
    have h1 := mul_self_eq_zero.mp (hz s hs)
    have h2 := mul_self_eq_zero.mp (hz t ht)
    apply hne; linarith

theorem pearson_abs_le : |pearson V x y| ≤ 1 := by
  unfold pearson
  rcases (mul_nonneg (cov_self_nonneg (V := V) (x := x)) (cov_self_nonneg (V := V) (x := y))).lt_or_eq with h | h
  · have hs := Real.sqrt_pos.mpr h
    rw [abs_div, abs_of_pos hs, div_le_one hs]
    exact Real.abs_le_sqrt cov_sq_le
  · rw [← h, Real.sqrt_zero, div_zero, abs_zero]; exact zero_le_one

/-- The textbook slope minimises the sum of squares. -/
theorem sse_min (hV : V.Nonempty) (hx : cov V x x ≠ 0 ∨ ∀ t ∈ V, ∀ s ∈ V, x s = x t) (a b : ℝ) :
    sse V x y (cov V x y / cov V x x) (avg V y - cov V x y / cov V x x * avg V x) ≤ sse V x y a b := by
  set s := cov V x y / cov V x x with hs
  have key : sse V x y a b = ∑ t ∈ V, (y t - (s * x t + (avg V y - s * avg V x))) ^ 2 +
      ∑ t ∈ V, ((s - a) * (x t - avg V x) + (avg V y - a * avg V x - b)) ^ 2 +
      (2 * (s - a) * (cov V x y - s * cov V x x)) +
      2 * (avg V y - a * avg V x - b) * (∑ t ∈ V, (y t - avg V y) - s * ∑ t ∈ V, (x t - avg V x)) := by
    unfold sse cov
    simp only [Finset.mul_sum, ← Finset.sum_add_distrib, ← Finset.sum_sub_distrib]
    exact Finset.sum_congr rfl fun t _ => by ring
  have h0 : (s - a) * (cov V x y - s * cov V x x) = 0 := by
    rcases eq_or_ne (cov V x x) 0 with h | h
    · rcases hx with hx | hx
      · exact absurd h hx
      have : cov V x y = 0 := by
        have := cov_sq_le (V := V) (x := x) (y := y)
        rw [h, zero_mul] at this
        exact pow_eq_zero_iff two_ne_zero |>.mp (le_antisymm this (sq_nonneg _))
      rw [this, h]; ring
    · rw [hs]; field_simp; ring
  rw [key, sum_dev hV, sum_dev hV]
  have h2 : 0 ≤ ∑ t ∈ V, ((s - a) * (x t - avg V x) + (avg V y - a * avg V x - b)) ^ 2 := Finset.sum_nonneg fun t _ => sq_nonneg _
  have : sse V x y s (avg V y - s * avg V x) = ∑ t ∈ V, (y t - (s * x t + (avg V y - s * avg V x))) ^ 2 := rfl
  rw [this]
  linarith

/-- Any minimiser has the textbook slope when the predictor varies. -/
theorem sse_min_unique (hx : Varies V x) {a b : ℝ} (h : ∀ a' b', sse V x y a b ≤ sse V x y a' b') : a = cov V x y / cov V x x := by
  obtain ⟨s0, hs0, -⟩ := id hx
  have hV : V.Nonempty := ⟨s0, hs0⟩
  have hp := cov_self_pos_iff.mpr hx
  -- normal equations from optimality along the parabola in the slope with re-fitted intercept
  have expand : ∀ a b : ℝ, sse V x y a b = cov V y y - 2 * a * cov V x y + a ^ 2 * cov V x x + V.card * (avg V y - a * avg V x - b) ^ 2 := by
    intro a b
    have e : sse V x y a b = cov V y y - 2 * a * cov V x y + a ^ 2 * cov V x x + V.card * (avg V y - a * avg V x - b) ^ 2 +
        2 * (avg V y - a * avg V x - b) * (∑ t ∈ V, (y t - avg V y) - a * ∑ t ∈ V, (x t - avg V x)) := by
      unfold sse cov
      rw [show (V.card : ℝ) * (avg V y - a * avg V x - b) ^ 2 = ∑ t ∈ V, (avg V y - a * avg V x - b) ^ 2 by
        rw [Finset.sum_const, nsmul_eq_mul]]
      simp only [Finset.mul_sum, ← Finset.sum_add_distrib, ← Finset.sum_sub_distrib]
      exact Finset.sum_congr rfl fun t _ => by ring
    rw [e, sum_dev hV, sum_dev hV]; ring
  have h1 := h (cov V x y / cov V x x) (avg V y - cov V x y / cov V x x * avg V x)
  rw [expand, expand] at h1
  set c := cov V x x with hc
  set s := cov V x y / c with hs
  have e1 : cov V x y = s * c := by rw [hs]; field_simp
  rw [e1] at h1
  have h3 : 0 ≤ (V.card : ℝ) * (avg V y - a * avg V x - b) ^ 2 := mul_nonneg (Nat.cast_nonneg _) (sq_nonneg _)
  have h4 : (a - s) ^ 2 * c ≤ 0 := by nlinarith
  have h5 : (a - s) ^ 2 = 0 := by
    rcases (sq_nonneg (a - s)).lt_or_eq with h6 | h6
    · nlinarith [mul_pos h6 hp]
    · exact h6.symm
  have := pow_eq_zero_iff two_ne_zero |>.mp h5
  linarith

end Skyborn.Stats
