import Verif.Trop.Props
import Mathlib.Analysis.Complex.Exponential

/-! The height output (C90). -/
namespace Skyborn.Trop
open Spec

/-- The tropospheric formula does not exceed 11 km at the tabulated 226.32064 hPa (it falls short of it by less than a hundredth of a
millimetre, so the constants have to be evaluated to ten digits). -/
theorem boundary : (216.65 / 288.15 : ℝ) ≤ (226.32064 / 1013.25 : ℝ) ^ ((0.0065 * (8314.32 / 28.9644) / 9.80665 : ℝ)) := by
  have h1 : Real.exp (-1.498965510700) ≤ (226.32064 / 1013.25 : ℝ) := by
    have h := Real.sum_le_exp_of_nonneg (x := 1.498965510700) (by norm_num) 20
    rw [Real.exp_neg]
    have h2 : (1013.25 / 226.32064 : ℝ) ≤ Real.exp 1.498965510700 := by
      refine le_trans ?_ h
      norm_num [Finset.sum_range_succ, Nat.factorial]
    rw [inv_le_comm₀ (Real.exp_pos _) (by norm_num)]
    refine le_trans (le_of_eq ?_) h2
    norm_num
  have h2 : Real.exp 0.28519802958 ≤ (288.15 / 216.65 : ℝ) := by
    have h := Real.exp_bound' (x := 0.28519802958) (by norm_num) (by norm_num) (n := 10) (by norm_num)
    refine h.trans ?_
    norm_num [Finset.sum_range_succ, Nat.factorial]
  have h3 : Real.log (226.32064 / 1013.25 : ℝ) ≥ -1.498965510700 := by
    rw [ge_iff_le, Real.le_log_iff_exp_le (by norm_num)]; exact h1
  rw [Real.rpow_def_of_pos (by norm_num)]
  calc (216.65 / 288.15 : ℝ) = (288.15 / 216.65 : ℝ)⁻¹ := by norm_num
    _ ≤ (Real.exp 0.28519802958)⁻¹ := by
        apply inv_anti₀ (Real.exp_pos _) h2
    _ = Real.exp (-0.28519802958) := by rw [Real.exp_neg]
    _ ≤ _ := by
        apply Real.exp_le_exp.mpr
        have hk : (0.0065 * (8314.32 / 28.9644) / 9.80665 : ℝ) ≤ 0.19026323651 := by norm_num
        have hk0 : (0 : ℝ) ≤ (0.0065 * (8314.32 / 28.9644) / 9.80665 : ℝ) := by norm_num
        generalize (0.0065 * (8314.32 / 28.9644) / 9.80665 : ℝ) = κ at *
        generalize Real.log (226.32064 / 1013.25 : ℝ) = l at *
        have : -1.498965510700 * κ ≤ l * κ := mul_le_mul_of_nonneg_right h3 hk0
        nlinarith

theorem height_top : height 1013.25 = 0 := by
  unfold height
  rw [if_neg (by norm_num), if_pos (by norm_num), div_self (by norm_num), Real.one_rpow]
  norm_num

theorem height_anti {p q : ℝ} (hp : 0 < p) (hpq : p < q) (hq : q ≤ 1013.25) : height q < height p := by
  unfold height
  rw [if_neg (show ¬ (1013.25 : ℝ) < q by linarith), if_neg (show ¬ (1013.25 : ℝ) < p by linarith)]
  have hk0 : (0 : ℝ) < (0.0065 * (8314.32 / 28.9644) / 9.80665 : ℝ) := by norm_num
  have hb := boundary
  generalize hκ : (0.0065 * (8314.32 / 28.9644) / 9.80665 : ℝ) = κ at hk0 hb ⊢
  by_cases h1 : 226.32064 ≤ p
  · rw [if_pos (show (226.32064 : ℝ) ≤ q by linarith), if_pos h1]
    have : (p / 1013.25) ^ κ < (q / 1013.25) ^ κ := by
      apply Real.rpow_lt_rpow (by positivity) _ hk0
      apply div_lt_div_of_pos_right hpq (by norm_num)
    have hA : (0 : ℝ) < 288.15 / 0.0065 := by norm_num
    nlinarith
  · rw [if_neg h1]
    rw [not_le] at h1
    have hlog : 0 < Real.log (226.32064 / p) := Real.log_pos (by rw [lt_div_iff₀ hp]; linarith)
    have hB : (0 : ℝ) < (8314.32 / 28.9644) * 216.65 / 9.80665 := by norm_num
    by_cases h2 : 226.32064 ≤ q
    · rw [if_pos h2]
      have h3 : (226.32064 / 1013.25 : ℝ) ^ κ ≤ (q / 1013.25) ^ κ := by
        apply Real.rpow_le_rpow (by norm_num) _ hk0.le
        apply div_le_div_of_nonneg_right h2 (by norm_num)
      have h4 : (288.15 / 0.0065 : ℝ) * (1 - (q / 1013.25) ^ κ) ≤ 11000 := by
        have : (1 : ℝ) - (q / 1013.25) ^ κ ≤ 1 - 216.65 / 288.15 := by linarith
        calc _ ≤ (288.15 / 0.0065 : ℝ) * (1 - 216.65 / 288.15) := by
              apply mul_le_mul_of_nonneg_left this (by norm_num)
          _ = 11000 := by norm_num
      have := mul_pos hB hlog
      linarith
    · rw [if_neg h2]
      have : Real.log (226.32064 / q) < Real.log (226.32064 / p) := by
        apply Real.log_lt_log
        · have : 0 < q := by linarith
          positivity
        · apply div_lt_div_of_pos_left (by norm_num) hp hpq
      have := mul_lt_mul_of_pos_left this hB
      linarith

/-- **C90** The reported height is consistent with the reported pressure: sea-level pressure is height 0, and of any two tropopauses found
(in any two profiles, units or criteria) at pressures not above 1013.25 hPa the one at lower pressure is reported strictly higher, and
equal pressures give equal heights. -/
theorem C90_height {n n' : ℕ} {unit unit' : String} {P p t P' p' t' : ℕ → ℝ} {missing missing' : ℝ} (h : Complete n unit P p t missing)
    (h' : Complete n' unit' P' p' t' missing') {c c' : ℝ} (hc : c ≤ 10 ^ 9) (hc' : c' ≤ 10 ^ 9) (w w' : Work) {k k' : ℕ}
    (hk : IsTropopause n p t c k) (hk' : IsTropopause n' p' t' c' k') :
    ∃ cell cell', tropWmoProfile (vec n t) (vec n P) unit c missing w = .ok cell ∧
      tropWmoProfile (vec n' t') (vec n' P') unit' c' missing' w' = .ok cell' ∧
      (cell.ptrop = 1013.25 → cell.htrop = 0) ∧ (cell.ptrop = cell'.ptrop → cell.htrop = cell'.htrop) ∧
      (cell.ptrop < cell'.ptrop → cell'.ptrop ≤ 1013.25 → cell'.htrop < cell.htrop) := by
  obtain ⟨cell, e, hs, -⟩ := C81_profile h hc w
  obtain ⟨cell', e', hs', -⟩ := C81_profile h' hc' w'
  obtain ⟨-, -, a1, a2, -⟩ := hs k hk
  obtain ⟨-, -, b1, b2, -⟩ := hs' k' hk'
  have : (85 : ℝ) ≤ cell.ptrop := by rw [a1]; exact le_max_right _ _
  refine ⟨cell, cell', e, e', fun h => by rw [a2, h, height_top], fun h => by rw [a2, b2, h], fun h1 h2 => ?_⟩
  rw [a2, b2]
  exact height_anti (by linarith) h1 h2

end Skyborn.Trop
