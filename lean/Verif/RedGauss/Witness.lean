/-
Gaussian rows exist: the three-row grid. And what is lost on rows that cannot carry a wave.
-/
import Verif.RedGauss.Round
import Mathlib.Analysis.SpecialFunctions.Trigonometric.Inverse
import Mathlib.Analysis.SpecialFunctions.Integrals.Basic

namespace Skyborn.RedGauss

open Polynomial

/-- The cosine of the first of the three Gaussian colatitudes. -/
noncomputable def node3 : ℝ := Real.sqrt (3 / 5)

/-- Colatitudes of the three Gaussian rows. -/
noncomputable def theta3 (j : ℕ) : ℝ := if j = 1 then Real.arccos (node3) else if j = 2 then Real.pi / 2 else Real.pi - Real.arccos (node3)

/-- Their weights. -/
noncomputable def weight3 (j : ℕ) : ℝ := if j = 2 then 8 / 9 else 5 / 9

theorem sqrt35 : node3 ^ 2 = 3 / 5 ∧ 0 < node3 ∧ node3 < 1 := by
  have h : node3 ^ 2 = 3 / 5 := Real.sq_sqrt (by norm_num)
  have h0 : 0 < node3 := Real.sqrt_pos.mpr (by norm_num)
  exact ⟨h, h0, by nlinarith⟩

theorem cos_theta3 : Real.cos (theta3 1) = node3 ∧ Real.cos (theta3 2) = 0 ∧ Real.cos (theta3 3) = -node3 := by
  obtain ⟨_, h0, h1⟩ := sqrt35
  have e : Real.cos (Real.arccos (node3)) = node3 := Real.cos_arccos (by linarith) h1.le
  refine ⟨?_, ?_, ?_⟩
  · simp [theta3, e]
  · simp [theta3]
  · simp [theta3, e]

theorem rows3 : Spec.Rows 3 theta3 weight3 := by
  obtain ⟨_, h0, h1⟩ := sqrt35
  have hp := Real.pi_pos
  have hlo : 0 < Real.arccos (node3) := Real.arccos_pos.mpr h1
  have hhi : Real.arccos (node3) < Real.pi / 2 := Real.arccos_lt_pi_div_two.mpr h0
  refine ⟨fun j a b => ?_, fun j a b => ?_, fun j a b => ?_⟩
  · have : j = 1 ∨ j = 2 ∨ j = 3 := by omega
    rcases this with rfl | rfl | rfl <;> simp only [theta3] <;> norm_num <;> first | (constructor <;> linarith) | linarith
  · have : j = 1 ∨ j = 2 ∨ j = 3 := by omega
    rcases this with rfl | rfl | rfl <;> simp [theta3]
    ring
  · have : j = 1 ∨ j = 2 ∨ j = 3 := by omega
    rcases this with rfl | rfl | rfl <;> simp [weight3]

/-- The three-row Gaussian quadrature is exact up to degree 5. -/
theorem gauss3 : Sphere.Spec.Gauss 3 theta3 weight3 := by
  intro p hp
  obtain ⟨hq, h0, h1⟩ := sqrt35
  obtain ⟨c1, c2, c3⟩ := cos_theta3
  have hsum : ∀ x : ℝ, p.eval x = ∑ i ∈ Finset.range 6, p.coeff i * x ^ i := fun x => eval_eq_sum_range' (by omega) x
  have hint : ∫ x in (-1 : ℝ)..1, p.eval x = ∑ i ∈ Finset.range 6, p.coeff i * ((1 ^ (i + 1) - (-1) ^ (i + 1)) / ((i : ℝ) + 1)) := by
    simp only [hsum]
    rw [intervalIntegral.integral_finsetSum fun i _ => (by fun_prop : Continuous fun x : ℝ => p.coeff i * x ^ i).intervalIntegrable _ _]
    refine Finset.sum_congr rfl fun i _ => ?_
    rw [intervalIntegral.integral_const_mul, integral_pow]
  rw [hint]
  have e3 : Finset.Icc 1 3 = {1, 2, 3} := by decide
  rw [e3, Finset.sum_insert (by decide), Finset.sum_insert (by decide), Finset.sum_singleton, c1, c2, c3]
  simp only [hsum, Finset.sum_range_succ, Finset.sum_range_zero, weight3]
  have h3 : node3 ^ 3 = 3 / 5 * node3 := by rw [pow_succ, hq]
  have h4 : node3 ^ 4 = 9 / 25 := by rw [show node3 ^ 4 = (node3 ^ 2) ^ 2 by ring, hq]; norm_num
  have h5 : node3 ^ 5 = 9 / 25 * node3 := by rw [pow_succ, h4]
  have n2 : (-node3) ^ 2 = 3 / 5 := by rw [neg_pow, hq]; norm_num
  have n3 : (-node3) ^ 3 = -(3 / 5 * node3) := by rw [neg_pow, h3]; norm_num
  have n4 : (-node3) ^ 4 = 9 / 25 := by rw [neg_pow, h4]; norm_num
  have n5 : (-node3) ^ 5 = -(9 / 25 * node3) := by rw [neg_pow, h5]; norm_num
  simp only [hq, h3, h4, h5, n2, n3, n4, n5]
  norm_num
  ring

/-! ### Rows that cannot carry a wave -/

open Complex Sphere in
/-- **Loss.** If some row with a positive weight has fewer than `2m` points, the coefficient of order and degree `m` comes
back strictly smaller. -/
theorem analysis_loss {nlat T : ℕ} {pl : ℕ → ℕ} {θ w : ℕ → ℝ} (hG : Sphere.Spec.Gauss nlat θ w) (hT : T < nlat) (hw : ∀ j, 1 ≤ j → j ≤ nlat → 0 < w j)
    (hs : ∀ j, 1 ≤ j → j ≤ nlat → 0 < θ j ∧ θ j < Real.pi) {m : ℕ} (hm0 : m ≠ 0) (hm : m ≤ T) (hpl : ∀ j, 1 ≤ j → j ≤ nlat → 1 ≤ pl j) {j0 : ℕ} (h1 : 1 ≤ j0) (h2 : j0 ≤ nlat)
    (h3 : pl j0 < 2 * m) :
    ∃ x : ℝ, x < 1 ∧ Spec.analysis nlat pl θ w
      (fun j i => Spec.rowField (pl j) T (Spec.order T (fun m' n' => if m' = m ∧ n' = m then 1 else 0) (θ j)) (Spec.lon (pl j) i)) m m = x := by
  refine ⟨∑ j ∈ (Finset.Icc 1 nlat).filter (fun j => 2 * m ≤ pl j), w j * (pbar m m (θ j) * pbar m m (θ j)), ?_, ?_⟩
  · have hone := gauss_orth hG (m := m) (n := m) (k := m) (by omega) (by omega) le_rfl le_rfl
    rw [if_pos rfl] at hone
    rw [← hone]
    refine Finset.sum_lt_sum_of_subset (i := j0) (Finset.filter_subset _ _) (Finset.mem_Icc.mpr ⟨h1, h2⟩) (by simp; omega) ?_ ?_
    · have hp : pbar m m (θ j0) ≠ 0 := by
        have hs0 : Real.sin (θ j0) ≠ 0 := (Real.sin_pos_of_pos_of_lt_pi (hs j0 h1 h2).1 (hs j0 h1 h2).2).ne'
        unfold pbar
        rw [show m + m = m + m from rfl, rod_top]
        have hn : Sphere.norm m m ≠ 0 := by
          intro h
          have := norm_sq (le_refl m)
          rw [h] at this; simp at this
        simp only [eval_C]
        positivity
      exact mul_pos (hw j0 h1 h2) (mul_self_pos.mpr hp)
    · intro j hj _
      rw [Finset.mem_Icc] at hj
      have := hw j hj.1 hj.2
      nlinarith [mul_self_nonneg (pbar m m (θ j))]
  · unfold Spec.analysis
    rw [ofReal_sum]
    refine Finset.sum_congr rfl fun j hj => ?_
    rw [Finset.mem_filter, Finset.mem_Icc] at hj
    have ho : Spec.order T (fun m' n' => if m' = m ∧ n' = m then (1 : ℂ) else 0) (θ j) m = (pbar m m (θ j) : ℂ) := by
      unfold Spec.order
      rw [Finset.sum_eq_single m]
      · simp
      · intro n _ hn; beta_reduce; rw [if_neg (by tauto)]; simp
      · intro h; exact absurd (Finset.mem_Icc.mpr ⟨le_rfl, hm⟩) h
    rw [circleCoef_rowField (hpl j hj.1.1 hj.1.2) hm hj.2, ho]
    simp only [ofReal_re, ite_self]
    push_cast; ring

end Skyborn.RedGauss
