/-
C37 (longitude part), C39.
-/
import Verif.Regrid.LonLemmas
import Mathlib.Data.Real.Archimedean
import Mathlib.Algebra.Order.Archimedean.Real.Basic
import Mathlib.Analysis.Real.Pi.Bounds
import Mathlib.Tactic.NormNum
import Mathlib.Tactic.IntervalCases

namespace Skyborn.Regrid

open Skyborn

section
variable {K : Type} [Field K] [LinearOrder K] [IsStrictOrderedRing K]

/-- C37, longitude: for every pair of strictly increasing axes the weights exist, are non-negative and every row adds up to
one. -/
theorem C37_longitude_weights [FloorRing K] (P : K) {nsrc ntgt : ℕ} (h1 : 0 < nsrc) (h2 : 0 < ntgt) {src tgt : ℕ → K}
    (hs : Spec.StrictInc nsrc src) (ht : Spec.StrictInc ntgt tgt) :
    ∃ w, longitudeWeights P nsrc src ntgt tgt = .ok w ∧
      (∀ t s, t < ntgt → s < nsrc → 0 ≤ w (t * nsrc + s)) ∧
      ∀ t, t < ntgt → ∑ s ∈ Finset.range nsrc, w (t * nsrc + s) = 1 := by
  obtain ⟨w, e, h⟩ := longitudeWeights_spec P h1 h2 hs ht
  refine ⟨w, e, fun t s a b => ?_, fun t a => ?_⟩
  · rw [h t s a b]
    refine normWeight_nonneg (fun j _ => ?_) b
    exact periodicOverlap_nonneg _ _ _ _ _
  · exact (Finset.sum_congr rfl fun s hb => h t s a (Finset.mem_range.mp hb)).trans (normWeight_sum h1 _ t)

/-- C37: an empty axis or one that does not increase strictly is refused. -/
theorem C37_rejected [FloorRing K] (P : K) (sin : K → K) {nsrc ntgt : ℕ} {src tgt : ℕ → K}
    (h : nsrc = 0 ∨ ntgt = 0 ∨ ¬ Spec.StrictInc nsrc src ∨ ¬ Spec.StrictInc ntgt tgt) :
    longitudeWeights P nsrc src ntgt tgt = .error .valueError ∧
      latitudeWeights sin (P / 4) nsrc src ntgt tgt = .error .valueError := by
  unfold longitudeWeights latitudeWeights
  by_cases h0 : nsrc = 0 ∨ ntgt = 0
  · simp [h0]
  · rw [if_neg h0, if_neg h0]
    obtain ⟨a, ea, ha⟩ := isStrictlyIncreasing_spec nsrc src
    obtain ⟨b, eb, hb⟩ := isStrictlyIncreasing_spec ntgt tgt
    have : (a && b) = false := by
      rw [Bool.and_eq_false_iff]
      rcases h with h | h | h | h
      · exact absurd (Or.inl h) h0
      · exact absurd (Or.inr h) h0
      · left; rw [← Bool.not_eq_true, ha]; exact h
      · right; rw [← Bool.not_eq_true, hb]; exact h
    rw [ea, eb]
    simp [run, bind, Except.bind, this]

/-! The cells. -/

theorem lonAxis_period_pos {P : K} {n : ℕ} {x : ℕ → K} (h : Spec.LonAxis P n x) : 0 < P := by
  have := h.seam
  have := h.seamGap
  linarith

theorem lonAxis_span {P : K} {n : ℕ} {x : ℕ → K} (h : Spec.LonAxis P n x) {i j : ℕ} (hi : i < n) (hj : j < n) : x i < x j + P := by
  have h1 : x i ≤ x (n - 1) := by
    rcases Nat.lt_or_ge i (n - 1) with a | a
    · exact (h.inc i (n - 1) a (by have := h.pos; omega)).le
    · rw [show i = n - 1 by omega]
  have h2 : x 0 ≤ x j := by
    rcases Nat.eq_zero_or_pos j with a | a
    · rw [a]
    · exact (h.inc 0 j a hj).le
  have := h.seam
  linarith

theorem lonEdge_last {P : K} {n : ℕ} (hn : 0 < n) {x : ℕ → K} : Spec.lonEdge P n x n = Spec.lonEdge P n x 0 + P := by
  unfold Spec.lonEdge
  rw [if_neg hn.ne', if_pos rfl, if_pos rfl]
  ring

theorem lonEdge_lt {P : K} {n : ℕ} {x : ℕ → K} (h : Spec.LonAxis P n x) {i : ℕ} (hi : i < n) :
    Spec.lonEdge P n x i < x i ∧ x i < Spec.lonEdge P n x (i + 1) ∧ x i - Spec.lonEdge P n x i < P / 4 ∧
      Spec.lonEdge P n x (i + 1) - x i < P / 4 := by
  have hs := h.seam
  have hg := h.seamGap
  have lo : Spec.lonEdge P n x i < x i ∧ x i - Spec.lonEdge P n x i < P / 4 := by
    unfold Spec.lonEdge
    split
    · rename_i h0; subst h0
      constructor <;> linarith
    · rw [if_neg (by omega)]
      have a := h.inc (i - 1) i (by omega) hi
      have b := h.gap (i - 1) (by omega)
      rw [show i - 1 + 1 = i by omega] at b
      constructor <;> linarith
  have up : x i < Spec.lonEdge P n x (i + 1) ∧ Spec.lonEdge P n x (i + 1) - x i < P / 4 := by
    unfold Spec.lonEdge
    rw [if_neg (by omega)]
    split
    · rename_i h0
      rw [show n - 1 = i by omega] at hs hg ⊢
      constructor <;> linarith
    · have a := h.inc i (i + 1) (by omega) (by omega)
      have b := h.gap i (by omega)
      simp only [Nat.add_sub_cancel]
      constructor <;> linarith
  exact ⟨lo.1, up.1, lo.2, up.2⟩

theorem lonEdge_mono {P : K} {n : ℕ} {x : ℕ → K} (h : Spec.LonAxis P n x) {i : ℕ} (hi : i < n) :
    Spec.lonEdge P n x i < Spec.lonEdge P n x (i + 1) := by
  have := lonEdge_lt h hi
  linarith [this.1, this.2.1]

theorem lonWidth_pos {P : K} {n : ℕ} {x : ℕ → K} (h : Spec.LonAxis P n x) {i : ℕ} (hi : i < n) : 0 < Spec.lonWidth P n x i :=
  sub_pos.mpr (lonEdge_mono h hi)

section
variable [FloorRing K]

theorem codeLower_eq {P : K} {n : ℕ} {x : ℕ → K} (h : Spec.LonAxis P n x) {i : ℕ} (hi : i < n) :
    codeLower P n x i = Spec.lonEdge P n x i + ((-⌊x i / P⌋ : ℤ) : K) * P := by
  have hP := lonAxis_period_pos h
  have he := lonEdge_lt h hi
  unfold codeLower
  have e1 := modPeriod_eq hP (x i)
  have r1 := modPeriod_range hP (x i)
  have e2 := modPeriod_eq hP (x ((i + n - 1) % n))
  have r2 := modPeriod_range hP (x ((i + n - 1) % n))
  have key : alignPhase (modPeriod (x ((i + n - 1) % n)) P) (modPeriod (x i) P) P =
      2 * Spec.lonEdge P n x i - x i - ⌊x i / P⌋ * P := by
    apply alignPhase_eq hP (by linarith) (by linarith)
    · rw [e2]
      unfold Spec.lonEdge
      split
      · rename_i h0
        subst h0
        rw [Nat.zero_add, Nat.mod_eq_of_lt (by have := h.pos; omega)]
        exact ⟨⌊x (n - 1) / P⌋ - ⌊x 0 / P⌋ - 1, by push_cast; ring⟩
      · rw [if_neg (by omega), show i + n - 1 = (i - 1) + n by omega, Nat.add_mod_right, Nat.mod_eq_of_lt (by omega)]
        exact ⟨⌊x (i - 1) / P⌋ - ⌊x i / P⌋, by push_cast; ring⟩
    · rw [e1]; linarith
    · rw [e1]; linarith
  rw [key, e1]
  push_cast
  ring

theorem codeUpper_eq {P : K} {n : ℕ} {x : ℕ → K} (h : Spec.LonAxis P n x) {i : ℕ} (hi : i < n) :
    codeUpper P n x i = Spec.lonEdge P n x (i + 1) + ((-⌊x i / P⌋ : ℤ) : K) * P := by
  have hP := lonAxis_period_pos h
  have he := lonEdge_lt h hi
  unfold codeUpper
  have e1 := modPeriod_eq hP (x i)
  have r1 := modPeriod_range hP (x i)
  have e2 := modPeriod_eq hP (x ((i + 1) % n))
  have r2 := modPeriod_range hP (x ((i + 1) % n))
  have key : alignPhase (modPeriod (x ((i + 1) % n)) P) (modPeriod (x i) P) P =
      2 * Spec.lonEdge P n x (i + 1) - x i - ⌊x i / P⌋ * P := by
    apply alignPhase_eq hP (by linarith) (by linarith)
    · rw [e2]
      unfold Spec.lonEdge
      rw [if_neg (by omega)]
      split
      · rename_i h0
        rw [h0, Nat.mod_self, show n - 1 = i by omega]
        exact ⟨⌊x 0 / P⌋ - ⌊x i / P⌋ + 1, by push_cast; ring⟩
      · rw [Nat.mod_eq_of_lt (by omega), Nat.add_sub_cancel]
        exact ⟨⌊x (i + 1) / P⌋ - ⌊x i / P⌋, by push_cast; ring⟩
    · rw [e1]; linarith
    · rw [e1]; linarith
  rw [key, e1]
  push_cast
  ring

/-- The overlap of two cells as the code computes it, when the two cells together are at most half a period wide. -/
theorem codeOverlap_eq {P : K} {nsrc ntgt : ℕ} {src tgt : ℕ → K} (hs : Spec.LonAxis P nsrc src) (ht : Spec.LonAxis P ntgt tgt)
    {t s : ℕ} (h1 : t < ntgt) (h2 : s < nsrc) (hw : Spec.lonWidth P ntgt tgt t + Spec.lonWidth P nsrc src s ≤ P / 2) :
    periodicOverlap (codeLower P ntgt tgt t) (codeUpper P ntgt tgt t) (codeLower P nsrc src s) (codeUpper P nsrc src s) P =
      Spec.circleOverlap P (Spec.lonEdge P ntgt tgt t) (Spec.lonEdge P ntgt tgt (t + 1)) (Spec.lonEdge P nsrc src s)
        (Spec.lonEdge P nsrc src (s + 1)) := by
  have hP := lonAxis_period_pos hs
  have ct := lonEdge_lt ht h1
  have cs := lonEdge_lt hs h2
  have rt := modPeriod_range hP (tgt t)
  have rs := modPeriod_range hP (src s)
  rw [modPeriod_eq hP] at rt rs
  have hw' := hw
  unfold Spec.lonWidth at hw'
  rw [periodicOverlap_eq hP]
  · rw [codeLower_eq ht h1, codeUpper_eq ht h1, codeLower_eq hs h2, codeUpper_eq hs h2, circleOverlap_shift]
  all_goals
    simp only [codeLower_eq ht h1, codeUpper_eq ht h1, codeLower_eq hs h2, codeUpper_eq hs h2]
    push_cast
    linarith [ct.1, ct.2.1, ct.2.2.1, ct.2.2.2, cs.1, cs.2.1, cs.2.2.1, cs.2.2.2, rt.1, rt.2, rs.1, rs.2]

/-- C39, for cells that together span at most half the circle: every weight is the share of the target cell which the source
cell covers on the circle. -/
theorem C39_share_partial {P : K} {nsrc ntgt : ℕ} {src tgt : ℕ → K} (hs : Spec.LonAxis P nsrc src)
    (ht : Spec.LonAxis P ntgt tgt)
    (hw : ∀ t s, t < ntgt → s < nsrc → Spec.lonWidth P ntgt tgt t + Spec.lonWidth P nsrc src s ≤ P / 2)
    (hwide : ∀ t, t < ntgt → Spec.lonWidth P ntgt tgt t > 1 / 10 ^ 15) :
    ∃ w, longitudeWeights P nsrc src ntgt tgt = .ok w ∧ ∀ t s, t < ntgt → s < nsrc → w (t * nsrc + s) =
      Spec.circleOverlap P (Spec.lonEdge P ntgt tgt t) (Spec.lonEdge P ntgt tgt (t + 1)) (Spec.lonEdge P nsrc src s)
        (Spec.lonEdge P nsrc src (s + 1)) / Spec.lonWidth P ntgt tgt t := by
  haveI := FloorRing.archimedean K
  obtain ⟨w, e, h⟩ := longitudeWeights_spec P hs.pos ht.pos hs.inc ht.inc
  refine ⟨w, e, fun t s a b => ?_⟩
  rw [h t s a b]
  unfold normWeight
  beta_reduce
  rw [Finset.sum_congr rfl fun k hk => codeOverlap_eq hs ht a (Finset.mem_range.mp hk) (hw t k a (Finset.mem_range.mp hk)),
    circleOverlap_sum (lonAxis_period_pos hs) (lonEdge_mono ht a).le nsrc (Spec.lonEdge P nsrc src)
      (fun i hi => (lonEdge_mono hs hi).le) (lonEdge_last hs.pos), codeOverlap_eq hs ht a b (hw t s a b)]
  exact if_pos (hwide t a)

/-- The same situation: the width-weighted sum around the circle is conserved. -/
theorem C39_conserves_partial {P : K} {nsrc ntgt : ℕ} {src tgt : ℕ → K} (hs : Spec.LonAxis P nsrc src)
    (ht : Spec.LonAxis P ntgt tgt)
    (hw : ∀ t s, t < ntgt → s < nsrc → Spec.lonWidth P ntgt tgt t + Spec.lonWidth P nsrc src s ≤ P / 2)
    (hwide : ∀ t, t < ntgt → Spec.lonWidth P ntgt tgt t > 1 / 10 ^ 15) {w : ℕ → K}
    (e : longitudeWeights P nsrc src ntgt tgt = .ok w) (f : ℕ → K) :
    ∑ t ∈ Finset.range ntgt, Spec.lonWidth P ntgt tgt t * ∑ s ∈ Finset.range nsrc, w (t * nsrc + s) * f s =
      ∑ s ∈ Finset.range nsrc, Spec.lonWidth P nsrc src s * f s := by
  haveI := FloorRing.archimedean K
  obtain ⟨w', e', h⟩ := C39_share_partial hs ht hw hwide
  rw [e] at e'
  obtain rfl : w = w' := by injection e'
  have key : ∀ t ∈ Finset.range ntgt, Spec.lonWidth P ntgt tgt t * ∑ s ∈ Finset.range nsrc, w (t * nsrc + s) * f s =
      ∑ s ∈ Finset.range nsrc, Spec.circleOverlap P (Spec.lonEdge P nsrc src s) (Spec.lonEdge P nsrc src (s + 1))
        (Spec.lonEdge P ntgt tgt t) (Spec.lonEdge P ntgt tgt (t + 1)) * f s := by
    intro t ht'
    have a := Finset.mem_range.mp ht'
    rw [Finset.mul_sum]
    apply Finset.sum_congr rfl
    intro s hs'
    rw [h t s a (Finset.mem_range.mp hs'), circleOverlap_comm]
    have := (lonWidth_pos ht a).ne'
    field_simp
  rw [Finset.sum_congr rfl key, Finset.sum_comm]
  apply Finset.sum_congr rfl
  intro s hs'
  rw [← Finset.sum_mul, circleOverlap_sum (lonAxis_period_pos hs) (lonEdge_mono hs (Finset.mem_range.mp hs')).le ntgt
    (Spec.lonEdge P ntgt tgt) (fun i hi => (lonEdge_mono ht hi).le) (lonEdge_last ht.pos)]
  rfl

end
end

/-! Witnesses. -/

/-- `n` equally spaced longitudes starting at `start` period lengths. -/
noncomputable def equi (P : ℝ) (start : ℝ) (n i : ℕ) : ℝ := P * (start + i / n)

theorem equi_axis {P start : ℝ} (hP : 0 < P) {n : ℕ} (hn : 3 ≤ n) : Spec.LonAxis P n (equi P start n) := by
  have hn' : (3 : ℝ) ≤ n := by exact_mod_cast hn
  have hn0 : (0 : ℝ) < n := by linarith
  have hstep : P / n < P / 2 := by
    apply div_lt_div_of_pos_left hP (by norm_num); linarith
  refine ⟨by omega, fun i j hij _ => ?_, fun i _ => ?_, ?_, ?_⟩
  · unfold equi
    have : (i : ℝ) < j := by exact_mod_cast hij
    gcongr
  · unfold equi
    have : P * (start + ((i + 1 : ℕ) : ℝ) / n) - P * (start + (i : ℝ) / n) = P / n := by push_cast; field_simp; ring
    rw [this]; exact hstep
  · unfold equi
    have : P * (start + ((0 : ℕ) : ℝ) / n) + P - P * (start + ((n - 1 : ℕ) : ℝ) / n) = P / n := by
      rw [Nat.cast_sub (by omega)]; push_cast; field_simp; ring
    have : 0 < P / n := by positivity
    linarith
  · unfold equi
    have : P * (start + ((0 : ℕ) : ℝ) / n) + P - P * (start + ((n - 1 : ℕ) : ℝ) / n) = P / n := by
      rw [Nat.cast_sub (by omega)]; push_cast; field_simp; ring
    rw [this]; exact hstep

/-- C39 is false of the code: three equally spaced longitudes (60, 180, 300 degrees) regridded from (30, 150, 270 degrees).
The second source cell covers a quarter of the first target cell, but its weight is zero. -/
theorem C39_false : ∃ (src tgt w : ℕ → ℝ), Spec.LonAxis (2 * Real.pi) 3 src ∧ Spec.LonAxis (2 * Real.pi) 3 tgt ∧
    longitudeWeights (2 * Real.pi) 3 src 3 tgt = .ok w ∧ w (0 * 3 + 1) = 0 ∧
    Spec.circleOverlap (2 * Real.pi) (Spec.lonEdge (2 * Real.pi) 3 tgt 0) (Spec.lonEdge (2 * Real.pi) 3 tgt 1)
      (Spec.lonEdge (2 * Real.pi) 3 src 1) (Spec.lonEdge (2 * Real.pi) 3 src 2) / Spec.lonWidth (2 * Real.pi) 3 tgt 0 = 1 / 4 := by
  obtain ⟨P, hPd⟩ : ∃ P, P = 2 * Real.pi := ⟨_, rfl⟩
  have hP : 6 < P := by rw [hPd]; linarith [Real.pi_gt_three]
  rw [← hPd]
  have hP0 : 0 < P := by linarith
  have hs := equi_axis (start := 1 / 12) hP0 (le_refl 3)
  have ht := equi_axis (start := 1 / 6) hP0 (le_refl 3)
  obtain ⟨w, e, h⟩ := longitudeWeights_spec P hs.pos ht.pos hs.inc ht.inc
  have t0 : Spec.lonEdge P 3 (equi P (1 / 6) 3) 0 = 0 := by
    simp [Spec.lonEdge, equi]; ring
  have t1 : Spec.lonEdge P 3 (equi P (1 / 6) 3) 1 = P / 3 := by
    simp [Spec.lonEdge, equi]; ring
  have s0 : Spec.lonEdge P 3 (equi P (1 / 12) 3) 0 = -(P / 12) := by
    simp [Spec.lonEdge, equi]; ring
  have s1 : Spec.lonEdge P 3 (equi P (1 / 12) 3) 1 = P / 4 := by
    simp [Spec.lonEdge, equi]; ring
  have s2 : Spec.lonEdge P 3 (equi P (1 / 12) 3) 2 = 7 * P / 12 := by
    simp [Spec.lonEdge, equi]; ring
  have fl : ∀ r : ℝ, 0 ≤ r → r < 1 → ⌊P * r / P⌋ = 0 := by
    intro r h1 h2
    rw [mul_div_cancel_left₀ _ hP0.ne', Int.floor_eq_zero_iff]
    exact ⟨h1, h2⟩
  have f1 : ⌊equi P (1 / 6) 3 0 / P⌋ = 0 := fl _ (by norm_num) (by norm_num)
  have f2 : ⌊equi P (1 / 12) 3 0 / P⌋ = 0 := fl _ (by norm_num) (by norm_num)
  have f3 : ⌊equi P (1 / 12) 3 1 / P⌋ = 0 := fl _ (by norm_num) (by norm_num)
  refine ⟨equi P (1 / 12) 3, equi P (1 / 6) 3, w, hs, ht, e, ?_, ?_⟩
  · rw [h 0 1 (by omega) (by omega)]
    unfold normWeight
    beta_reduce
    have tl : codeLower P 3 (equi P (1 / 6) 3) 0 = 0 := by
      rw [codeLower_eq ht (by omega), t0, f1]; simp
    have tu : codeUpper P 3 (equi P (1 / 6) 3) 0 = P / 3 := by
      rw [codeUpper_eq ht (by omega), f1, Nat.zero_add, t1]; simp
    have o1 : periodicOverlap (codeLower P 3 (equi P (1 / 6) 3) 0) (codeUpper P 3 (equi P (1 / 6) 3) 0)
        (codeLower P 3 (equi P (1 / 12) 3) 1) (codeUpper P 3 (equi P (1 / 12) 3) 1) P = 0 := by
      rw [tl, tu, codeLower_eq hs (by omega), codeUpper_eq hs (by omega), f3]
      simp only [s1, s2, Int.cast_neg, Int.cast_zero, neg_zero, zero_mul, add_zero]
      unfold periodicOverlap alignPhase
      dsimp only
      rw [if_neg (show ¬ P / 4 > 0 + P / 2 by linarith), if_neg (show ¬ P / 4 < 0 - P / 2 by linarith),
        if_pos (show 7 * P / 12 > 0 + P / 2 by linarith), if_neg (show ¬ 7 * P / 12 - P < 0 - P / 2 by linarith), if_neg]
      have := min_le_right (P / 3) (7 * P / 12 - P)
      have := le_max_right 0 (P / 4)
      linarith
    have o0 : periodicOverlap (codeLower P 3 (equi P (1 / 6) 3) 0) (codeUpper P 3 (equi P (1 / 6) 3) 0)
        (codeLower P 3 (equi P (1 / 12) 3) 0) (codeUpper P 3 (equi P (1 / 12) 3) 0) P = P / 4 := by
      rw [tl, tu, codeLower_eq hs (by omega), codeUpper_eq hs (by omega), f2]
      simp only [s0, s1, Int.cast_neg, Int.cast_zero, neg_zero, zero_mul, add_zero, Nat.zero_add]
      unfold periodicOverlap alignPhase
      dsimp only
      rw [if_neg (show ¬ -(P / 12) > 0 + P / 2 by linarith), if_neg (show ¬ -(P / 12) < 0 - P / 2 by linarith),
        if_neg (show ¬ P / 4 > 0 + P / 2 by linarith), if_neg (show ¬ P / 4 < 0 - P / 2 by linarith),
        min_eq_right (by linarith), max_eq_left (by linarith), if_pos (by linarith), sub_zero]
    rw [o1, if_pos, zero_div]
    rw [Finset.sum_range_succ, Finset.sum_range_succ, Finset.sum_range_succ, Finset.sum_range_zero, o0, o1]
    have := periodicOverlap_nonneg (codeLower P 3 (equi P (1 / 6) 3) 0) (codeUpper P 3 (equi P (1 / 6) 3) 0)
        (codeLower P 3 (equi P (1 / 12) 3) 2) (codeUpper P 3 (equi P (1 / 12) 3) 2) P
    have : (1 : ℝ) / 10 ^ 15 < 1 := by norm_num
    linarith
  · unfold Spec.lonWidth Spec.circleOverlap
    simp only [Nat.zero_add]
    rw [t0, t1, s1, s2, finsum_eq_single _ 0]
    · simp only [Int.cast_zero, zero_mul, add_zero]
      unfold Spec.inter
      rw [min_eq_left (by linarith), max_eq_right (by linarith : (0 : ℝ) ≤ P / 4), max_eq_right (by linarith)]
      have := hP0.ne'
      field_simp; norm_num
      exact this
    · intro k hk
      rcases lt_or_gt_of_ne hk with h | h
      · apply inter_zero_left
        have : (k : ℝ) ≤ -1 := by exact_mod_cast (by omega : k ≤ -1)
        have := mul_le_mul_of_nonneg_right this hP0.le
        linarith
      · apply inter_zero_right
        have : (1 : ℝ) ≤ k := by exact_mod_cast h
        have := mul_le_mul_of_nonneg_right this hP0.le
        linarith

/-- A non-trivial pair of axes meets the hypotheses of the partial theorems: 8 longitudes to 5 staggered ones. -/
example : ∃ src tgt : ℕ → ℝ, Spec.LonAxis (2 * Real.pi) 8 src ∧ Spec.LonAxis (2 * Real.pi) 5 tgt ∧
    (∀ t s, t < 5 → s < 8 → Spec.lonWidth (2 * Real.pi) 5 tgt t + Spec.lonWidth (2 * Real.pi) 8 src s ≤ 2 * Real.pi / 2) ∧
    ∀ t, t < 5 → Spec.lonWidth (2 * Real.pi) 5 tgt t > 1 / 10 ^ 15 := by
  obtain ⟨P, hPd⟩ : ∃ P, P = 2 * Real.pi := ⟨_, rfl⟩
  have hP : 6 < P := by rw [hPd]; linarith [Real.pi_gt_three]
  rw [← hPd]
  have wt : ∀ t, t < 5 → Spec.lonWidth P 5 (equi P (1 / 7) 5) t = P / 5 := by
    intro t ht
    interval_cases t <;> simp [Spec.lonWidth, Spec.lonEdge, equi] <;> ring
  have ws : ∀ t, t < 8 → Spec.lonWidth P 8 (equi P 0 8) t = P / 8 := by
    intro t ht
    interval_cases t <;> simp [Spec.lonWidth, Spec.lonEdge, equi] <;> ring
  refine ⟨equi P 0 8, equi P (1 / 7) 5, equi_axis (by linarith) (by omega), equi_axis (by linarith) (by omega), ?_, ?_⟩
  · intro t s h1 h2
    rw [wt t h1, ws s h2]; linarith
  · intro t h1
    rw [wt t h1]
    have : (1 : ℝ) / 10 ^ 15 < 1 := by norm_num
    linarith

end Skyborn.Regrid
