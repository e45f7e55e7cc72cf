/-
C202: the line reported by the partial test (trend, intercept, std_error) for both slope methods.
-/
import Verif.MK.PartialPyStats

namespace Skyborn.MK.Py

open Skyborn Skyborn.MK Finset Spec

variable (E : Env)

/-- the (0-based) times at which the series is finite -/
def Spec.finiteTimes (v : List (Option ℝ)) : Finset ℕ := (range v.length).filter fun t => (v.getD t none).isSome = true

/-- the value at a time -/
def Spec.at (v : List (Option ℝ)) (t : ℕ) : ℝ := (v.getD t none).getD 0

/-- standard deviation of `f` over the times `F`, divided by the root of their number -/
noncomputable def Spec.spread (F : Finset ℕ) (f : ℕ → ℝ) : ℝ :=
  Real.sqrt ((∑ t ∈ F, (f t - (∑ u ∈ F, f u) / F.card) ^ 2) / F.card) / Real.sqrt F.card

theorem finite_samples (resp : List (Option ℝ)) (β : Type) (g : ℝ → ℝ → β) :
    (Multiset.range resp.reduceOption.length).map (fun i => g (((finiteIdx resp).getD i 0 : ℕ) : ℝ) (elems resp.reduceOption i)) =
      (Spec.finiteTimes resp).val.map fun t : ℕ => g (t : ℝ) (Spec.at resp t) := by
  have e : (Spec.finiteTimes resp).val = ((finiteIdx resp : List ℕ) : Multiset ℕ) := by
    unfold Spec.finiteTimes finiteIdx
    rw [Finset.filter_val, Finset.range_val, ← Multiset.coe_range, Multiset.filter_coe]
    congr 1
    refine List.filter_congr fun x _ => by simp
  rw [e, ← Multiset.coe_range, Multiset.map_coe, Multiset.map_coe]
  congr 1
  refine List.ext_getElem (by simp [finiteIdx_length]) fun i h1 h2 => ?_
  simp only [List.length_map, List.length_range] at h1
  simp only [List.getElem_map, List.getElem_range]
  have hi : i < (finiteIdx resp).length := by rw [finiteIdx_length]; exact h1
  congr 1
  · rw [List.getD_eq_getElem _ _ hi]
  · unfold elems Spec.at
    rw [List.getD_eq_getElem _ _ h1]
    have := congrArg (fun l => l[i]?) (reduceOption_finiteIdx resp)
    simp only [List.getElem?_map] at this
    rw [List.getElem?_eq_getElem h1, List.getElem?_eq_getElem hi] at this
    simpa using this

theorem finite_sum (resp : List (Option ℝ)) (g : ℝ → ℝ → ℝ) :
    ∑ i ∈ range resp.reduceOption.length, g (((finiteIdx resp).getD i 0 : ℕ) : ℝ) (elems resp.reduceOption i) =
      ∑ t ∈ Spec.finiteTimes resp, g (t : ℝ) (Spec.at resp t) := by
  unfold Finset.sum
  rw [Finset.range_val, finite_samples]

theorem finite_card (resp : List (Option ℝ)) : (Spec.finiteTimes resp).card = resp.reduceOption.length := by
  have := congrArg Multiset.card (finite_samples resp ℝ fun a _ => a)
  simpa using this.symm

theorem finite_spread (resp : List (Option ℝ)) (g : ℝ → ℝ → ℝ) :
    std resp.reduceOption.length (fun i => g (((finiteIdx resp).getD i 0 : ℕ) : ℝ) (elems resp.reduceOption i)) / Real.sqrt resp.reduceOption.length =
      Spec.spread (Spec.finiteTimes resp) fun t => g (t : ℝ) (Spec.at resp t) := by
  unfold std mean Spec.spread
  rw [finite_card, finite_sum resp g]
  congr 3
  exact finite_sum resp fun a b => (g a b - (∑ t ∈ Spec.finiteTimes resp, g (t : ℝ) (Spec.at resp t)) / resp.reduceOption.length) ^ 2

theorem trend_ok {alpha : ℝ} {method : Method} {resp cov : List (Option ℝ)} {r : PRes} (hr : partialTest E alpha method resp cov = some r)
    (hn : 3 ≤ r.n) : (r.trend, r.intercept, r.stdError) = responseTrendScalar method resp ∧ 3 ≤ resp.reduceOption.length := by
  by_cases hl : resp.length = cov.length
  · rw [partialTest_eq E alpha method hl] at hr
    simp only [Option.some.injEq] at hr
    by_cases h : (jointPairs resp cov).length < 3
    · rw [if_pos h] at hr; rw [← hr] at hn; simp [PRes.empty] at hn; omega
    · rw [if_neg h] at hr
      rw [← hr]
      refine ⟨rfl, ?_⟩
      have : ∀ (resp cov : List (Option ℝ)), resp.length = cov.length → (jointPairs resp cov).length ≤ resp.reduceOption.length := by
        intro resp
        induction resp with
        | nil => intro cov _; simp [jointPairs]
        | cons a resp ih =>
          intro cov hl
          cases cov with
          | nil => simp at hl
          | cons b cov =>
            have := ih cov (by simpa using hl)
            rw [jointPairs_cons]
            cases a with
            | none => simpa using this
            | some u => cases b with
              | none => simp; omega
              | some v => simp; omega
      have := this resp cov hl
      omega
  · rw [partialTest_short_len hl] at hr; simp at hr

/-- C202: the Theil-Sen line: the slope is the median pairwise slope, the line runs through the medians of times and values, and std_error is the standard
deviation of the residuals over the root of their number; all over the finite samples of the response at their original times. -/
theorem C202_theil_line (alpha : ℝ) (resp cov : List (Option ℝ)) (r : PRes) (hr : partialTest E alpha .theilslopes resp cov = some r) (hn : 3 ≤ r.n) :
    ∃ b, r.trend = some b ∧ b = median (Spec.gapSlopes resp) ∧
      r.intercept = some (median ((Spec.finiteTimes resp).val.map (Spec.at resp)) - median ((Spec.finiteTimes resp).val.map fun t : ℕ => (t : ℝ)) * b) ∧
      r.stdError = some (Spec.spread (Spec.finiteTimes resp) fun t => Spec.at resp t - t * b) := by
  obtain ⟨e, h3⟩ := trend_ok E hr hn
  unfold responseTrendScalar at e
  dsimp only at e
  rw [if_neg (by omega), pairSlopeList_gaps] at e
  simp only [Prod.mk.injEq] at e
  refine ⟨_, e.1, rfl, ?_, ?_⟩
  · rw [e.2.1]
    unfold medianN
    rw [finite_samples resp ℝ (fun _ b => b), finite_samples resp ℝ (fun a _ => a)]
  · rw [e.2.2, theilStdErrorBatch_eq (by omega)]
    unfold resStdErr
    rw [finite_spread resp fun a b => b - a * median (Spec.gapSlopes resp)]

theorem finiteIdx_strict (resp : List (Option ℝ)) {a b : ℕ} (hab : a < b) (hb : b < (finiteIdx resp).length) :
    (finiteIdx resp).getD a 0 < (finiteIdx resp).getD b 0 := by
  rw [List.getD_eq_getElem _ _ hb, List.getD_eq_getElem _ _ (by omega)]
  exact List.pairwise_iff_getElem.mp (finiteIdx_sorted resp) a b (by omega) hb hab

theorem least_squares {n : ℕ} {x y : ℕ → ℝ} (hn : 0 < n) (hS : 0 < ∑ i ∈ range n, (x i - mean n x) ^ 2) (a' b' : ℝ) :
    ∑ i ∈ range n, (y i - ((linregress n x y).2 + (linregress n x y).1 * x i)) ^ 2 ≤ ∑ i ∈ range n, (y i - (a' + b' * x i)) ^ 2 := by
  unfold linregress
  dsimp only
  set S := ∑ i ∈ range n, (x i - mean n x) ^ 2 with hSd
  set C := ∑ i ∈ range n, (x i - mean n x) * (y i - mean n y) with hCd
  set mx := mean n x with hmx
  set my := mean n y with hmy
  have hn' : (n : ℝ) ≠ 0 := by exact_mod_cast hn.ne'
  have zx : ∑ i ∈ range n, (x i - mx) = 0 := by
    rw [sum_sub_distrib, sum_const, card_range, nsmul_eq_mul, hmx, mean]; field_simp; ring
  have zy : ∑ i ∈ range n, (y i - my) = 0 := by
    rw [sum_sub_distrib, sum_const, card_range, nsmul_eq_mul, hmy, mean]; field_simp; ring
  have key : ∀ a b : ℝ, ∑ i ∈ range n, (y i - (a + b * x i)) ^ 2 =
      ∑ i ∈ range n, (y i - my) ^ 2 - 2 * b * C + b ^ 2 * S + n * (my - a - b * mx) ^ 2 := by
    intro a b
    have : ∀ i, (y i - (a + b * x i)) ^ 2 = (y i - my) ^ 2 - 2 * b * ((x i - mx) * (y i - my)) + b ^ 2 * (x i - mx) ^ 2 + (my - a - b * mx) ^ 2 +
        2 * (my - a - b * mx) * (y i - my) - 2 * b * (my - a - b * mx) * (x i - mx) := by intro i; ring
    simp only [this]
    rw [sum_sub_distrib, sum_add_distrib, sum_add_distrib, sum_add_distrib, sum_sub_distrib, ← mul_sum, ← mul_sum, ← mul_sum, ← mul_sum, zx, zy, sum_const,
      card_range, nsmul_eq_mul]
    ring
  rw [key, key]
  have h1 : my - (my - C / S * mx) - C / S * mx = 0 := by ring
  rw [h1]
  have h2 : (0 : ℝ) ≤ n * (my - a' - b' * mx) ^ 2 := by positivity
  have h3 : -2 * b' * C + b' ^ 2 * S - (-2 * (C / S) * C + (C / S) ^ 2 * S) = S * (b' - C / S) ^ 2 := by field_simp; ring
  have h4 : 0 ≤ S * (b' - C / S) ^ 2 := by positivity
  nlinarith

/-- C202: with the method `linregress`, trend and intercept are the least-squares line through the finite samples of the response at their original times: no other line has
a smaller sum of squares; std_error is the root mean square of its residuals over the root of their number. -/
theorem C202_least_squares (alpha : ℝ) (resp cov : List (Option ℝ)) (r : PRes) (hr : partialTest E alpha .linregress resp cov = some r) (hn : 3 ≤ r.n) :
    ∃ a b, r.trend = some b ∧ r.intercept = some a ∧
      (∀ a' b' : ℝ, ∑ t ∈ Spec.finiteTimes resp, (Spec.at resp t - (a + b * t)) ^ 2 ≤ ∑ t ∈ Spec.finiteTimes resp, (Spec.at resp t - (a' + b' * t)) ^ 2) ∧
      r.stdError = some (Spec.spread (Spec.finiteTimes resp) fun t => Spec.at resp t - t * b) := by
  obtain ⟨e, h3⟩ := trend_ok E hr hn
  unfold responseTrendScalar at e
  dsimp only at e
  rw [if_neg (by omega)] at e
  simp only [Prod.mk.injEq] at e
  refine ⟨_, _, e.1, e.2.1, fun a' b' => ?_, ?_⟩
  · have hS : 0 < ∑ i ∈ range resp.reduceOption.length, ((((finiteIdx resp).getD i 0 : ℕ) : ℝ) -
        mean resp.reduceOption.length fun i => (((finiteIdx resp).getD i 0 : ℕ) : ℝ)) ^ 2 := by
      refine lt_of_le_of_ne (sum_nonneg fun i _ => sq_nonneg _) fun h => ?_
      have hz := (sum_eq_zero_iff_of_nonneg fun i _ => sq_nonneg _).mp h.symm
      have z0 := pow_eq_zero_iff two_ne_zero |>.mp (hz 0 (by simp; omega))
      have z1 := pow_eq_zero_iff two_ne_zero |>.mp (hz 1 (by simp; omega))
      have lt := finiteIdx_strict resp (a := 0) (b := 1) (by norm_num) (by rw [finiteIdx_length]; omega)
      have : (((finiteIdx resp).getD 0 0 : ℕ) : ℝ) < (((finiteIdx resp).getD 1 0 : ℕ) : ℝ) := by exact_mod_cast lt
      linarith
    have := least_squares (x := fun i => (((finiteIdx resp).getD i 0 : ℕ) : ℝ)) (y := elems resp.reduceOption) (by omega) hS a' b'
    rw [← finite_sum resp fun x v => (v - (a' + b' * x)) ^ 2]
    rw [← finite_sum resp fun x v => (v - (_ + _ * x)) ^ 2]
    exact this
  · rw [e.2.2, linregressStdErrorBatch_eq (by omega)]
    unfold resStdErr
    rw [finite_spread resp fun x v => v - x * _]

/-- Both hypotheses are met, with a gap in the response. -/
example (m : Method) : ∃ r, partialTest E 0.05 m [some 1, none, some 2, some 4] [some 0, some 1, some 3, some 2] = some r ∧ 3 ≤ r.n := by
  refine ⟨_, partialTest_eq E 0.05 m rfl, ?_⟩
  rw [if_neg (by simp [jointPairs])]
  simp [resOf, jointPairs]

end Skyborn.MK.Py
