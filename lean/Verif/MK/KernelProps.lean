/-
Property theorems about the Mann-Kendall kernels (C01-C08, C12, C14-C16, C50).
Every theorem is about the definitions of `Kernels.lean`/`SortModel.lean` (the model of the Fortran file) and is stated
with the textbook definitions of `Spec.lean`.
-/
import Verif.MK.PartialLemmas
import Verif.MK.GroupLemmas
import Mathlib.Data.Rat.Cast.Order
import Mathlib.Algebra.Order.Ring.Rat

namespace Skyborn.MK

open Skyborn Finset Spec

variable {K : Type} [Field K] [LinearOrder K] [IsStrictOrderedRing K]

/-- Example series `3, 1, 4, 1, 5` (ties, not monotone) used to show that hypotheses are satisfiable. -/
def exSeries : ℕ → ℚ := fun i => [3, 1, 4, 1, 5].getD (i - 1) 0

/-! ## C01 -/

/-- C01: the row-by-row kernel computes Kendall's S. -/
theorem C01_score_textbook (n : ℕ) (y : ℕ → K) : sValue n y = ∑ p ∈ pairs n, sgn (y p.2 - y p.1) :=
  sValue_eq_score n y

omit [IsStrictOrderedRing K] in
theorem pairs_small {n : ℕ} (h : n < 2) : pairs n = ∅ := by
  ext p; rw [mem_pairs]; simp; omega

/-- C01: the fused lag-by-lag kernel never leaves its buffers and returns the same S, whatever the work buffer held. -/
theorem C01_fused_score (n : ℕ) (y work : ℕ → K) :
    ∃ slope, sValueAndSenSlope n y work = some (∑ p ∈ pairs n, sgn (y p.2 - y p.1), slope) := by
  by_cases hn : 2 ≤ n
  · exact ⟨_, sValueAndSenSlope_ok hn y work⟩
  · refine ⟨none, ?_⟩
    rw [pairs_small (by omega)]
    simp [sValueAndSenSlope, show n < 2 by omega]

/-- C01: the two kernels always agree. -/
theorem C01_kernels_agree (n : ℕ) (y work : ℕ → K) : (sValueAndSenSlope n y work).map Prod.fst = some (sValue n y) := by
  obtain ⟨s, e⟩ := C01_fused_score n y work
  rw [e, C01_score_textbook]; rfl

example : sValue 5 exSeries = 3 := by
  simp [sValue, doLoop, exSeries, List.range'_eq_map_range, List.range_succ]; norm_num

/-! ## C02 -/

theorem sum_le_card (n : ℕ) (y : ℕ → K) : score n y ≤ ((pairs n).card : K) := by
  unfold score
  calc _ ≤ ∑ p ∈ pairs n, (1 : K) := Finset.sum_le_sum fun p _ => sgn_le_one _
    _ = _ := by simp

theorem card_pairs_cast (n : ℕ) : (((pairs n).card : K)) = (n : K) * ((n : K) - 1) / 2 := by
  have h := card_pairs n
  rcases n with _ | n
  · simp [pairs_small]
  · have h' : (2 : K) * ((pairs (n + 1)).card : K) = ((n + 1 : ℕ) : K) * (n : K) := by
      have := congrArg (Nat.cast (R := K)) h
      push_cast [Nat.add_sub_cancel] at this ⊢
      exact this
    push_cast at h' ⊢
    linarith

theorem score_neg (n : ℕ) (y : ℕ → K) : score n (fun i => - y i) = - score n y := by
  unfold score
  rw [← Finset.sum_neg_distrib]
  apply Finset.sum_congr rfl; intro p _
  rw [show -y p.2 - -y p.1 = -(y p.2 - y p.1) by ring, sgn_neg_eq]

/-- C02: `|S| ≤ n(n-1)/2`. -/
theorem C02_bound (n : ℕ) (y : ℕ → K) : |sValue n y| ≤ (n : K) * ((n : K) - 1) / 2 := by
  rw [sValue_eq_score, abs_le, ← card_pairs_cast]
  refine ⟨?_, sum_le_card n y⟩
  have := sum_le_card n (fun i => - y i)
  rw [score_neg] at this
  linarith

/-- C02: the upper bound is reached exactly by strictly increasing series. -/
theorem C02_max_iff (n : ℕ) (y : ℕ → K) : sValue n y = (n : K) * ((n : K) - 1) / 2 ↔ Increasing n y := by
  rw [sValue_eq_score, ← card_pairs_cast]
  constructor
  · intro h i j h1 h2 h3
    by_contra hc
    have hlt : ∑ p ∈ pairs n, sgn (y p.2 - y p.1) < ∑ p ∈ pairs n, (1 : K) := by
      apply Finset.sum_lt_sum (fun p _ => sgn_le_one _)
      refine ⟨(i, j), mem_pairs.mpr ⟨h1, h2, h3⟩, lt_of_le_of_ne (sgn_le_one _) ?_⟩
      rw [Ne, sgn_eq_one_iff]
      simp; exact not_lt.mp hc
    rw [Finset.sum_const, nsmul_eq_mul, mul_one] at hlt
    exact absurd h (ne_of_lt hlt)
  · intro h
    unfold score
    rw [Finset.sum_congr rfl (g := fun _ => (1 : K))]
    · simp
    · intro p hp
      rw [mem_pairs] at hp
      exact sgn_pos (sub_pos.mpr (h _ _ hp.1 hp.2.1 hp.2.2))

/-- C02: negating the data negates S. -/
theorem C02_negate (n : ℕ) (y : ℕ → K) : sValue n (fun i => - y i) = - sValue n y := by
  rw [sValue_eq_score, sValue_eq_score, score_neg]

/-- C02: the lower bound is reached exactly by strictly decreasing series. -/
theorem C02_min_iff (n : ℕ) (y : ℕ → K) : sValue n y = -((n : K) * ((n : K) - 1) / 2) ↔ Decreasing n y := by
  have h := C02_max_iff n (fun i => - y i)
  rw [C02_negate] at h
  rw [← neg_eq_iff_eq_neg, h]
  constructor
  · intro h i j h1 h2 h3; have := h i j h1 h2 h3; linarith
  · intro h i j h1 h2 h3; have := h i j h1 h2 h3; linarith

/-- C02: reversing time negates S. -/
theorem C02_reverse (n : ℕ) (y : ℕ → K) : sValue n (fun i => y (n + 1 - i)) = - sValue n y := by
  rw [sValue_eq_score, sValue_eq_score]
  unfold score
  rw [← Finset.sum_neg_distrib]
  refine Finset.sum_nbij' (fun p => (n + 1 - p.2, n + 1 - p.1)) (fun p => (n + 1 - p.2, n + 1 - p.1)) ?_ ?_ ?_ ?_ ?_
  · rintro ⟨i, j⟩ h; rw [mem_pairs] at h ⊢; dsimp at h ⊢; omega
  · rintro ⟨i, j⟩ h; rw [mem_pairs] at h ⊢; dsimp at h ⊢; omega
  · rintro ⟨i, j⟩ h; rw [mem_pairs] at h; dsimp at h ⊢; rw [Prod.mk.injEq]; omega
  · rintro ⟨i, j⟩ h; rw [mem_pairs] at h; dsimp at h ⊢; rw [Prod.mk.injEq]; omega
  · rintro ⟨i, j⟩ _; exact sgn_swap _ _

theorem sgn_strictMono {f : K → K} (hf : StrictMono f) (a b : K) : sgn (f b - f a) = sgn (b - a) := by
  rcases lt_trichotomy a b with h | h | h
  · rw [sgn_pos (sub_pos.mpr h), sgn_pos (sub_pos.mpr (hf h))]
  · subst h; simp
  · rw [sgn_neg (sub_neg.mpr h), sgn_neg (sub_neg.mpr (hf h))]

theorem score_strictMono {f : K → K} (hf : StrictMono f) (n : ℕ) (y : ℕ → K) :
    score n (fun i => f (y i)) = score n y :=
  Finset.sum_congr rfl fun _ _ => sgn_strictMono hf _ _

theorem tieVariance_map {f : K → K} (hf : Function.Injective f) (s : Multiset K) :
    tieVariance (s.map f) = tieVariance s := by
  unfold tieVariance
  have e : (s.map f).toFinset = s.toFinset.map ⟨f, hf⟩ := by ext x; simp
  rw [Multiset.card_map, e, Finset.sum_map]
  simp only [Function.Embedding.coeFn_mk, Multiset.count_map_eq_count' f s hf]

/-- C02: any strictly increasing transformation of the data leaves S and the variance (hence everything the test derives
from them, see `C02_result_invariant`) unchanged. -/
theorem C02_rank_invariant {f : K → K} (hf : StrictMono f) (n : ℕ) (y : ℕ → K) :
    sValue n (fun i => f (y i)) = sValue n y ∧ baseVariance n (fun i => f (y i)) = baseVariance n y := by
  refine ⟨by rw [sValue_eq_score, sValue_eq_score, score_strictMono hf], ?_⟩
  rw [baseVariance_ok, baseVariance_ok, ← tieVariance_map hf.injective (values n y), values, values, Multiset.map_map]
  rfl

example : Increasing 4 (fun i => (i : ℚ) ^ 3) := by
  intro i j h1 h2 _
  have : (i : ℚ) < j := by exact_mod_cast h2
  exact pow_lt_pow_left₀ this (by positivity) (by norm_num)
example : StrictMono (fun x : ℚ => 2 * x + 1) := by intro a b h; dsimp; linarith

/-! ## C03, C04 -/

/-- C03: sorting terminates, never leaves the buffer (`some`), returns a rearrangement of the `n` buffer values in
ascending order and touches nothing outside the buffer. Any linearly ordered element type. -/
theorem C03_sort {α : Type} [LinearOrder α] (n : ℕ) (a : ℕ → α) :
    ∃ b, sortRealInplace n a = some b ∧ (bufList n b).Perm (bufList n a) ∧ (bufList n b).Pairwise (· ≤ ·) ∧
      ∀ i, i < 1 ∨ n < i → b i = a i := by
  obtain ⟨b, e, p, s⟩ := sortRealInplace_ok n a
  exact ⟨b, e, p.perm_list, (sortedOn_iff_pairwise b).mp s, fun i hi => p.out hi⟩

/-- C03: the pivot is the median of the three samples: one of them, with at least one of the others on each side. -/
theorem C03_pivot {α : Type} [LinearOrder α] (a b c : α) : medianOfThree a b c = max (min a b) (min (max a b) c) := by
  unfold medianOfThree
  rcases lt_trichotomy a b with h | h | h <;> rcases lt_trichotomy b c with h' | h' | h' <;>
    rcases lt_trichotomy a c with h'' | h'' | h'' <;>
    simp_all [le_of_lt, not_lt_of_gt, max_eq_left, max_eq_right, min_eq_left, min_eq_right] <;>
    first | done | exact absurd (lt_trans h h') (not_lt_of_gt h'') | skip

/-- C03: the index sort returns a permutation of `1..n` along which the values ascend. -/
theorem C03_index_sort (n : ℕ) (v : ℕ → K) :
    ∃ idx, sortIndicesByValues v n = some idx ∧ (bufList n idx).Perm (List.range' 1 n) ∧
      ((bufList n idx).map v).Pairwise (· ≤ ·) := by
  obtain ⟨idx, e, p, s⟩ := sortIndices_ok n v
  refine ⟨idx, e, ?_, ?_⟩
  · have := p.perm_list
    rw [bufList_eq_range' n (fun i => i)] at this
    simpa using this
  · have h : SortedOn id 1 n (fun i => v (idx i)) := fun x y h1 h2 h3 => s x y h1 h2 h3
    have := (sortedOn_iff_pairwise _).mp h
    unfold bufList at this ⊢
    rw [List.map_map]; exact this

/-- C04: for every `k` in `1..n` quickselect terminates inside the buffer, permutes it, everything before position `k` is
`≤` and everything after is `≥` the value at `k`, which is the `k`-th smallest value of the original buffer. -/
theorem C04_select (n k : ℕ) (a : ℕ → K) (h1 : 1 ≤ k) (hk : k ≤ n) :
    ∃ b, selectKth n a k = some b ∧ (bufList n b).Perm (bufList n a) ∧
      (∀ i, 1 ≤ i → i ≤ k → b i ≤ b k) ∧ (∀ i, k ≤ i → i ≤ n → b k ≤ b i) ∧
      ((bufList n a : Multiset K).sort (· ≤ ·))[k - 1]? = some (b k) := by
  obtain ⟨b, e, p, s⟩ := selectKth_ok (n := n) (k := k) a h1 hk
  refine ⟨b, e, p.perm_list, s.1, s.2, ?_⟩
  have h := selected_getD h1 hk s
  rw [Multiset.coe_eq_coe.mpr p.perm_list] at h
  have hl : k - 1 < ((bufList n a : Multiset K).sort (· ≤ ·)).length := by simp; omega
  rw [List.getD_eq_getElem _ _ hl] at h
  rw [List.getElem?_eq_getElem hl, h]

example : ∃ b, selectKth 5 exSeries 3 = some b ∧ b 3 = 3 := by
  obtain ⟨b, e, -, -, -, h⟩ := C04_select 5 3 exSeries (by norm_num) (by norm_num)
  refine ⟨b, e, ?_⟩
  have hs : ((bufList 5 exSeries : List ℚ) : Multiset ℚ).sort (· ≤ ·) = [1, 1, 3, 4, 5] := by
    apply List.Perm.eq_of_pairwise (le := (· ≤ ·)) (fun a b _ _ h1 h2 => le_antisymm h1 h2)
    · exact Multiset.pairwise_sort _ _
    · simp; norm_num
    · rw [← Multiset.coe_eq_coe, Multiset.sort_eq, Multiset.coe_eq_coe]
      simp [bufList, exSeries, List.range_succ]
      decide
  rw [hs] at h; simpa using h.symm

/-! ## C05, C06 -/

/-- C05: the Sen slope kernel is the median of the multiset of all `n(n-1)/2` pairwise slopes. -/
theorem C05_sen_median (n : ℕ) (hn : 2 ≤ n) (y work : ℕ → K) :
    senSlope n y work = some (some (median (pairSlopes n y))) ∧
      2 * Multiset.card (pairSlopes n y) = n * (n - 1) := by
  refine ⟨senSlope_ok hn y work, ?_⟩
  unfold pairSlopes; rw [Multiset.card_map]; exact card_pairs n

/-- C05: the fused kernel returns the same slope; with fewer than two samples both report NaN. -/
theorem C05_fused_sen (n : ℕ) (y work work' : ℕ → K) :
    (sValueAndSenSlope n y work).map Prod.snd = senSlope n y work' := by
  by_cases hn : 2 ≤ n
  · rw [sValueAndSenSlope_ok hn, senSlope_ok hn]; rfl
  · simp [sValueAndSenSlope, senSlope, show n < 2 by omega]

omit [IsStrictOrderedRing K] in
theorem sort_map_mono {f : K → K} (hf : Monotone f) (s : Multiset K) :
    (s.map f).sort (· ≤ ·) = (s.sort (· ≤ ·)).map f := by
  apply List.Perm.eq_of_pairwise (le := (· ≤ ·)) (fun a b _ _ h1 h2 => le_antisymm h1 h2)
  · exact Multiset.pairwise_sort _ _
  · rw [List.pairwise_map]
    exact (Multiset.pairwise_sort s (· ≤ ·)).imp fun h => hf h
  · rw [← Multiset.coe_eq_coe, Multiset.sort_eq, ← Multiset.map_coe, Multiset.sort_eq]

omit [IsStrictOrderedRing K] in
theorem sort_map_anti {f : K → K} (hf : Antitone f) (s : Multiset K) :
    (s.map f).sort (· ≤ ·) = ((s.sort (· ≤ ·)).map f).reverse := by
  apply List.Perm.eq_of_pairwise (le := (· ≤ ·)) (fun a b _ _ h1 h2 => le_antisymm h1 h2)
  · exact Multiset.pairwise_sort _ _
  · rw [List.pairwise_reverse, List.pairwise_map]
    exact (Multiset.pairwise_sort s (· ≤ ·)).imp fun h => hf h
  · rw [← Multiset.coe_eq_coe, Multiset.sort_eq, Multiset.coe_reverse, ← Multiset.map_coe, Multiset.sort_eq]

/-- Median of an affine image (either sign of the factor) of a non-empty multiset. -/
theorem median_affine (s : Multiset K) (hs : 0 < Multiset.card s) (a b : K) :
    median (s.map fun x => a * x + b) = a * median s + b := by
  have hlen : (s.sort (· ≤ ·)).length = Multiset.card s := by simp
  rcases le_total 0 a with ha | ha
  · have hm : Monotone fun x => a * x + b := fun x y h => by dsimp; nlinarith
    unfold median
    rw [Multiset.card_map, sort_map_mono hm]
    have g : ∀ i, i < Multiset.card s → ((s.sort (· ≤ ·)).map fun x => a * x + b).getD i 0 =
        a * (s.sort (· ≤ ·)).getD i 0 + b := by
      intro i hi
      rw [List.getD_eq_getElem _ _ (by simpa using hi), List.getD_eq_getElem _ _ (by simpa using hi)]
      simp
    split_ifs with h
    · exact g _ (by omega)
    · rw [g _ (by omega), g _ (by omega)]; ring
  · have hm : Antitone fun x => a * x + b := fun x y h => by dsimp; nlinarith
    unfold median
    rw [Multiset.card_map, sort_map_anti hm]
    have g : ∀ i, i < Multiset.card s → ((s.sort (· ≤ ·)).map fun x => a * x + b).reverse.getD i 0 =
        a * (s.sort (· ≤ ·)).getD (Multiset.card s - 1 - i) 0 + b := by
      intro i hi
      rw [List.getD_eq_getElem _ _ (by simpa using hi),
        List.getD_eq_getElem _ _ (by rw [hlen]; omega)]
      simp
    split_ifs with h
    · rw [g _ (by omega)]
      congr 3; omega
    · rw [g _ (by omega), g _ (by omega)]
      rw [show Multiset.card s - 1 - (Multiset.card s / 2 - 1) = Multiset.card s / 2 by omega,
        show Multiset.card s - 1 - Multiset.card s / 2 = Multiset.card s / 2 - 1 by omega]
      ring

theorem pairSlopes_affine (n : ℕ) (y : ℕ → K) (a b c : K) :
    pairSlopes n (fun i => a * y i + b * (i : K) + c) = (pairSlopes n y).map fun x => a * x + b := by
  unfold pairSlopes
  rw [Multiset.map_map]
  apply Multiset.map_congr rfl
  intro p hp
  have hp' := mem_pairs.mp (Finset.mem_val.mp hp)
  have : ((p.2 : K) - (p.1 : K)) ≠ 0 := by
    rw [sub_ne_zero]
    exact_mod_cast (Nat.ne_of_gt hp'.2.1)
  simp only [Function.comp]
  field_simp
  ring

/-- C06: the trend of `a*y + b*t + c` is `a*trend(y) + b`, for every `a` of either sign. -/
theorem C06_equivariance (n : ℕ) (hn : 2 ≤ n) (y work work' : ℕ → K) (a b c : K) :
    ∃ slope, senSlope n y work = some (some slope) ∧
      senSlope n (fun i => a * y i + b * (i : K) + c) work' = some (some (a * slope + b)) := by
  refine ⟨_, senSlope_ok hn y work, ?_⟩
  rw [senSlope_ok hn, pairSlopes_affine, median_affine]
  unfold pairSlopes; rw [Multiset.card_map]
  have := card_pairs n
  have h2 : 0 < n * (n - 1) := Nat.mul_pos (by omega) (by omega)
  show 0 < (pairs n).card
  omega

/-- C06: an exactly linear series returns exactly its slope. -/
theorem C06_linear (n : ℕ) (hn : 2 ≤ n) (work : ℕ → K) (b c : K) :
    senSlope n (fun i => b * (i : K) + c) work = some (some b) := by
  obtain ⟨s, -, h⟩ := C06_equivariance n hn (fun _ => (0 : K)) work work 0 b c
  simpa using h

/-! ## C07, C08 -/

/-- C07: the variance kernel terminates in bounds and returns the tie-corrected formula. -/
theorem C07_variance_formula (n : ℕ) (y : ℕ → K) :
    baseVariance n y = some (((n : K) * (n - 1) * (2 * n + 5)
      - ∑ v ∈ (values n y).toFinset, ((values n y).count v : K) * ((values n y).count v - 1) *
          (2 * (values n y).count v + 5)) / 18) := by
  rw [baseVariance_ok]
  unfold tieVariance
  simp [values]

/-- C07: it does not depend on the order of the data. -/
theorem C07_order_independent (n : ℕ) (y y' : ℕ → K) (h : (bufList n y).Perm (bufList n y')) :
    baseVariance n y = baseVariance n y' := by
  rw [baseVariance_ok, baseVariance_ok, values_eq_bufList, values_eq_bufList, Multiset.coe_eq_coe.mpr h]

/-- C07: it is non-negative, at most the untied value, and zero exactly when all values are equal (which includes
`n ≤ 1`). -/
theorem C07_nonneg (n : ℕ) (y : ℕ → K) :
    ∃ v, baseVariance n y = some v ∧ 0 ≤ v ∧ v ≤ (n : K) * (n - 1) * (2 * n + 5) / 18 ∧
      (v = 0 ↔ ∀ i j, 1 ≤ i → i ≤ n → 1 ≤ j → j ≤ n → y i = y j) :=
  ⟨_, baseVariance_ok n y, tieVariance_nonneg n y, tieVariance_le n y, tieVariance_eq_zero_iff n y⟩

/-- C08: `tau = S / (n(n-1)/2)` is in `[-1,1]`, and reaches `1` / `-1` exactly for strictly increasing / decreasing
series. (`tau` as computed in `core.py`: `s / (0.5 * n * (n - 1))`.) -/
theorem C08_tau (n : ℕ) (hn : 2 ≤ n) (y : ℕ → K) :
    let tau : K := sValue n y / ((1 / 2 : K) * (n : K) * ((n : K) - 1));
    -1 ≤ tau ∧ tau ≤ 1 ∧ (tau = 1 ↔ Increasing n y) ∧ (tau = -1 ↔ Decreasing n y) := by
  intro tau
  have hn' : (2 : K) ≤ (n : K) := by exact_mod_cast hn
  have hd : (0 : K) < (n : K) * ((n : K) - 1) / 2 := by
    have : (0 : K) < (n : K) * ((n : K) - 1) := mul_pos (by linarith) (by linarith)
    linarith
  have he : tau = sValue n y / ((n : K) * ((n : K) - 1) / 2) := by
    show _ / _ = _ / _
    congr 1; ring
  have hb := abs_le.mp (C02_bound n y)
  rw [he]
  refine ⟨?_, ?_, ?_, ?_⟩
  · rw [le_div_iff₀ hd]; linarith
  · rw [div_le_iff₀ hd]; linarith
  · rw [div_eq_iff hd.ne', one_mul, C02_max_iff]
  · rw [div_eq_iff hd.ne', neg_one_mul, C02_min_iff]

/-! ## C12, C50 -/

/-- group `g` of a grouped series with `period` groups stored interleaved -/
def Spec.groupSeries (period : ℕ) (y : ℕ → K) (g : ℕ) : ℕ → K := fun c => y (g + (c - 1) * period)

/-- C50 (closed form used for C12): the correlated grouped kernel returns the sum of the group scores, the sum over all
ordered pairs of groups of the Dietz-Killeen covariance, and `period * m(m-1)/2`. -/
theorem C50_correlated_closed_form (n period : ℕ) (y : ℕ → K) :
    correlatedGroupedStats n period y =
      (∑ g ∈ Icc 1 period, score (n / period) (groupSeries period y g),
       ∑ g ∈ Icc 1 period, ∑ h ∈ Icc 1 period,
          dietzKilleen (n / period) (groupSeries period y g) (groupSeries period y h),
       (period : K) * (((n / period : ℕ) : K) * (((n / period : ℕ) : K) - 1) / 2)) := by
  unfold correlatedGroupedStats
  by_cases hp : period = 0
  · subst hp; simp
  rw [if_neg hp]
  generalize hm : n / period = m
  have hdk0 : ∀ g h, dietzKilleen 0 (groupSeries period y g) (groupSeries period y h) = 0 := by
    intro g h; simp [dietzKilleen, pairs_small]
  have hs : ∀ k, k < 2 → ∀ g, score k (groupSeries period y g) = 0 := by
    intro k hk g; simp [score, pairs_small hk]
  by_cases h0 : m = 0
  · subst h0
    simp [hdk0, hs]
  · simp only [h0, if_false]
    have hvar := doLoop_triangle (fun g h => groupGamma m (groupSeries period y g) (groupSeries period y h))
      (fun i j => by rw [groupGamma_eq, groupGamma_eq, dietzKilleen_eq_covForm, dietzKilleen_eq_covForm, covForm_comm]) period
    rw [Prod.mk.injEq, Prod.mk.injEq]
    refine ⟨?_, ?_, ?_⟩
    · split_ifs with h1
      · have := doLoop_map (lo := 1) (hi := period) (Prod.fst : K × K → K) (by omega) (s := ((0 : K), (0 : K)))
          (f := fun g (st : K × K) => (st.1 + sValue m (fun c => y (g + (c - 1) * period)),
            st.2 + (1 / 2 : K) * ((m * (m - 1) : ℕ) : K)))
          (g := fun g s => s + sValue m (groupSeries period y g)) (fun _ _ _ _ => rfl)
        rw [this, doLoop_add, zero_add]
        simp only [sValue_eq_score]
      · rw [Finset.sum_eq_zero]; intro g _; exact hs m (by omega) g
    · refine Eq.trans hvar ?_
      simp only [groupGamma_eq]
    · have hc : (1 / 2 : K) * ((m * (m - 1) : ℕ) : K) = (m : K) * ((m : K) - 1) / 2 := by
        obtain ⟨k, rfl⟩ : ∃ k, m = k + 1 := ⟨m - 1, by omega⟩
        push_cast [Nat.add_sub_cancel]; ring
      split_ifs with h1
      · have := doLoop_map (lo := 1) (hi := period) (Prod.snd : K × K → K) (by omega) (s := ((0 : K), (0 : K)))
          (f := fun g (st : K × K) => (st.1 + sValue m (fun c => y (g + (c - 1) * period)),
            st.2 + (1 / 2 : K) * ((m * (m - 1) : ℕ) : K)))
          (g := fun _ s => s + (1 / 2 : K) * ((m * (m - 1) : ℕ) : K)) (fun _ _ _ _ => rfl)
        rw [this, doLoop_add, zero_add, Finset.sum_const, Nat.card_Icc, Nat.add_sub_cancel, nsmul_eq_mul, hc]
      · have : m = 1 := by omega
        subst this; simp

/-- C12: with a single group the correlated kernel returns the original score, the tie-corrected variance (ties included)
and `n(n-1)/2`. -/
theorem C12_single_group (n : ℕ) (y : ℕ → K) :
    ∃ v, baseVariance n y = some v ∧
      correlatedGroupedStats n 1 y = (sValue n y, v, (n : K) * ((n : K) - 1) / 2) := by
  refine ⟨_, baseVariance_ok n y, ?_⟩
  have hg : ∀ i, 1 ≤ i → i ≤ n → groupSeries 1 y 1 i = y i := by
    intro i h1 _; unfold groupSeries; congr 1; omega
  have hsc : score n (groupSeries 1 y 1) = score n y := by
    unfold score
    apply Finset.sum_congr rfl; intro p hp
    rw [mem_pairs] at hp
    rw [hg _ (by omega) (by omega), hg _ (by omega) (by omega)]
  have hv : values n (groupSeries 1 y 1) = values n y := by
    rw [values_eq_bufList, values_eq_bufList, bufList_congr hg]
  rw [C50_correlated_closed_form]
  simp only [Nat.div_one, Finset.Icc_self, Finset.sum_singleton, Nat.cast_one, one_mul]
  rw [dietzKilleen_eq_covForm, covForm_self, hsc, hv, sValue_eq_score]

/-- C50: the correlated grouped variance is never negative. -/
theorem C50_correlated_variance_nonneg (n period : ℕ) (y : ℕ → K) : 0 ≤ (correlatedGroupedStats n period y).2.1 := by
  rw [C50_correlated_closed_form]
  simp only [dietzKilleen_eq_covForm]
  exact covForm_sum_nonneg _ _ _

/-! ## C14, C15 -/

/-- C14: the announced buffer size is the number of within-season pairs. -/
theorem C14_announced_count (n period : ℕ) (hp : 0 < period) :
    groupedSlopeCount n period = (seasonPairs n period).card := groupedSlopeCount_eq_card hp

/-- C14: the grouped kernel stays inside the series and the announced buffer, fills it completely, and holds each
within-season slope exactly once. -/
theorem C14_fill_exact (n period : ℕ) (hn : 2 ≤ n) (hp : 0 < period) (y work : ℕ → K) :
    ∃ w, groupedSenFill n period y work = some (w, groupedSlopeCount n period) ∧
      (bufList (groupedSlopeCount n period) w : Multiset K) = seasonSlopes n period y :=
  groupedSenFill_ok hn hp y work

/-- C14: the reported seasonal slope is their median; NaN exactly when there is no within-season pair. -/
theorem C14_seasonal_slope (n period : ℕ) (hp : 0 < period) (y work : ℕ → K) :
    groupedSenSlope n period y work =
      some (if (seasonPairs n period).card = 0 then none else some (median (seasonSlopes n period y))) := by
  split_ifs with h
  · unfold groupedSenSlope
    rw [← groupedSlopeCount_eq_card hp] at h
    simp [h]
  · exact groupedSenSlope_ok h hp y work

/-- C15: both rank routines return mid-ranks; they agree with each other and the ranks sum to `n(n+1)/2`. -/
theorem C15_ranks (n : ℕ) (v rank : ℕ → K) :
    ∃ r, averageRanks n v rank = some r ∧ (∀ k, 1 ≤ k → k ≤ n → r k = midRank n v k ∧ rankVector n v k = midRank n v k) ∧
      ∑ k ∈ Icc 1 n, r k = (n : K) * (n + 1) / 2 := by
  obtain ⟨r, e, h⟩ := averageRanks_ok n v rank
  refine ⟨r, e, fun k h1 h2 => ⟨h k h1 h2, rankVector_eq_midRank n v k⟩, ?_⟩
  rw [← sum_midRank n v]
  apply Finset.sum_congr rfl
  intro k hk
  rw [Finset.mem_Icc] at hk
  exact h k hk.1 hk.2

/-! ## C16, C50 -/

/-- Closed form of the partial statistics with the untied variance `v = n(n-1)(2n+5)/18` and `rho = cov/v`. -/
def Spec.partialClosed (n : ℕ) (x y : ℕ → K) : K × K × K :=
  let v : K := (n : K) * ((n : K) - 1) * (2 * (n : K) + 5) / 18
  let rho := dietzKilleen n x y / v
  (score n x - rho * score n y, (1 - rho * rho) * v, score n x / ((1 / 2 : K) * (n : K) * ((n : K) - 1)))

/-- C16: plain kernel, `n ≥ 3`. -/
theorem C16_plain (n : ℕ) (hn : 3 ≤ n) (x y : ℕ → K) : partialStats n x y = partialClosed n x y := by
  unfold partialStats
  rw [if_neg (by omega), partialFinish_ok (partialScan_ok n x y)]
  rfl

/-- C16: the fused kernel returns the same statistics, and the Sen slope of the response. -/
theorem C16_fused_eq_plain (n : ℕ) (hn : 3 ≤ n) (x y work : ℕ → K) :
    partialStatsAndSen n x y work = some (partialStats n x y, some (median (pairSlopes n x))) := by
  obtain ⟨a, ha, e⟩ := partialStatsAndSen_ok (n := n) (by omega) x y work
  rw [e, partialFinish_ok ha, C16_plain n hn]
  rfl

/-- C16: the fused kernel on two samples: it does not share the plain kernel's `n < 3` guard. -/
theorem C16_fused_two (x y work : ℕ → K) :
    partialStatsAndSen 2 x y work = some (partialClosed 2 x y, some (median (pairSlopes 2 x))) ∧
      partialStats 2 x y = (0, 0, 0) := by
  obtain ⟨a, ha, e⟩ := partialStatsAndSen_ok (n := 2) le_rfl x y work
  refine ⟨?_, by simp [partialStats]⟩
  rw [e, partialFinish_ok ha]; rfl

/-- C16: the third component is the ordinary tau of the response. -/
theorem C16_tau (n : ℕ) (hn : 3 ≤ n) (x y : ℕ → K) :
    (partialStats n x y).2.2 = sValue n x / ((1 / 2 : K) * (n : K) * ((n : K) - 1)) := by
  rw [C16_plain n hn, sValue_eq_score]; rfl

omit [Field K] [IsStrictOrderedRing K] in
theorem tieVariance_distinct [Field K] [IsStrictOrderedRing K] (n : ℕ) (x : ℕ → K)
    (hx : ∀ i j, 1 ≤ i → i < j → j ≤ n → x i ≠ x j) :
    tieVariance (values n x) = (n : K) * (n - 1) * (2 * n + 5) / 18 := by
  have hnd : (values n x).Nodup := by
    unfold values
    rw [Multiset.nodup_map_iff_of_inj_on ?_]
    · exact (Finset.Icc 1 n).nodup
    · intro i hi j hj e
      simp only [Finset.mem_val, Finset.mem_Icc] at hi hj
      rcases lt_trichotomy i j with h | h | h
      · exact absurd e (hx i j hi.1 h hj.2)
      · exact h
      · exact absurd e.symm (hx j i hj.1 h hi.2)
  unfold tieVariance
  have : ∑ v ∈ (values n x).toFinset, ((values n x).count v : K) * ((values n x).count v - 1) *
      (2 * (values n x).count v + 5) = 0 := by
    apply Finset.sum_eq_zero
    intro v hv
    rw [Multiset.mem_toFinset] at hv
    rw [Multiset.count_eq_one_of_mem hnd hv]; simp
  rw [this]; simp [values]

/-- C16: partialling a series without ties on itself gives zero score and zero variance. -/
theorem C16_self_partial (n : ℕ) (hn : 3 ≤ n) (x : ℕ → K) (hx : ∀ i j, 1 ≤ i → i < j → j ≤ n → x i ≠ x j) :
    (partialStats n x x).1 = 0 ∧ (partialStats n x x).2.1 = 0 := by
  rw [C16_plain n hn]
  unfold partialClosed
  rw [dietzKilleen_eq_covForm, covForm_self, tieVariance_distinct n x hx]
  have hn' : (3 : K) ≤ (n : K) := by exact_mod_cast hn
  have hv : (n : K) * ((n : K) - 1) * (2 * (n : K) + 5) / 18 ≠ 0 := by
    have : (0 : K) < (n : K) * ((n : K) - 1) * (2 * (n : K) + 5) / 18 := by
      apply div_pos _ (by norm_num)
      exact mul_pos (mul_pos (by linarith) (by linarith)) (by linarith)
    exact this.ne'
  simp only [div_self hv]
  constructor <;> ring

example : ∀ i j : ℕ, 1 ≤ i → i < j → j ≤ 7 → (i : ℚ) ≠ (j : ℚ) := by
  intro i j _ h _; exact_mod_cast h.ne

/-- C50: the partial variance is never negative: `|rho| ≤ 1` (Cauchy-Schwarz for the covariance form, and ties only
shrink the variances). -/
theorem C50_partial_variance_nonneg (n : ℕ) (x y : ℕ → K) : 0 ≤ (partialStats n x y).2.1 := by
  by_cases hn : n < 3
  · simp [partialStats, hn]
  · rw [C16_plain n (by omega)]
    unfold partialClosed
    dsimp only
    set v : K := (n : K) * ((n : K) - 1) * (2 * (n : K) + 5) / 18 with hv
    have hn' : (3 : K) ≤ (n : K) := by exact_mod_cast (not_lt.mp hn)
    have hpos : 0 < v := by
      apply div_pos _ (by norm_num)
      exact mul_pos (mul_pos (by linarith) (by linarith)) (by linarith)
    apply mul_nonneg _ hpos.le
    have hc := covForm_cauchy n x y
    rw [covForm_self, covForm_self] at hc
    have h1 := tieVariance_le n x
    have h2 := tieVariance_le n y
    have h3 := tieVariance_nonneg n x
    have h4 := tieVariance_nonneg n y
    rw [dietzKilleen_eq_covForm]
    have hle : covForm n x y ^ 2 ≤ v * v := hc.trans (mul_le_mul h1 h2 h4 hpos.le)
    rw [div_mul_div_comm, sub_nonneg, div_le_one (mul_pos hpos hpos)]
    nlinarith

end Skyborn.MK
