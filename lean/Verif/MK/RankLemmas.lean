import Verif.MK.VarLemmas
import Mathlib.Algebra.Order.BigOperators.Ring.Finset
import Mathlib.Data.Finset.Sum
import Mathlib.Algebra.BigOperators.Field
import Mathlib.Algebra.Order.Chebyshev

namespace Skyborn.MK

open Skyborn Finset Spec

variable {K : Type} [Field K] [LinearOrder K] [IsStrictOrderedRing K]

theorem step_sgn_int (a b : K) (s : ℤ) :
    (((if b > a then s + 1 else if b < a then s - 1 else s : ℤ)) : K) = (s : K) + sgn (b - a) := by
  rw [← step_sgn]; split_ifs <;> push_cast <;> rfl

theorem rankVector_eq (n : ℕ) (v : ℕ → K) (j : ℕ) : rankVector n v j = ((n : K) + 1 + signSum n v j) / 2 := by
  unfold rankVector signSum
  have key : ((doLoop 1 n (0 : ℤ) fun i s => if v j > v i then s + 1 else if v j < v i then s - 1 else s : ℤ) : K) =
      ∑ i ∈ Icc 1 n, sgn (v j - v i) := by
    have := doLoop_inv (lo := 1) (hi := n) (by omega) (s := (0 : ℤ))
      (f := fun i s => if v j > v i then s + 1 else if v j < v i then s - 1 else s)
      (fun i s => (s : K) = ∑ k ∈ Icc 1 (i - 1), sgn (v j - v k)) (by simp)
      (by
        intro i s i1 i2 h
        rw [step_sgn_int, h, Nat.add_sub_cancel, sum_Icc_succ_last _ i1])
    simpa using this
  simp only
  push_cast
  rw [key]; ring

theorem midRank_eq (n : ℕ) (v : ℕ → K) (i : ℕ) : midRank n v i = ((n : K) + 1 + signSum n v i) / 2 := by
  unfold midRank signSum
  have h : ∀ k, sgn (v i - v k) = 2 * (if v k < v i then 1 else 0) + (if v k = v i then 1 else 0) - 1 := by
    intro k
    rcases lt_trichotomy (v k) (v i) with h | h | h
    · rw [sgn_pos (by linarith), if_pos h, if_neg h.ne]; ring
    · rw [h, sub_self, sgn_zero, if_neg (lt_irrefl _), if_pos rfl]; ring
    · rw [sgn_neg (by linarith), if_neg h.not_gt, if_neg h.ne']; ring
  simp only [h, Finset.sum_sub_distrib, Finset.sum_add_distrib, ← Finset.mul_sum, Finset.sum_boole, Finset.sum_const,
    Nat.card_Icc, Nat.add_sub_cancel, nsmul_eq_mul]
  ring

theorem rankVector_eq_midRank (n : ℕ) (v : ℕ → K) (j : ℕ) : rankVector n v j = midRank n v j := by
  rw [rankVector_eq, midRank_eq]

theorem sum_signSum (n : ℕ) (x : ℕ → K) : ∑ i ∈ Icc 1 n, signSum n x i = 0 := by
  unfold signSum
  have h : ∑ i ∈ Icc 1 n, ∑ j ∈ Icc 1 n, sgn (x i - x j) = - ∑ i ∈ Icc 1 n, ∑ j ∈ Icc 1 n, sgn (x i - x j) := by
    conv_lhs => rw [Finset.sum_comm]
    rw [← Finset.sum_neg_distrib]
    apply Finset.sum_congr rfl; intro i _
    rw [← Finset.sum_neg_distrib]
    apply Finset.sum_congr rfl; intro j _
    exact sgn_swap _ _
  linarith

theorem sum_midRank (n : ℕ) (x : ℕ → K) : ∑ i ∈ Icc 1 n, midRank n x i = (n : K) * (n + 1) / 2 := by
  simp only [midRank_eq, ← Finset.sum_div, Finset.sum_add_distrib, sum_signSum, Finset.sum_const, Nat.card_Icc,
    Nat.add_sub_cancel, nsmul_eq_mul]
  ring

theorem four_sum_ranks (n : ℕ) (x y : ℕ → K) :
    4 * ∑ i ∈ Icc 1 n, ((n : K) + 1 + signSum n x i) / 2 * (((n : K) + 1 + signSum n y i) / 2) =
      (n : K) * (n + 1) ^ 2 + ∑ i ∈ Icc 1 n, signSum n x i * signSum n y i := by
  have h : ∀ i, ((n : K) + 1 + signSum n x i) / 2 * (((n : K) + 1 + signSum n y i) / 2) =
      ((n + 1) ^ 2 + (n + 1) * signSum n x i + (n + 1) * signSum n y i + signSum n x i * signSum n y i) / 4 := by
    intro i; ring
  simp only [h, ← Finset.sum_div, Finset.sum_add_distrib, ← Finset.mul_sum, sum_signSum, Finset.sum_const,
    Nat.card_Icc, Nat.add_sub_cancel, nsmul_eq_mul]
  ring

theorem dietzKilleen_eq_covForm (n : ℕ) (x y : ℕ → K) : dietzKilleen n x y = covForm n x y := by
  unfold dietzKilleen covForm
  simp only [midRank_eq, sgn_mul]
  rw [four_sum_ranks]
  ring

theorem kStat_eq (n : ℕ) (x y : ℕ → K) : kStat n x y = ∑ p ∈ pairs n, sgn ((x p.2 - x p.1) * (y p.2 - y p.1)) := by
  unfold kStat
  have hst : ∀ d k : K, (if d > 0 then k + 1 else if d < 0 then k - 1 else k) = k + sgn d := by
    intro d k
    have := step_sgn (0 : K) d k
    rwa [sub_zero] at this
  split_ifs with h
  · have : pairs n = ∅ := by
      ext p; rw [mem_pairs]; simp; omega
    rw [this, Finset.sum_empty]
  · simp only [hst, doLoop_add]
    rw [zero_add, sum_rows n (fun i j => sgn ((x j - x i) * (y j - y i)))]

theorem groupGamma_eq (m : ℕ) (l r : ℕ → K) : groupGamma m l r = dietzKilleen m l r := by
  unfold groupGamma dietzKilleen
  simp only [doLoop_add, zero_add, kStat_eq, rankVector_eq_midRank]

/-! ### the covariance form is positive semi-definite -/

theorem covForm_comm (n : ℕ) (x y : ℕ → K) : covForm n x y = covForm n y x := by
  unfold covForm; simp only [mul_comm]

theorem covForm_self_nonneg (n : ℕ) (x : ℕ → K) : 0 ≤ covForm n x x := by
  unfold covForm
  apply div_nonneg _ (by norm_num)
  exact add_nonneg (Finset.sum_nonneg fun p _ => mul_self_nonneg _) (Finset.sum_nonneg fun p _ => mul_self_nonneg _)

theorem covForm_cauchy (n : ℕ) (x y : ℕ → K) : covForm n x y ^ 2 ≤ covForm n x x * covForm n y y := by
  have h := Finset.sum_mul_sq_le_sq_mul_sq ((pairs n).disjSum (Icc 1 n))
    (Sum.elim (fun p : ℕ × ℕ => sgn (x p.2 - x p.1)) (signSum n x))
    (Sum.elim (fun p : ℕ × ℕ => sgn (y p.2 - y p.1)) (signSum n y))
  simp only [Finset.sum_disjSum, Sum.elim_inl, Sum.elim_inr, sq] at h
  unfold covForm
  simp only [sq]
  rw [div_mul_div_comm, div_mul_div_comm]
  exact div_le_div_of_nonneg_right h (by norm_num)

theorem tieCount_ge_one {n : ℕ} (x : ℕ → K) {i : ℕ} (h1 : 1 ≤ i) (h2 : i ≤ n) : 1 ≤ tieCount n x i := by
  unfold tieCount
  calc (1 : K) = (if x i = x i then 1 else 0) := by simp
    _ ≤ _ := Finset.single_le_sum (f := fun j => if x i = x j then (1 : K) else 0)
      (fun j _ => by split_ifs <;> simp) (by simp [h1, h2])

theorem tieVariance_le (n : ℕ) (x : ℕ → K) : tieVariance (values n x) ≤ (n : K) * (n - 1) * (2 * n + 5) / 18 := by
  have h := tieVariance_index n x
  have h2 : 0 ≤ ∑ i ∈ Icc 1 n, (tieCount n x i - 1) * (2 * tieCount n x i + 5) := by
    apply Finset.sum_nonneg
    intro i hi
    rw [Finset.mem_Icc] at hi
    have := tieCount_ge_one x hi.1 hi.2
    exact mul_nonneg (by linarith) (by linarith)
  linarith

theorem tieVariance_nonneg (n : ℕ) (x : ℕ → K) : 0 ≤ tieVariance (values n x) := by
  rw [← covForm_self]; exact covForm_self_nonneg n x

theorem tieVariance_eq_zero_iff (n : ℕ) (x : ℕ → K) :
    tieVariance (values n x) = 0 ↔ ∀ i j, 1 ≤ i → i ≤ n → 1 ≤ j → j ≤ n → x i = x j := by
  rw [← covForm_self]
  unfold covForm
  have a1 : 0 ≤ ∑ p ∈ pairs n, sgn (x p.2 - x p.1) * sgn (x p.2 - x p.1) := Finset.sum_nonneg fun p _ => mul_self_nonneg _
  have a2 : 0 ≤ ∑ i ∈ Icc 1 n, signSum n x i * signSum n x i := Finset.sum_nonneg fun p _ => mul_self_nonneg _
  constructor
  · intro h
    have h0 : ∑ p ∈ pairs n, sgn (x p.2 - x p.1) * sgn (x p.2 - x p.1) = 0 := by
      have : (∑ p ∈ pairs n, sgn (x p.2 - x p.1) * sgn (x p.2 - x p.1) + ∑ i ∈ Icc 1 n, signSum n x i * signSum n x i) = 0 := by
        have := (div_eq_zero_iff.mp h).resolve_right (by norm_num)
        exact this
      linarith
    rw [Finset.sum_eq_zero_iff_of_nonneg (fun p _ => mul_self_nonneg _)] at h0
    have lt : ∀ i j, 1 ≤ i → i < j → j ≤ n → x i = x j := by
      intro i j i1 ij jn
      have := h0 (i, j) (mem_pairs.mpr ⟨i1, ij, jn⟩)
      rw [mul_self_eq_zero, sgn_eq_zero_iff, sub_eq_zero] at this
      exact this.symm
    intro i j i1 i2 j1 j2
    rcases Nat.lt_trichotomy i j with h | h | h
    · exact lt i j i1 h j2
    · rw [h]
    · exact (lt j i j1 h i2).symm
  · intro h
    have e1 : ∑ p ∈ pairs n, sgn (x p.2 - x p.1) * sgn (x p.2 - x p.1) = 0 := by
      apply Finset.sum_eq_zero
      intro p hp
      rw [mem_pairs] at hp
      rw [h p.2 p.1 (by omega) (by omega) (by omega) (by omega), sub_self, sgn_zero, mul_zero]
    have e2 : ∑ i ∈ Icc 1 n, signSum n x i * signSum n x i = 0 := by
      apply Finset.sum_eq_zero
      intro i hi
      rw [Finset.mem_Icc] at hi
      have : signSum n x i = 0 := by
        apply Finset.sum_eq_zero
        intro j hj
        rw [Finset.mem_Icc] at hj
        rw [h i j hi.1 hi.2 hj.1 hj.2, sub_self, sgn_zero]
      rw [this, mul_zero]
    rw [e1, e2]; simp

/-! ### sort-based ranks -/

/-- index buffer after sorting -/
structure SortedIdx (n : ℕ) (v : ℕ → K) (idx : ℕ → ℕ) : Prop where
  perm : PermOn 1 n (fun i => i) idx
  sorted : SortedOn v 1 n idx

theorem sortIndices_ok (n : ℕ) (v : ℕ → K) : ∃ idx, sortIndicesByValues v n = some idx ∧ SortedIdx n v idx := by
  unfold sortIndicesByValues
  by_cases hn : n ≤ 1
  · refine ⟨_, by simp only [if_pos hn], PermOn.refl _ _ _, ?_⟩
    intro x y x1 xy y1
    have : x = y := by omega
    rw [this]
  · obtain ⟨b, eb, pb⟩ := quicksort_ok 16 (n := n) v (n - 1) (fun i => i) 1 n le_rfl le_rfl le_rfl
    obtain ⟨c, ec, pc, sc⟩ := insertionSort_ok (n := n) v b (left := 1) (right := n) le_rfl le_rfl
    exact ⟨c, by simp only [if_neg hn, eb]; exact ec, pb.trans pc, sc⟩

omit [Field K] [IsStrictOrderedRing K] in
theorem SortedIdx.range {n : ℕ} {v : ℕ → K} {idx : ℕ → ℕ} (h : SortedIdx n v idx) {i : ℕ} (h1 : 1 ≤ i) (h2 : i ≤ n) :
    1 ≤ idx i ∧ idx i ≤ n := by
  obtain ⟨k, k1, k2, e⟩ := h.perm.src h1 h2
  omega

omit [Field K] [IsStrictOrderedRing K] in
theorem SortedIdx.inj {n : ℕ} {v : ℕ → K} {idx : ℕ → ℕ} (h : SortedIdx n v idx) : Function.Injective idx := by
  obtain ⟨s, hs, e⟩ := h.perm
  have : idx = s := by rw [e]; rfl
  rw [this]; exact s.injective

omit [Field K] [IsStrictOrderedRing K] in
theorem SortedIdx.surj {n : ℕ} {v : ℕ → K} {idx : ℕ → ℕ} (h : SortedIdx n v idx) {k : ℕ} (h1 : 1 ≤ k) (h2 : k ≤ n) :
    ∃ i, 1 ≤ i ∧ i ≤ n ∧ idx i = k := by
  obtain ⟨i, i1, i2, e⟩ := h.perm.symm.src h1 h2
  exact ⟨i, i1, i2, e.symm⟩

omit [Field K] [IsStrictOrderedRing K] in
theorem SortedIdx.card_filter {n : ℕ} {v : ℕ → K} {idx : ℕ → ℕ} (h : SortedIdx n v idx) (P : K → Prop) [DecidablePred P] :
    ((Icc 1 n).filter fun k => P (v k)).card = ((Icc 1 n).filter fun i => P (v (idx i))).card := by
  symm
  refine Finset.card_bij (fun i _ => idx i) ?_ ?_ ?_
  · intro i hi
    simp only [Finset.mem_filter, Finset.mem_Icc] at hi ⊢
    exact ⟨h.range hi.1.1 hi.1.2, hi.2⟩
  · intro i _ j _ e; exact h.inj e
  · intro k hk
    simp only [Finset.mem_filter, Finset.mem_Icc] at hk
    obtain ⟨i, i1, i2, e⟩ := h.surj hk.1.1 hk.1.2
    refine ⟨i, ?_, e⟩
    simp only [Finset.mem_filter, Finset.mem_Icc]
    exact ⟨⟨i1, i2⟩, by rw [e]; exact hk.2⟩

omit [Field K] [IsStrictOrderedRing K] in
theorem runEnd_ok {n : ℕ} {v : ℕ → K} {idx : ℕ → ℕ} (h : SortedIdx n v idx) {start : ℕ} (s1 : 1 ≤ start) :
    ∀ d e, n - e = d → start ≤ e → e ≤ n → (∀ i, start ≤ i → i ≤ e → v (idx i) = v (idx start)) →
      ∃ e', runEnd n v idx start e = some e' ∧ start ≤ e' ∧ e' ≤ n ∧
        (∀ i, start ≤ i → i ≤ e' → v (idx i) = v (idx start)) ∧
        (e' < n → v (idx (e' + 1)) ≠ v (idx start)) := by
  intro d
  induction d with
  | zero =>
    intro e hd h1 h2 h3
    exact ⟨e, by rw [runEnd, if_neg (by omega)], h1, h2, h3, fun h => by omega⟩
  | succ d ih =>
    intro e hd h1 h2 h3
    have r1 := h.range (i := e + 1) (by omega) (by omega)
    have r2 := h.range (i := start) (by omega) (by omega)
    have unf : runEnd n v idx start e = if v (idx (e + 1)) ≠ v (idx start) then some e else runEnd n v idx start (e + 1) := by
      rw [runEnd, if_pos (by omega), rd_ok (by omega : 1 ≤ e + 1) (by omega), rd_ok (by omega : 1 ≤ start) (by omega)]
      simp only [Option.bind_eq_bind, Option.bind_some]
      rw [rd_ok r1.1 r1.2, rd_ok r2.1 r2.2]
      simp only [Option.bind_some]
    rw [unf]
    by_cases hc : v (idx (e + 1)) = v (idx start)
    · rw [if_neg (by simpa using hc)]
      exact ih (e + 1) (by omega) (by omega) (by omega) (by
        intro i i1 i2
        by_cases hi : i = e + 1
        · rw [hi, hc]
        · exact h3 i i1 (by omega))
    · rw [if_pos hc]
      exact ⟨e, rfl, h1, h2, h3, fun _ => hc⟩

theorem run_midRank {n : ℕ} {v : ℕ → K} {idx : ℕ → ℕ} (h : SortedIdx n v idx) {start e : ℕ} (s1 : 1 ≤ start)
    (hse : start ≤ e) (hen : e ≤ n) (heq : ∀ i, start ≤ i → i ≤ e → v (idx i) = v (idx start))
    (hlo : ∀ i, 1 ≤ i → i < start → v (idx i) < v (idx start)) (hhi : e < n → v (idx (e + 1)) ≠ v (idx start))
    {i : ℕ} (i1 : start ≤ i) (i2 : i ≤ e) : midRank n v (idx i) = (1 / 2 : K) * ((start + e : ℕ) : K) := by
  have hgt : ∀ k, e < k → k ≤ n → v (idx start) < v (idx k) := by
    intro k k1 k2
    have q1 : v (idx start) ≤ v (idx (e + 1)) := h.sorted start (e + 1) s1 (by omega) (by omega)
    have q2 : v (idx (e + 1)) ≤ v (idx k) := h.sorted (e + 1) k (by omega) (by omega) k2
    exact (lt_of_le_of_ne q1 (Ne.symm (hhi (by omega)))).trans_le q2
  unfold midRank
  rw [heq i i1 i2]
  rw [h.card_filter (fun u => u < v (idx start)), h.card_filter (fun u => u = v (idx start))]
  have c1 : (Icc 1 n).filter (fun k => v (idx k) < v (idx start)) = Icc 1 (start - 1) := by
    ext k
    simp only [Finset.mem_filter, Finset.mem_Icc]
    constructor
    · rintro ⟨⟨k1, k2⟩, k3⟩
      refine ⟨k1, ?_⟩
      by_contra hc
      rcases Nat.lt_or_ge e k with h' | h'
      · exact lt_irrefl _ (k3.trans (hgt k h' k2))
      · rw [heq k (by omega) h'] at k3; exact lt_irrefl _ k3
    · rintro ⟨k1, k2⟩
      exact ⟨⟨k1, by omega⟩, hlo k k1 (by omega)⟩
  have c2 : (Icc 1 n).filter (fun k => v (idx k) = v (idx start)) = Icc start e := by
    ext k
    simp only [Finset.mem_filter, Finset.mem_Icc]
    constructor
    · rintro ⟨⟨k1, k2⟩, k3⟩
      constructor
      · by_contra hc; exact (hlo k k1 (by omega)).ne k3
      · by_contra hc; exact (hgt k (by omega) k2).ne' k3
    · rintro ⟨k1, k2⟩
      exact ⟨⟨by omega, by omega⟩, heq k k1 k2⟩
  rw [c1, c2, Nat.card_Icc, Nat.card_Icc, Nat.cast_sub (by omega : start ≤ e + 1), Nat.cast_sub (by omega), Nat.cast_add (start - 1) 1,
    Nat.cast_sub s1]
  push_cast
  ring

theorem rankRuns_ok {n : ℕ} {v : ℕ → K} {idx : ℕ → ℕ} (h : SortedIdx n v idx) :
    ∀ d start (rank : ℕ → K), n + 1 - start ≤ d → 1 ≤ start → start ≤ n + 1 →
      (∀ i j, 1 ≤ i → i < start → start ≤ j → j ≤ n → v (idx i) < v (idx j)) →
      (∀ i, 1 ≤ i → i < start → rank (idx i) = midRank n v (idx i)) →
      ∃ rank', rankRuns n v idx rank start = some rank' ∧ ∀ i, 1 ≤ i → i ≤ n → rank' (idx i) = midRank n v (idx i) := by
  intro d
  induction d with
  | zero =>
    intro start rank hd h1 h2 _ hr
    exact ⟨rank, by rw [rankRuns, if_neg (by omega)], fun i i1 i2 => hr i i1 (by omega)⟩
  | succ d ih =>
    intro start rank hd h1 h2 hlo hr
    by_cases hs : start ≤ n
    · obtain ⟨e, ee, e1, e2, e3, e4⟩ := runEnd_ok h h1 (n - start) start rfl le_rfl hs
        (fun i i1 i2 => by rw [show i = start by omega])
      have hmid := fun i (i1 : start ≤ i) (i2 : i ≤ e) =>
        run_midRank h h1 e1 e2 e3 (fun i i1 i2 => hlo i start i1 i2 le_rfl hs) e4 i1 i2
      obtain ⟨r', er, pr⟩ := doLoopM_inv (lo := start) (hi := e) (by omega) (s := rank)
        (f := fun i rank => do
          let k ← rd n idx i
          wr n rank k ((1 / 2 : K) * ((start + e : ℕ) : K)))
        (fun i r => ∀ k, 1 ≤ k → k < i → r (idx k) = midRank n v (idx k))
        hr
        (by
          intro i r i1 i2 hr
          have rg := h.range (i := i) (by omega) (by omega)
          rw [rd_ok (by omega) (by omega)]
          simp only [Option.bind_eq_bind, Option.bind_some]
          rw [wr_ok rg.1 rg.2]
          refine ⟨_, rfl, ?_⟩
          intro k k1 k2
          by_cases hk : k = i
          · rw [hk, Function.update_self, hmid i i1 i2]
          · rw [Function.update_of_ne (fun hh => hk (h.inj hh))]
            exact hr k k1 (by omega))
      obtain ⟨r'', er'', pr''⟩ := ih (e + 1) r' (by omega) (by omega) (by omega)
        (by
          intro i j i1 i2 j1 j2
          have hgt : v (idx start) < v (idx j) := by
            have q1 : v (idx start) ≤ v (idx (e + 1)) := h.sorted start (e + 1) h1 (by omega) (by omega)
            have q2 : v (idx (e + 1)) ≤ v (idx j) := h.sorted (e + 1) j (by omega) (by omega) j2
            exact (lt_of_le_of_ne q1 (Ne.symm (e4 (by omega)))).trans_le q2
          rcases Nat.lt_or_ge i start with h' | h'
          · exact hlo i j i1 h' (by omega) j2
          · rw [e3 i h' (by omega)]; exact hgt)
        pr
      refine ⟨r'', ?_, pr''⟩
      rw [rankRuns, if_pos hs, ee]
      simp only [Option.bind_eq_bind, Option.bind_some] at er ⊢
      rw [er]
      exact er''
    · exact ⟨rank, by rw [rankRuns, if_neg hs], fun i i1 i2 => hr i i1 (by omega)⟩

theorem averageRanks_ok (n : ℕ) (v rank : ℕ → K) :
    ∃ r, averageRanks n v rank = some r ∧ ∀ k, 1 ≤ k → k ≤ n → r k = midRank n v k := by
  unfold averageRanks
  by_cases hn : n = 0
  · exact ⟨rank, by rw [if_pos hn], fun k k1 k2 => by omega⟩
  · obtain ⟨idx, ei, hi⟩ := sortIndices_ok n v
    obtain ⟨r, er, hr⟩ := rankRuns_ok hi n 1 rank (by omega) le_rfl (by omega) (fun i j _ _ _ _ => by omega)
      (fun i _ _ => by omega)
    refine ⟨r, by rw [if_neg hn, ei]; exact er, ?_⟩
    intro k k1 k2
    obtain ⟨i, i1, i2, e⟩ := hi.surj k1 k2
    rw [← e]; exact hr i i1 i2

end Skyborn.MK
