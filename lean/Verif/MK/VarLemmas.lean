import Verif.MK.SenLemmas

namespace Skyborn.MK

open Skyborn Finset Spec

variable {K : Type} [Field K] [LinearOrder K] [IsStrictOrderedRing K]

/-! ### tie scan -/

/-- `t(t-1)(2t+5)` -/
def tieF (t : ℕ) : K := (t : K) * ((t : K) - 1) * (2 * (t : K) + 5)

theorem addRun_eq (tie : K) {run : ℕ} (h : 1 ≤ run) : addRun tie run = tie + tieF run := by
  unfold addRun tieF
  split_ifs with h'
  · rfl
  · have : run = 1 := by omega
    subst this; simp

theorem scan_inv (a : ℕ → K) (n : ℕ) (hn : 1 ≤ n) (hs : SortedOn id 1 n a) :
    let st := doLoop 2 n ((0 : K), 1) fun i (st : K × ℕ) =>
      if a i = a (i - 1) then (st.1, st.2 + 1) else (addRun st.1 st.2, 1)
    st.2 = (bufList n a : Multiset K).count (a n) ∧ 1 ≤ st.2 ∧
      st.1 = ∑ v ∈ ((bufList n a : Multiset K).toFinset).erase (a n), tieF ((bufList n a : Multiset K).count v) := by
  intro st
  have := doLoop_inv (lo := 2) (hi := n) (by omega) (s := ((0 : K), 1))
    (f := fun i (st : K × ℕ) => if a i = a (i - 1) then (st.1, st.2 + 1) else (addRun st.1 st.2, 1))
    (fun i (st : K × ℕ) => st.2 = (bufList (i - 1) a : Multiset K).count (a (i - 1)) ∧ 1 ≤ st.2 ∧
      st.1 = ∑ v ∈ ((bufList (i - 1) a : Multiset K).toFinset).erase (a (i - 1)),
        tieF ((bufList (i - 1) a : Multiset K).count v))
    (by simp [bufList])
    (by
      intro i st i1 i2 ⟨hrun, hrun1, htie⟩
      have hsucc : (bufList i a : Multiset K) = a i ::ₘ (bufList (i - 1) a : Multiset K) := by
        obtain ⟨k, rfl⟩ : ∃ k, i = k + 1 := ⟨i - 1, by omega⟩
        rw [Nat.add_sub_cancel, bufList_succ, coe_append_singleton, add_comm, Multiset.singleton_add]
      have hmem : a (i - 1) ∈ (bufList (i - 1) a : Multiset K) := by
        rw [Multiset.mem_coe, mem_bufList]; exact ⟨i - 1, by omega, le_rfl, rfl⟩
      rw [Nat.add_sub_cancel]
      set s := (bufList (i - 1) a : Multiset K) with hsdef
      by_cases h : a i = a (i - 1)
      · simp only [h, if_true]
        rw [hsucc, h]
        refine ⟨by rw [Multiset.count_cons_self, hrun], by omega, ?_⟩
        rw [htie]
        have e1 : (a (i - 1) ::ₘ s).toFinset.erase (a (i - 1)) = s.toFinset.erase (a (i - 1)) := by
          ext v; simp
        rw [e1]
        apply Finset.sum_congr rfl
        intro v hv
        rw [Multiset.count_cons_of_ne (Finset.ne_of_mem_erase hv)]
      · simp only [h, if_false]
        have hlt : ∀ v ∈ s, v < a i := by
          intro v hv
          rw [hsdef, Multiset.mem_coe, mem_bufList] at hv
          obtain ⟨k, k1, k2, rfl⟩ := hv
          have q1 : a k ≤ a (i - 1) := hs k (i - 1) k1 k2 (by omega)
          have q2 : a (i - 1) ≤ a i := hs (i - 1) i (by omega) (by omega) (by omega)
          exact q1.trans_lt (lt_of_le_of_ne q2 (Ne.symm h))
        have hni : a i ∉ s := fun hm => lt_irrefl _ (hlt _ hm)
        rw [hsucc]
        refine ⟨by rw [Multiset.count_cons_self, Multiset.count_eq_zero_of_notMem hni], by simp, ?_⟩
        have e1 : (a i ::ₘ s).toFinset.erase (a i) = s.toFinset := by
          ext v
          simp only [Multiset.toFinset_cons, Finset.mem_erase, Finset.mem_insert, Multiset.mem_toFinset]
          constructor
          · rintro ⟨h1, h2 | h2⟩
            · exact absurd h2 h1
            · exact h2
          · intro hv; exact ⟨(hlt v hv).ne, Or.inr hv⟩
        rw [e1, addRun_eq _ hrun1, htie, hrun]
        rw [Finset.sum_erase_add _ _ (Multiset.mem_toFinset.mpr hmem)]
        apply Finset.sum_congr rfl
        intro v hv
        rw [Multiset.count_cons_of_ne (hlt v (Multiset.mem_toFinset.mp hv)).ne])
  rw [Nat.add_sub_cancel] at this
  exact this

theorem baseVarianceFromSorted_ok (a : ℕ → K) (n : ℕ) (hs : SortedOn id 1 n a) :
    baseVarianceFromSorted a n = tieVariance (bufList n a : Multiset K) := by
  unfold baseVarianceFromSorted tieVariance
  by_cases hn : n ≤ 1
  · rw [if_pos hn]
    have : n = 0 ∨ n = 1 := by omega
    rcases this with rfl | rfl <;> simp [bufList]
  · rw [if_neg hn]
    obtain ⟨h1, h2, h3⟩ := scan_inv a n (by omega) hs
    simp only
    rw [addRun_eq _ h2, h1, h3, Finset.sum_erase_add]
    · simp [tieF]
    · rw [Multiset.mem_toFinset, Multiset.mem_coe, mem_bufList]; exact ⟨n, by omega, le_rfl, rfl⟩

theorem sortRealInplace_ok {α : Type} [LinearOrder α] (n : ℕ) (a : ℕ → α) :
    ∃ b, sortRealInplace n a = some b ∧ PermOn 1 n a b ∧ SortedOn id 1 n b := by
  unfold sortRealInplace
  by_cases hn : n ≤ 1
  · refine ⟨a, by rw [if_pos hn], PermOn.refl _ _ _, ?_⟩
    intro x y x1 xy y1
    have : x = y := by omega
    rw [this]
  · obtain ⟨b, eb, pb⟩ := quicksort_ok 32 (n := n) id (n - 1) a 1 n le_rfl le_rfl le_rfl
    obtain ⟨c, ec, pc, sc⟩ := insertionSort_ok (n := n) id b (left := 1) (right := n) le_rfl le_rfl
    exact ⟨c, by rw [if_neg hn, eb]; exact ec, pb.trans pc, sc⟩

theorem baseVariance_ok (n : ℕ) (y : ℕ → K) : baseVariance n y = some (tieVariance (values n y)) := by
  unfold baseVariance
  obtain ⟨b, eb, pb, sb⟩ := sortRealInplace_ok n y
  rw [eb]
  simp only [Option.bind_eq_bind, Option.bind_some]
  rw [baseVarianceFromSorted_ok b n sb, values_eq_bufList, Multiset.coe_eq_coe.mpr pb.perm_list]
  rfl

/-! ### the sign form -/

/-- `A_i = ∑_j sign(x_i - x_j)` -/
def signSum (n : ℕ) (x : ℕ → K) (i : ℕ) : K := ∑ j ∈ Icc 1 n, sgn (x i - x j)

/-- number of samples tied with sample `i` (including itself) -/
def tieCount (n : ℕ) (x : ℕ → K) (i : ℕ) : K := ∑ j ∈ Icc 1 n, if x i = x j then 1 else 0

theorem sgn_sq (a : K) : sgn a * sgn a = 1 - if a = 0 then 1 else 0 := by
  rcases lt_trichotomy a 0 with h | h | h
  · rw [sgn_neg h, if_neg h.ne]; ring
  · subst h; simp [sgn_zero]
  · rw [sgn_pos h, if_neg h.ne']; ring

theorem triple (u v w : K) :
    sgn (u - v) * sgn (u - w) + sgn (v - u) * sgn (v - w) + sgn (w - u) * sgn (w - v) =
      1 - (if u = v then 1 else 0) * (if v = w then 1 else 0) := by
  rw [sgn_swap v u, sgn_swap w u, sgn_swap w v]
  rcases lt_trichotomy u v with h | h | h <;> rcases lt_trichotomy v w with h' | h' | h' <;>
    rcases lt_trichotomy u w with h'' | h'' | h'' <;>
    first
    | (exfalso; linarith)
    | (subst_vars; exfalso; exact lt_irrefl _ (by assumption))
    | (rw [sgn_neg (show u - v < 0 by linarith)]
       first | rw [sgn_neg (show v - w < 0 by linarith)] | rw [sgn_pos (show 0 < v - w by linarith)] | rw [show v - w = 0 by linarith, sgn_zero]
       first | rw [sgn_neg (show u - w < 0 by linarith)] | rw [sgn_pos (show 0 < u - w by linarith)] | rw [show u - w = 0 by linarith, sgn_zero]
       rw [if_neg h.ne]; ring)
    | (rw [sgn_pos (show 0 < u - v by linarith)]
       first | rw [sgn_neg (show v - w < 0 by linarith)] | rw [sgn_pos (show 0 < v - w by linarith)] | rw [show v - w = 0 by linarith, sgn_zero]
       first | rw [sgn_neg (show u - w < 0 by linarith)] | rw [sgn_pos (show 0 < u - w by linarith)] | rw [show u - w = 0 by linarith, sgn_zero]
       rw [if_neg h.ne']; ring)
    | (rw [show u - v = 0 by linarith, sgn_zero]
       first | rw [sgn_neg (show v - w < 0 by linarith), sgn_neg (show u - w < 0 by linarith), if_neg h'.ne]
             | rw [sgn_pos (show 0 < v - w by linarith), sgn_pos (show 0 < u - w by linarith), if_neg h'.ne']
             | rw [show v - w = 0 by linarith, show u - w = 0 by linarith, sgn_zero, if_pos h, if_pos h']
       ring)

theorem sum_signSum_sq (n : ℕ) (x : ℕ → K) :
    3 * ∑ i ∈ Icc 1 n, signSum n x i * signSum n x i = (n : K) ^ 3 - ∑ i ∈ Icc 1 n, tieCount n x i ^ 2 := by
  have e : ∑ i ∈ Icc 1 n, signSum n x i * signSum n x i =
      ∑ i ∈ Icc 1 n, ∑ j ∈ Icc 1 n, ∑ k ∈ Icc 1 n, sgn (x i - x j) * sgn (x i - x k) := by
    apply Finset.sum_congr rfl
    intro i _
    rw [signSum, Finset.sum_mul_sum]
  have e2 : ∑ i ∈ Icc 1 n, ∑ j ∈ Icc 1 n, ∑ k ∈ Icc 1 n, sgn (x i - x j) * sgn (x i - x k) =
      ∑ i ∈ Icc 1 n, ∑ j ∈ Icc 1 n, ∑ k ∈ Icc 1 n, sgn (x j - x i) * sgn (x j - x k) := Finset.sum_comm
  have e3 : ∑ i ∈ Icc 1 n, ∑ j ∈ Icc 1 n, ∑ k ∈ Icc 1 n, sgn (x j - x i) * sgn (x j - x k) =
      ∑ i ∈ Icc 1 n, ∑ j ∈ Icc 1 n, ∑ k ∈ Icc 1 n, sgn (x k - x i) * sgn (x k - x j) := by
    apply Finset.sum_congr rfl
    intro i _
    exact Finset.sum_comm
  have e4 : ∑ i ∈ Icc 1 n, ∑ j ∈ Icc 1 n, ∑ k ∈ Icc 1 n,
      ((1 : K) - (if x i = x j then 1 else 0) * (if x j = x k then 1 else 0)) =
      (n : K) ^ 3 - ∑ i ∈ Icc 1 n, tieCount n x i ^ 2 := by
    simp only [Finset.sum_sub_distrib, Finset.sum_const, Nat.card_Icc, Nat.add_sub_cancel, nsmul_eq_mul, mul_one]
    congr 1
    · ring
    · rw [Finset.sum_comm]
      apply Finset.sum_congr rfl
      intro j _
      rw [sq, tieCount, Finset.sum_mul_sum]
      apply Finset.sum_congr rfl
      intro i _
      apply Finset.sum_congr rfl
      intro k _
      simp only [eq_comm]
  rw [e, ← e4, show (3 : K) * ∑ i ∈ Icc 1 n, ∑ j ∈ Icc 1 n, ∑ k ∈ Icc 1 n, sgn (x i - x j) * sgn (x i - x k) =
    ∑ i ∈ Icc 1 n, ∑ j ∈ Icc 1 n, ∑ k ∈ Icc 1 n, sgn (x i - x j) * sgn (x i - x k) +
    ∑ i ∈ Icc 1 n, ∑ j ∈ Icc 1 n, ∑ k ∈ Icc 1 n, sgn (x j - x i) * sgn (x j - x k) +
    ∑ i ∈ Icc 1 n, ∑ j ∈ Icc 1 n, ∑ k ∈ Icc 1 n, sgn (x k - x i) * sgn (x k - x j) by rw [← e3, ← e2]; ring]
  simp only [← Finset.sum_add_distrib, triple]

theorem sum_pairs_sq (n : ℕ) (x : ℕ → K) :
    2 * ∑ p ∈ pairs n, sgn (x p.2 - x p.1) * sgn (x p.2 - x p.1) = (n : K) ^ 2 - ∑ i ∈ Icc 1 n, tieCount n x i := by
  have h := sum_square n (fun i j => sgn (x j - x i) * sgn (x j - x i))
  simp only [sub_self, sgn_zero, mul_zero, Finset.sum_const_zero, add_zero] at h
  have h2 : ∑ p ∈ pairs n, (sgn (x p.2 - x p.1) * sgn (x p.2 - x p.1) + sgn (x p.1 - x p.2) * sgn (x p.1 - x p.2)) =
      2 * ∑ p ∈ pairs n, sgn (x p.2 - x p.1) * sgn (x p.2 - x p.1) := by
    rw [Finset.mul_sum]
    apply Finset.sum_congr rfl
    intro p _
    rw [sgn_swap (x p.1)]; ring
  rw [← h2, ← h]
  simp only [sgn_sq, Finset.sum_sub_distrib, Finset.sum_const, Nat.card_Icc, Nat.add_sub_cancel, nsmul_eq_mul, mul_one]
  congr 1
  · ring
  · apply Finset.sum_congr rfl
    intro i _
    unfold tieCount
    apply Finset.sum_congr rfl
    intro j _
    simp only [sub_eq_zero, eq_comm]

/-- covariance form of two series -/
def covForm (n : ℕ) (x y : ℕ → K) : K :=
  (∑ p ∈ pairs n, sgn (x p.2 - x p.1) * sgn (y p.2 - y p.1) + ∑ i ∈ Icc 1 n, signSum n x i * signSum n y i) / 3

theorem tieCount_eq_count (n : ℕ) (x : ℕ → K) (i : ℕ) : tieCount n x i = ((values n x).count (x i) : K) := by
  unfold tieCount values
  rw [Multiset.count_map]
  rw [Finset.sum_boole]
  rfl

theorem sum_toFinset_count (n : ℕ) (x : ℕ → K) (g : K → K) :
    ∑ v ∈ (values n x).toFinset, ((values n x).count v : K) * g v = ∑ i ∈ Icc 1 n, g (x i) := by
  have h := Finset.sum_multiset_map_count (values n x) g
  simp only [nsmul_eq_mul] at h
  rw [← h, values, Multiset.map_map]
  rfl

theorem tieVariance_index (n : ℕ) (x : ℕ → K) :
    18 * tieVariance (values n x) = (n : K) * (n - 1) * (2 * n + 5)
      - ∑ i ∈ Icc 1 n, (tieCount n x i - 1) * (2 * tieCount n x i + 5) := by
  unfold tieVariance
  have hc : Multiset.card (values n x) = n := by simp [values]
  have h := sum_toFinset_count n x (fun v => ((values n x).count v - 1) * (2 * (values n x).count v + 5))
  simp only [← mul_assoc] at h
  rw [hc, h]
  simp only [tieCount_eq_count]
  ring

theorem covForm_self (n : ℕ) (x : ℕ → K) : covForm n x x = tieVariance (values n x) := by
  have h1 := sum_signSum_sq n x
  have h2 := sum_pairs_sq n x
  have h3 := tieVariance_index n x
  have h4 : ∑ i ∈ Icc 1 n, (tieCount n x i - 1) * (2 * tieCount n x i + 5) =
      2 * ∑ i ∈ Icc 1 n, tieCount n x i ^ 2 + 3 * ∑ i ∈ Icc 1 n, tieCount n x i - 5 * n := by
    have : ∀ i, (tieCount n x i - 1) * (2 * tieCount n x i + 5) = 2 * tieCount n x i ^ 2 + 3 * tieCount n x i - 5 :=
      fun i => by ring
    simp only [this, Finset.sum_sub_distrib, Finset.sum_add_distrib, Finset.mul_sum, Finset.sum_const, Nat.card_Icc,
      Nat.add_sub_cancel, nsmul_eq_mul]
    ring
  rw [h4] at h3
  unfold covForm
  linarith

end Skyborn.MK
