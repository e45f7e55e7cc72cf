import Verif.MK.PairLemmas
import Mathlib.Data.List.GetD

namespace Skyborn.MK

open Skyborn Finset Spec

variable {K : Type} [Field K] [LinearOrder K]

theorem sort_split (l1 l2 : List K) (v : K) (h1 : ∀ x ∈ l1, x ≤ v) (h2 : ∀ x ∈ l2, v ≤ x) :
    (((l1 ++ v :: l2 : List K) : Multiset K).sort (· ≤ ·)) =
      ((l1 : Multiset K).sort (· ≤ ·)) ++ v :: ((l2 : Multiset K).sort (· ≤ ·)) := by
  have p1 : (((l1 : Multiset K).sort (· ≤ ·))).Perm l1 := by
    rw [← Multiset.coe_eq_coe, Multiset.sort_eq]
  have p2 : (((l2 : Multiset K).sort (· ≤ ·))).Perm l2 := by
    rw [← Multiset.coe_eq_coe, Multiset.sort_eq]
  apply List.Perm.eq_of_pairwise' (r := (· ≤ ·))
  · exact Multiset.pairwise_sort _ _
  · rw [List.pairwise_append, List.pairwise_cons]
    refine ⟨Multiset.pairwise_sort _ _, ⟨fun x hx => h2 x (p2.mem_iff.mp hx), Multiset.pairwise_sort _ _⟩, ?_⟩
    intro x hx y hy
    have hx := h1 x (p1.mem_iff.mp hx)
    rw [List.mem_cons] at hy
    rcases hy with rfl | hy
    · exact hx
    · exact hx.trans (h2 y (p2.mem_iff.mp hy))
  · rw [← Multiset.coe_eq_coe, Multiset.sort_eq, Multiset.coe_eq_coe]
    exact (p1.symm.append (p2.symm.cons v))

theorem bufList_eq_range' {β : Type} (n : ℕ) (a : ℕ → β) : bufList n a = (List.range' 1 n).map a := by
  simp [bufList, List.range'_eq_map_range, Function.comp_def, add_comm]

theorem bufList_succ {β : Type} (n : ℕ) (a : ℕ → β) : bufList (n + 1) a = bufList n a ++ [a (n + 1)] := by
  simp [bufList, List.range_succ]

theorem bufList_congr {β : Type} {n : ℕ} {a b : ℕ → β} (h : ∀ i, 1 ≤ i → i ≤ n → a i = b i) :
    bufList n a = bufList n b := by
  rw [bufList_eq_range', bufList_eq_range']
  apply List.map_congr_left
  intro i hi
  rw [List.mem_range'_1] at hi
  exact h i hi.1 (by omega)

theorem bufList_update_succ {β : Type} (n : ℕ) (a : ℕ → β) (v : β) :
    bufList (n + 1) (Function.update a (n + 1) v) = bufList n a ++ [v] := by
  rw [bufList_succ, Function.update_self]
  congr 1
  apply bufList_congr
  intro i _ h
  rw [Function.update_of_ne (by omega)]

theorem values_eq_bufList (n : ℕ) (y : ℕ → K) : values n y = (bufList n y : Multiset K) := by
  rw [bufList_eq_range']
  rfl

theorem bufList_split {β : Type} {n k : ℕ} (a : ℕ → β) (h1 : 1 ≤ k) (hk : k ≤ n) :
    bufList n a = bufList (k - 1) a ++ a k :: (List.range' (k + 1) (n - k)).map a := by
  rw [bufList_eq_range', bufList_eq_range']
  have : List.range' 1 n = List.range' 1 (k - 1) ++ k :: List.range' (k + 1) (n - k) := by
    rw [← List.range'_succ, show n - k + 1 = n - (k - 1) by omega]
    have e : List.range' 1 (k - 1) ++ List.range' k (n - (k-1)) = List.range' 1 ((k-1) + (n - (k-1))) := by
      rw [← List.range'_append_1]
      congr 2; omega
    rw [e]; congr 1; omega
  rw [this, List.map_append, List.map_cons]

theorem mem_bufList {β : Type} {n : ℕ} {a : ℕ → β} {x : β} : x ∈ bufList n a ↔ ∃ i, 1 ≤ i ∧ i ≤ n ∧ a i = x := by
  rw [bufList_eq_range']
  simp only [List.mem_map, List.mem_range'_1]
  constructor
  · rintro ⟨i, h, rfl⟩; exact ⟨i, h.1, by omega, rfl⟩
  · rintro ⟨i, h, h', rfl⟩; exact ⟨i, ⟨h, by omega⟩, rfl⟩

/-- sorted list around a selected position -/
theorem selected_sort {n k : ℕ} {b : ℕ → K} (h1 : 1 ≤ k) (hk : k ≤ n) (hs : SelectedAt n k b) :
    ((bufList n b : Multiset K).sort (· ≤ ·)) =
      ((bufList (k - 1) b : Multiset K).sort (· ≤ ·)) ++ b k ::
        (((List.range' (k + 1) (n - k)).map b : List K) : Multiset K).sort (· ≤ ·) := by
  rw [bufList_split b h1 hk]
  apply sort_split
  · intro x hx
    obtain ⟨i, i1, i2, rfl⟩ := mem_bufList.mp hx
    exact hs.1 i i1 (by omega)
  · intro x hx
    simp only [List.mem_map, List.mem_range'_1] at hx
    obtain ⟨i, hi, rfl⟩ := hx
    exact hs.2 i (by omega) (by omega)

theorem selected_getD {n k : ℕ} {b : ℕ → K} (h1 : 1 ≤ k) (hk : k ≤ n) (hs : SelectedAt n k b) :
    ((bufList n b : Multiset K).sort (· ≤ ·)).getD (k - 1) 0 = b k := by
  rw [selected_sort h1 hk hs]
  have hl : ((bufList (k - 1) b : Multiset K).sort (· ≤ ·)).length = k - 1 := by simp
  rw [List.getD_append_right _ _ _ _ (by rw [hl]), hl]
  simp

theorem runningMax_ok {n mid : ℕ} (b : ℕ → K) (h1 : 1 ≤ mid) (hm : mid ≤ n) :
    ∃ m, runningMax n b mid = some m ∧ (∃ i, 1 ≤ i ∧ i ≤ mid ∧ b i = m) ∧ ∀ i, 1 ≤ i → i ≤ mid → b i ≤ m := by
  unfold runningMax
  rw [rd_ok le_rfl (by omega)]
  obtain ⟨m, e, p⟩ := doLoopM_inv (lo := 2) (hi := mid) (by omega) (s := b 1)
    (f := fun i m => do
      let w ← rd n b i
      return if w > m then w else m)
    (fun i m => (∃ k, 1 ≤ k ∧ k < i ∧ b k = m) ∧ ∀ k, 1 ≤ k → k < i → b k ≤ m)
    ⟨⟨1, by omega, by omega, rfl⟩, fun k k1 k2 => by rw [show k = 1 by omega]⟩
    (by
      intro i m i1 i2 ⟨⟨k, k1, k2, e⟩, hm⟩
      refine ⟨if b i > m then b i else m, ?_, ?_, ?_⟩
      · rw [rd_ok (by omega) (by omega)]; simp
      · split_ifs
        · exact ⟨i, by omega, by omega, rfl⟩
        · exact ⟨k, k1, by omega, e⟩
      · intro x x1 x2
        by_cases hx : x = i
        · subst hx
          split_ifs with h
          · exact le_rfl
          · exact not_lt.mp h
        · have := hm x x1 (by omega)
          split_ifs with h
          · exact this.trans h.le
          · exact this)
  refine ⟨m, ?_, ?_, ?_⟩
  · simpa using e
  · obtain ⟨k, k1, k2, e⟩ := p.1
    exact ⟨k, k1, by omega, e⟩
  · intro i i1 i2; exact p.2 i i1 (by omega)

/-- last element of the sorted prefix is the prefix maximum -/
theorem sort_getD_last {mid : ℕ} {b : ℕ → K} {m : K} (h1 : 1 ≤ mid) (hex : ∃ i, 1 ≤ i ∧ i ≤ mid ∧ b i = m)
    (hall : ∀ i, 1 ≤ i → i ≤ mid → b i ≤ m) :
    ((bufList mid b : Multiset K).sort (· ≤ ·)).getD (mid - 1) 0 = m := by
  set L := ((bufList mid b : Multiset K).sort (· ≤ ·)) with hL
  have hlen : L.length = mid := by simp [hL]
  have hmem : ∀ x, x ∈ L ↔ x ∈ bufList mid b := by intro x; simp [hL]
  have hlt : mid - 1 < L.length := by omega
  rw [List.getD_eq_getElem _ _ hlt]
  apply le_antisymm
  · have : L[mid - 1] ∈ L := List.getElem_mem _
    obtain ⟨i, i1, i2, e⟩ := mem_bufList.mp ((hmem _).mp this)
    rw [← e]; exact hall i i1 i2
  · have : m ∈ L := (hmem m).mpr (mem_bufList.mpr hex)
    obtain ⟨j, hj, e⟩ := List.getElem_of_mem this
    rw [← e]
    have hs : L.Pairwise (· ≤ ·) := Multiset.pairwise_sort _ _
    rcases Nat.eq_or_lt_of_le (show j ≤ mid - 1 by omega) with h | h
    · subst h; exact le_rfl
    · exact List.pairwise_iff_getElem.mp hs j (mid - 1) hj hlt h

theorem medianByselect_ok [IsStrictOrderedRing K] {n : ℕ} (a : ℕ → K) (hn : 1 ≤ n) :
    medianByselect n a = some (median (bufList n a : Multiset K)) := by
  unfold medianByselect median
  obtain ⟨b, eb, pb, sb⟩ := selectKth_ok (n := n) (k := n / 2 + 1) a (by omega) (by omega)
  have hperm : (bufList n a : Multiset K) = (bufList n b : Multiset K) :=
    Multiset.coe_eq_coe.mpr pb.perm_list.symm
  have hup := selected_getD (n := n) (k := n / 2 + 1) (by omega) (by omega) sb
  have hrd := rd_ok (n := n) (a := b) (i := n / 2 + 1) (by omega) (by omega)
  simp only [Nat.add_sub_cancel] at hup
  have hcard : Multiset.card (bufList n a : Multiset K) = n := by simp
  rw [hcard, hperm]
  by_cases h : n % 2 = 0
  · have h' : ¬ n % 2 = 1 := by omega
    have hm1 : 1 ≤ n / 2 := by omega
    obtain ⟨m, em, ex, all⟩ := runningMax_ok (n := n) (mid := n / 2) b hm1 (by omega)
    have hlow : ((bufList n b : Multiset K).sort (· ≤ ·)).getD (n / 2 - 1) 0 = m := by
      rw [selected_sort (k := n / 2 + 1) (by omega) (by omega) sb]
      simp only [Nat.add_sub_cancel]
      rw [List.getD_append _ _ _ _ (by simp; omega)]
      exact sort_getD_last hm1 ex all
    rw [if_pos h, if_neg h']
    simp only [eb, hrd, em, Option.bind_eq_bind, Option.bind_some, hup, hlow]
    simp only [Option.pure_def, Option.some.injEq]
    ring
  · have h' : n % 2 = 1 := by omega
    rw [if_neg h, if_pos h']
    simp only [eb, hrd, Option.bind_eq_bind, Option.bind_some, hup]

end Skyborn.MK
