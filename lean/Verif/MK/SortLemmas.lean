import Verif.MK.SortModel
import Mathlib.Logic.Equiv.Basic
import Mathlib.Data.List.Sort
import Mathlib.Logic.Function.Basic
import Mathlib.Data.List.FinRange
import Mathlib.GroupTheory.Perm.List

namespace Skyborn.MK

open Skyborn

variable {α β : Type} [LinearOrder α]

/-- `b` is obtained from `a` by permuting positions inside `[l, r]` only. -/
def PermOn (l r : ℕ) (a b : ℕ → β) : Prop :=
  ∃ σ : Equiv.Perm ℕ, (∀ i, i < l ∨ r < i → σ i = i) ∧ b = a ∘ σ

theorem PermOn.refl (l r : ℕ) (a : ℕ → β) : PermOn l r a a := ⟨1, by simp, by ext; simp⟩

theorem PermOn.trans {l r : ℕ} {a b c : ℕ → β} (h1 : PermOn l r a b) (h2 : PermOn l r b c) :
    PermOn l r a c := by
  obtain ⟨s, hs, rfl⟩ := h1
  obtain ⟨t, ht, rfl⟩ := h2
  refine ⟨s * t, fun i hi => ?_, by ext; simp⟩
  simp [ht i hi, hs i hi]

theorem PermOn.mono {l r l' r' : ℕ} {a b : ℕ → β} (h : PermOn l r a b) (hl : l' ≤ l) (hr : r ≤ r') :
    PermOn l' r' a b := by
  obtain ⟨s, hs, rfl⟩ := h
  exact ⟨s, fun i hi => hs i (by omega), rfl⟩

theorem PermOn.out {l r : ℕ} {a b : ℕ → β} (h : PermOn l r a b) {i : ℕ} (hi : i < l ∨ r < i) : b i = a i := by
  obtain ⟨s, hs, rfl⟩ := h
  simp [hs i hi]

/-- every value of the window comes from the window -/
theorem PermOn.src {l r : ℕ} {a b : ℕ → β} (h : PermOn l r a b) {i : ℕ} (h1 : l ≤ i) (h2 : i ≤ r) :
    ∃ k, l ≤ k ∧ k ≤ r ∧ b i = a k := by
  obtain ⟨s, hs, rfl⟩ := h
  refine ⟨s i, ?_, ?_, rfl⟩
  · by_contra hc
    have := hs (s i) (by omega)
    have := s.injective this
    omega
  · by_contra hc
    have := hs (s i) (by omega)
    have := s.injective this
    omega

theorem PermOn.symm {l r : ℕ} {a b : ℕ → β} (h : PermOn l r a b) : PermOn l r b a := by
  obtain ⟨s, hs, rfl⟩ := h
  refine ⟨s⁻¹, fun i hi => ?_, by ext; simp⟩
  rw [Equiv.Perm.inv_eq_iff_eq, hs i hi]

theorem PermOn.forall_window {l r : ℕ} {a b : ℕ → β} (h : PermOn l r a b) {P : β → Prop}
    (hp : ∀ k, l ≤ k → k ≤ r → P (a k)) : ∀ k, l ≤ k → k ≤ r → P (b k) := by
  intro k h1 h2
  obtain ⟨m, m1, m2, e⟩ := h.src h1 h2
  rw [e]; exact hp m m1 m2

theorem PermOn.exists_window {l r : ℕ} {a b : ℕ → β} (h : PermOn l r a b) {P : β → Prop}
    (hp : ∃ k, l ≤ k ∧ k ≤ r ∧ P (a k)) : ∃ k, l ≤ k ∧ k ≤ r ∧ P (b k) := by
  obtain ⟨k, h1, h2, hk⟩ := hp
  obtain ⟨m, m1, m2, e⟩ := h.symm.src h1 h2
  exact ⟨m, m1, m2, e ▸ hk⟩

theorem permOn_swap {l r : ℕ} (a : ℕ → β) {i j : ℕ} (hi : l ≤ i) (hi' : i ≤ r) (hj : l ≤ j) (hj' : j ≤ r) :
    PermOn l r a (a ∘ Equiv.swap i j) :=
  ⟨Equiv.swap i j, fun k hk => Equiv.swap_apply_of_ne_of_ne (by omega) (by omega), rfl⟩

theorem update_update_eq_swap (a : ℕ → β) (i j : ℕ) :
    Function.update (Function.update a i (a j)) j (a i) = a ∘ Equiv.swap i j := by
  ext k
  by_cases hj : k = j
  · subst hj; simp
  · by_cases hi : k = i
    · subst hi; simp [hj]
    · simp [hi, hj, Equiv.swap_apply_of_ne_of_ne]

theorem swapM_ok {n : ℕ} (a : ℕ → β) {i j : ℕ} (hi : 1 ≤ i) (hi' : i ≤ n) (hj : 1 ≤ j) (hj' : j ≤ n) :
    swapM n a i j = some (a ∘ Equiv.swap i j) := by
  simp [swapM, rd_ok hi hi', rd_ok hj hj', wr_ok hi hi', wr_ok hj hj', update_update_eq_swap]

/-- windowed permutations permute the list of buffer contents -/
theorem PermOn.perm_list {n : ℕ} {a b : ℕ → β} (h : PermOn 1 n a b) :
    (bufList n b).Perm (bufList n a) := by
  obtain ⟨s, hs, rfl⟩ := h
  have h1 : ∀ i, 1 ≤ i → i ≤ n → 1 ≤ s i ∧ s i ≤ n := by
    intro i h1 h2
    obtain ⟨k, k1, k2, e⟩ := PermOn.src (a := id) (b := id ∘ s) ⟨s, hs, rfl⟩ h1 h2
    simp at e; omega
  have e1 : bufList n (a ∘ s) = ((List.range' 1 n).map s).map a := by
    simp [bufList, List.range'_eq_map_range, Function.comp_def, add_comm]
  have e2 : bufList n a = (List.range' 1 n).map a := by
    simp [bufList, List.range'_eq_map_range, Function.comp_def, add_comm]
  rw [e1, e2]
  apply List.Perm.map
  have nd : (List.range' 1 n).Nodup := List.nodup_range'
  rw [List.perm_ext_iff_of_nodup (nd.map s.injective) nd]
  intro x
  simp only [List.mem_map, List.mem_range'_1]
  constructor
  · rintro ⟨y, hy, rfl⟩
    have := h1 y hy.1 (by omega); omega
  · intro hx
    refine ⟨s⁻¹ x, ?_, by simp⟩
    by_contra hc
    have := hs (s⁻¹ x) (by omega)
    rw [show s (s⁻¹ x) = x from s.apply_symm_apply x] at this
    rw [← this] at hc
    omega

/-! ### scans -/

theorem scanUp_ok {n : ℕ} (key : β → α) (p : α) (a : ℕ → β) (s : ℕ) (hs : s ≤ n) (hp : p ≤ key (a s)) :
    ∀ d i, 1 ≤ i → i + d = s → ∃ i', scanUp n key p a i = some i' ∧ i ≤ i' ∧ i' ≤ s ∧ p ≤ key (a i') ∧
      ∀ k, i ≤ k → k < i' → key (a k) < p := by
  intro d
  induction d with
  | zero =>
    intro i h1 h2
    have h2 : i = s := by omega
    subst h2
    refine ⟨i, ?_, le_rfl, le_rfl, hp, fun k _ _ => by omega⟩
    rw [scanUp, rd_ok h1 hs]
    simp [not_lt.mpr hp]
  | succ d ih =>
    intro i h1 h2
    by_cases hc : key (a i) < p
    · obtain ⟨i', e, l1, l2, l3, l4⟩ := ih (i + 1) (by omega) (by omega)
      refine ⟨i', ?_, by omega, l2, l3, ?_⟩
      · rw [scanUp, rd_ok h1 (by omega)]
        simp [hc, e]
      · intro k k1 k2
        rcases Nat.eq_or_lt_of_le k1 with rfl | k1
        · exact hc
        · exact l4 k k1 k2
    · refine ⟨i, ?_, le_rfl, by omega, not_lt.mp hc, fun k _ _ => by omega⟩
      rw [scanUp, rd_ok h1 (by omega)]
      simp [hc]

theorem scanDown_ok {n : ℕ} (key : β → α) (p : α) (a : ℕ → β) (s : ℕ) (hs : 1 ≤ s) (hp : key (a s) ≤ p) :
    ∀ d j, j ≤ n → s + d = j → ∃ j', scanDown n key p a j = some j' ∧ j' ≤ j ∧ s ≤ j' ∧ key (a j') ≤ p ∧
      ∀ k, j' < k → k ≤ j → p < key (a k) := by
  intro d
  induction d with
  | zero =>
    intro j h1 h2
    have h2 : s = j := by omega
    subst h2
    refine ⟨s, ?_, le_rfl, le_rfl, hp, fun k _ _ => by omega⟩
    rw [scanDown, rd_ok hs h1]
    simp [not_lt.mpr hp]
  | succ d ih =>
    intro j h1 h2
    by_cases hc : p < key (a j)
    · obtain ⟨j', e, l1, l2, l3, l4⟩ := ih (j - 1) (by omega) (by omega)
      refine ⟨j', ?_, by omega, l2, l3, ?_⟩
      · rw [scanDown, rd_ok (by omega) h1]
        simp [hc, e]
      · intro k k1 k2
        rcases Nat.eq_or_lt_of_le k2 with rfl | k2
        · exact hc
        · exact l4 k k1 (by omega)
    · refine ⟨j, ?_, le_rfl, by omega, not_lt.mp hc, fun k _ _ => by omega⟩
      rw [scanDown, rd_ok (by omega) h1]
      simp [hc]

/-! ### partition -/

/-- What the partition loop establishes. -/
structure Parted (key : β → α) (p : α) (left right : ℕ) (a a' : ℕ → β) (i j : ℕ) : Prop where
  perm : PermOn left right a a'
  cross : j < i
  lo : ∀ k, left ≤ k → k < i → key (a' k) ≤ p
  hi : ∀ k, j < k → k ≤ right → p ≤ key (a' k)
  i_gt : left < i
  j_lt : j < right
  i_le : i ≤ right + 1
  j_ge : left ≤ j + 1

theorem partitionLoop_ok {n : ℕ} (key : β → α) (p : α) (left right : ℕ) (h1 : 1 ≤ left) (hn : right ≤ n) :
    ∀ m (a : ℕ → β) (i j : ℕ), j + 1 - i ≤ m → left ≤ i → i ≤ j → j ≤ right →
      (∀ k, left ≤ k → k < i → key (a k) ≤ p) → (∀ k, j < k → k ≤ right → p ≤ key (a k)) →
      ((∃ q, i ≤ q ∧ q ≤ j ∧ key (a q) = p) ∨
        (left < i ∧ j < right ∧ (∃ k, i ≤ k ∧ k ≤ right ∧ p ≤ key (a k)) ∧ ∃ k, left ≤ k ∧ k ≤ j ∧ key (a k) ≤ p)) →
      ∃ a' i' j', partitionLoop n key p a i j = some (a', i', j') ∧ Parted key p left right a a' i' j' := by
  intro m
  induction m with
  | zero => intro a i j hm hl hij; omega
  | succ m ih =>
    intro a i j hm hl hij hj hlo hhi hsent
    have sU : ∃ k, i ≤ k ∧ k ≤ right ∧ p ≤ key (a k) := by
      rcases hsent with ⟨q, q1, q2, e⟩ | ⟨_, _, h, _⟩
      · exact ⟨q, q1, by omega, e.ge⟩
      · exact h
    have sD : ∃ k, left ≤ k ∧ k ≤ j ∧ key (a k) ≤ p := by
      rcases hsent with ⟨q, q1, q2, e⟩ | ⟨_, _, _, h⟩
      · exact ⟨q, by omega, q2, e.le⟩
      · exact h
    obtain ⟨u, u1, u2, u3⟩ := sU
    obtain ⟨d, d1, d2, d3⟩ := sD
    obtain ⟨i', ei, i1, i2, i3, i4⟩ := scanUp_ok (n := n) key p a u (by omega) u3 (u - i) i (by omega) (by omega)
    obtain ⟨j', ej, j1, j2, j3, j4⟩ := scanDown_ok (n := n) key p a d (by omega) d3 (j - d) j (by omega) (by omega)
    have hlo' : ∀ k, left ≤ k → k < i' → key (a k) ≤ p := by
      intro k k1 k2
      rcases Nat.lt_or_ge k i with h | h
      · exact hlo k k1 h
      · exact (i4 k h k2).le
    have hhi' : ∀ k, j' < k → k ≤ right → p ≤ key (a k) := by
      intro k k1 k2
      rcases Nat.lt_or_ge j k with h | h
      · exact hhi k h k2
      · exact (j4 k k1 h).le
    by_cases hc : i' ≤ j'
    · -- swap
      have hsw := swapM_ok (n := n) a (i := i') (j := j') (by omega) (by omega) (by omega) (by omega)
      set b := a ∘ Equiv.swap i' j' with hb
      have hperm : PermOn left right a b := permOn_swap a (by omega) (by omega) (by omega) (by omega)
      have bi : b i' = a j' := by simp [hb]
      have bj : b j' = a i' := by simp [hb]
      have bo : ∀ k, k ≠ i' → k ≠ j' → b k = a k := by
        intro k k1 k2; simp [hb, Equiv.swap_apply_of_ne_of_ne k1 k2]
      have blo : ∀ k, left ≤ k → k < i' + 1 → key (b k) ≤ p := by
        intro k k1 k2
        by_cases e : k = i'
        · rw [e, bi]; exact j3
        · by_cases e2 : k = j'
          · omega
          · rw [bo k e e2]; exact hlo' k k1 (by omega)
      have bhi : ∀ k, j' - 1 < k → k ≤ right → p ≤ key (b k) := by
        intro k k1 k2
        by_cases e : k = j'
        · rw [e, bj]; exact i3
        · by_cases e2 : k = i'
          · omega
          · rw [bo k e2 e]; exact hhi' k (by omega) k2
      by_cases hx : j' - 1 < i' + 1
      · refine ⟨b, i' + 1, j' - 1, ?_, ⟨hperm, hx, blo, bhi, by omega, by omega, by omega, by omega⟩⟩
        rw [partitionLoop, ei, ej]
        simp only [Option.bind_eq_bind, Option.bind_some, hc, hsw, hx, if_true]
      · obtain ⟨c, i2', j2', ec, pc⟩ := ih b (i' + 1) (j' - 1) (by omega) (by omega) (by omega) (by omega) blo bhi
          (Or.inr ⟨by omega, by omega, ⟨j', by omega, by omega, by rw [bj]; exact i3⟩,
            ⟨i', by omega, by omega, by rw [bi]; exact j3⟩⟩)
        refine ⟨c, i2', j2', ?_, { pc with perm := hperm.trans pc.perm }⟩
        rw [partitionLoop, ei, ej]
        simp only [Option.bind_eq_bind, Option.bind_some, hc, hsw, hx, ec, if_true, if_false]
    · have hx : j' < i' := by omega
      refine ⟨a, i', j', ?_, ⟨PermOn.refl _ _ _, hx, hlo', hhi', ?_, ?_, by omega, by omega⟩⟩
      · rw [partitionLoop, ei, ej]
        simp [hc, hx]
      · rcases hsent with ⟨q, q1, q2, e⟩ | ⟨h, _⟩
        · exfalso
          have h1 : i' ≤ q := by
            by_contra h; exact absurd (i4 q q1 (by omega)) (by rw [e]; exact lt_irrefl _)
          have h2 : q ≤ j' := by
            by_contra h; exact absurd (j4 q (by omega) q2) (by rw [e]; exact lt_irrefl _)
          omega
        · omega
      · rcases hsent with ⟨q, q1, q2, e⟩ | ⟨h, h', _⟩
        · exfalso
          have h1 : i' ≤ q := by
            by_contra h; exact absurd (i4 q q1 (by omega)) (by rw [e]; exact lt_irrefl _)
          have h2 : q ≤ j' := by
            by_contra h; exact absurd (j4 q (by omega) q2) (by rw [e]; exact lt_irrefl _)
          omega
        · omega

/-- The partition loop on a whole window whose pivot is the key of a window element. -/
theorem partition_ok {n : ℕ} (key : β → α) (p : α) (a : ℕ → β) {left right : ℕ} (h1 : 1 ≤ left) (hn : right ≤ n)
    (hlr : left ≤ right) (hq : ∃ q, left ≤ q ∧ q ≤ right ∧ key (a q) = p) :
    ∃ a' i' j', partitionLoop n key p a left right = some (a', i', j') ∧ Parted key p left right a a' i' j' :=
  partitionLoop_ok key p left right h1 hn _ a left right le_rfl le_rfl hlr le_rfl
    (fun k _ _ => by omega) (fun k _ _ => by omega) (Or.inl hq)

/-! ### quicksort -/

theorem quicksort_ok (thr : ℕ) {n : ℕ} (key : β → α) :
    ∀ m (a : ℕ → β) (left right : ℕ), right - left ≤ m → 1 ≤ left → right ≤ n →
      ∃ a', quicksort thr n key a left right = some a' ∧ PermOn left right a a' := by
  intro m
  induction m using Nat.strong_induction_on with
  | _ m ih =>
    intro a left right hm h1 hn
    by_cases ht : right - left ≤ thr
    · exact ⟨a, by rw [quicksort]; simp [ht], PermOn.refl _ _ _⟩
    · have hmid1 : left ≤ left + (right - left) / 2 := by omega
      have hmid2 : left + (right - left) / 2 ≤ right := by omega
      obtain ⟨b, i, j, eb, pb⟩ := partition_ok (n := n) key (key (a (left + (right - left) / 2))) a h1 hn (by omega)
        ⟨_, hmid1, hmid2, rfl⟩
      have pi := pb.i_gt
      have pj := pb.j_lt
      have pil := pb.i_le
      have hrd := rd_ok (a := a) (n := n) (i := left + (right - left) / 2) (by omega) (by omega)
      have hfirst : ∃ a2, (if left < j then quicksort thr n key b left j else some b) = some a2 ∧
          PermOn left right b a2 := by
        by_cases hl : left < j
        · obtain ⟨a2, e2, p2⟩ := ih (j - left) (by omega) b left j le_rfl h1 (by omega)
          exact ⟨a2, by simp [hl, e2], p2.mono le_rfl (by omega)⟩
        · exact ⟨b, by simp [hl], PermOn.refl _ _ _⟩
      obtain ⟨a2, e2, p2⟩ := hfirst
      have hsecond : ∃ a3, (if i < right then quicksort thr n key a2 i right else some a2) = some a3 ∧
          PermOn left right a2 a3 := by
        by_cases hl : i < right
        · obtain ⟨a3, e3, p3⟩ := ih (right - i) (by omega) a2 i right le_rfl (by omega) hn
          exact ⟨a3, by simp [hl, e3], p3.mono (by omega) le_rfl⟩
        · exact ⟨a2, by simp [hl], PermOn.refl _ _ _⟩
      obtain ⟨a3, e3, p3⟩ := hsecond
      refine ⟨a3, ?_, (pb.perm.trans p2).trans p3⟩
      rw [quicksort]
      simp only [ht, if_false, hrd, eb, Option.bind_eq_bind, Option.bind_some]
      rw [e2]
      exact e3

/-! ### insertion sort -/

/-- Ascending keys on the window `[l, r]`. -/
def SortedOn (key : β → α) (l r : ℕ) (a : ℕ → β) : Prop :=
  ∀ x y, l ≤ x → x ≤ y → y ≤ r → key (a x) ≤ key (a y)

theorem insShift_ok {n left : ℕ} (key : β → α) (cur : β) (h1 : 1 ≤ left) :
    ∀ d (a : ℕ → β) (j : ℕ) (i : ℕ), j + 1 = left + d → j + 1 ≤ i → i ≤ n →
      SortedOn key left j a → 
      (∀ x y, left ≤ x → x ≤ j → j + 1 < y → y ≤ i → key (a x) ≤ key (a y)) →
      SortedOn key (j + 2) i a →
      (∀ y, j + 1 < y → y ≤ i → key cur < key (a y)) →
      ∃ b j', insShift n left key (key cur) a j = some (b, j') ∧ left ≤ j' + 1 ∧ j' + 1 ≤ i ∧
        PermOn left i (Function.update a (j + 1) cur) (Function.update b (j' + 1) cur) ∧
        SortedOn key left i (Function.update b (j' + 1) cur) := by
  intro d
  induction d with
  | zero =>
    intro a j i hd hji hin hs hx hs2 hc
    have hlj : ¬ left ≤ j := by omega
    refine ⟨a, j, by rw [insShift]; simp [hlj], by omega, hji, PermOn.refl _ _ _, ?_⟩
    intro x y x1 xy y1
    by_cases ex : x = j + 1
    · by_cases ey : y = j + 1
      · rw [ex, ey]
      · rw [ex, Function.update_self, Function.update_of_ne ey]
        exact (hc y (by omega) y1).le
    · rw [Function.update_of_ne ex, Function.update_of_ne (by omega : y ≠ j + 1)]
      exact hs2 x y (by omega) xy y1
  | succ d ih =>
    intro a j i hd hji hin hs hx hs2 hc
    have hlj : left ≤ j := by omega
    by_cases hlt : key cur < key (a j)
    · set a' := Function.update a (j + 1) (a j) with ha'
      have hwr := wr_ok (n := n) (a := a) (i := j + 1) (v := a j) (by omega) (by omega)
      have a'ne : ∀ x, x ≠ j + 1 → a' x = a x := fun x hx => by simp [ha', hx]
      have a'eq : a' (j + 1) = a j := by simp [ha']
      have hj1 : j - 1 + 1 = j := by omega
      obtain ⟨b, j', e, l1, l2, p, s⟩ := ih a' (j - 1) i (by omega) (by omega) hin
        (by intro x y x1 xy y1
            rw [a'ne x (by omega), a'ne y (by omega)]; exact hs x y x1 xy (by omega))
        (by intro x y x1 x2 y1 y2
            rw [a'ne x (by omega)]
            by_cases ey : y = j + 1
            · rw [ey, a'eq]; exact hs x j x1 (by omega) le_rfl
            · rw [a'ne y ey]; exact hx x y x1 (by omega) (by omega) y2)
        (by intro x y x1 xy y1
            by_cases ey : y = j + 1
            · have : x = j + 1 := by omega
              rw [this, ey]
            · rw [a'ne y ey]
              by_cases ex : x = j + 1
              · rw [ex, a'eq]; exact hx j y hlj le_rfl (by omega) y1
              · rw [a'ne x ex]; exact hs2 x y (by omega) xy y1)
        (by intro y y1 y2
            by_cases ey : y = j + 1
            · rw [ey, a'eq]; exact hlt
            · rw [a'ne y ey]; exact hc y (by omega) y2)
      refine ⟨b, j', ?_, l1, l2, ?_, s⟩
      · rw [insShift, if_pos hlj, rd_ok (by omega) (by omega)]
        simp [hlt, hwr]
        exact e
      · refine PermOn.trans ?_ p
        rw [hj1]
        have : Function.update a' j cur = (Function.update a (j + 1) cur) ∘ Equiv.swap j (j + 1) := by
          ext x
          by_cases e1 : x = j
          · subst e1; simp
          · by_cases e2 : x = j + 1
            · subst e2; simp [ha']
            · simp [e1, e2, ha', Equiv.swap_apply_of_ne_of_ne e1 e2]
        rw [this]
        exact permOn_swap _ (by omega) (by omega) (by omega) (by omega)
    · refine ⟨a, j, ?_, by omega, hji, PermOn.refl _ _ _, ?_⟩
      · rw [insShift, if_pos hlj, rd_ok (by omega) (by omega)]
        simp [hlt]
      · have hle : key (a j) ≤ key cur := not_lt.mp hlt
        intro x y x1 xy y1
        by_cases ex : x = j + 1
        · by_cases ey : y = j + 1
          · rw [ex, ey]
          · rw [ex, Function.update_self, Function.update_of_ne ey]
            exact (hc y (by omega) y1).le
        · rw [Function.update_of_ne ex]
          by_cases ey : y = j + 1
          · rw [ey, Function.update_self]
            exact (hs x j x1 (by omega) le_rfl).trans hle
          · rw [Function.update_of_ne ey]
            rcases Nat.lt_or_ge j x with h | h
            · exact hs2 x y (by omega) xy y1
            · rcases Nat.lt_or_ge j y with h' | h'
              · exact hx x y x1 h (by omega) y1
              · exact hs x y x1 xy h'

theorem insertionSort_ok {n : ℕ} (key : β → α) (a : ℕ → β) {left right : ℕ} (h1 : 1 ≤ left) (hn : right ≤ n) :
    ∃ a', insertionSort n key a left right = some a' ∧ PermOn left right a a' ∧ SortedOn key left right a' := by
  unfold insertionSort
  by_cases hlr : left ≤ right
  · obtain ⟨a', e, p⟩ := doLoopM_inv (lo := left + 1) (hi := right) (by omega) (s := a)
      (f := fun i a => do
        let current ← rd n a i
        let r ← insShift n left key (key current) a (i - 1)
        wr n r.1 (r.2 + 1) current)
      (fun i b => PermOn left right a b ∧ SortedOn key left (i - 1) b)
      ⟨PermOn.refl _ _ _, by
        intro x y x1 xy y1
        have : x = y := by omega
        rw [this]⟩
      (by
        intro i b i1 i2 hb
        obtain ⟨hp, hs⟩ := hb
        obtain ⟨c, j', e, l1, l2, p, s⟩ := insShift_ok (n := n) (left := left) key (b i) h1 (i - left) b (i - 1) i
          (by omega) (by omega) (by omega) hs (fun x y _ _ _ _ => by omega) (fun x y _ _ _ => by omega)
          (fun y _ _ => by omega)
        refine ⟨Function.update c (j' + 1) (b i), ?_, ?_, ?_⟩
        · rw [rd_ok (by omega) (by omega)]
          simp only [Option.bind_eq_bind, Option.bind_some, e]
          rw [wr_ok (by omega) (by omega)]
        · refine hp.trans (PermOn.mono ?_ le_rfl i2)
          rw [show i - 1 + 1 = i by omega, Function.update_eq_self] at p
          exact p
        · simpa using s)
    exact ⟨a', e, p.1, by simpa using p.2⟩
  · exact ⟨a, doLoopM_zero (by omega) _ _, PermOn.refl _ _ _, fun x y _ _ _ => by omega⟩

theorem sortedOn_iff_pairwise {n : ℕ} (a : ℕ → α) : SortedOn id 1 n a ↔ (bufList n a).Pairwise (· ≤ ·) := by
  unfold bufList
  rw [List.pairwise_map, List.pairwise_iff_getElem]
  constructor
  · intro h i j hi hj hij
    simp at hi hj ⊢
    exact h _ _ (by omega) (by omega) (by omega)
  · intro h x y x1 xy y1
    rcases Nat.eq_or_lt_of_le xy with rfl | xy
    · exact le_rfl
    · have := h (x - 1) (y - 1) (by simp; omega) (by simp; omega) (by omega)
      simp at this
      rwa [show x - 1 + 1 = x by omega, show y - 1 + 1 = y by omega] at this

/-! ### selection -/

theorem medianOfThree_mem (a b c : α) : medianOfThree a b c = a ∨ medianOfThree a b c = b ∨ medianOfThree a b c = c := by
  unfold medianOfThree; split_ifs <;> simp

/-- position `k` holds its order statistic -/
def SelectedAt (n k : ℕ) (a : ℕ → α) : Prop :=
  (∀ x, 1 ≤ x → x ≤ k → a x ≤ a k) ∧ ∀ x, k ≤ x → x ≤ n → a k ≤ a x

theorem selectLoop_ok {n k : ℕ} :
    ∀ m (a : ℕ → α) (left right : ℕ), right - left ≤ m → 1 ≤ left → left ≤ k → k ≤ right → right ≤ n →
      (∀ x y, 1 ≤ x → x < left → left ≤ y → y ≤ n → a x ≤ a y) →
      (∀ x y, 1 ≤ x → x ≤ right → right < y → y ≤ n → a x ≤ a y) →
      ∃ a', selectLoop n k a left right = some a' ∧ PermOn left right a a' ∧ SelectedAt n k a' := by
  intro m
  induction m using Nat.strong_induction_on with
  | _ m ih =>
    intro a left right hm h1 hlk hkr hn hL hR
    by_cases ht : 16 < right - left
    · have hmid1 : left ≤ left + (right - left) / 2 := by omega
      have hmid2 : left + (right - left) / 2 ≤ right := by omega
      set mid := left + (right - left) / 2 with hmid
      have hq : ∃ q, left ≤ q ∧ q ≤ right ∧ id (a q) = medianOfThree (a left) (a mid) (a right) := by
        rcases medianOfThree_mem (a left) (a mid) (a right) with h | h | h
        · exact ⟨left, by omega, by omega, h.symm⟩
        · exact ⟨mid, by omega, by omega, h.symm⟩
        · exact ⟨right, by omega, by omega, h.symm⟩
      obtain ⟨b, i, j, eb, pb⟩ := partition_ok (n := n) id (medianOfThree (a left) (a mid) (a right)) a h1 hn (by omega) hq
      set p := medianOfThree (a left) (a mid) (a right)
      have pi := pb.i_gt
      have pj := pb.j_lt
      have pil := pb.i_le
      have pc := pb.cross
      have blo : ∀ k, left ≤ k → k < i → b k ≤ p := pb.lo
      have bhi : ∀ k, j < k → k ≤ right → p ≤ b k := pb.hi
      have unf : selectLoop n k a left right =
          (if k ≤ j then selectLoop n k b left j else if i ≤ k then selectLoop n k b i right else some b) := by
        rw [selectLoop, if_pos ht, rd_ok (by omega : 1 ≤ left) (by omega), rd_ok (by omega : 1 ≤ right) (by omega),
          ← hmid, rd_ok (by omega : 1 ≤ mid) (by omega)]
        simp only [Option.bind_eq_bind, Option.bind_some]
        rw [eb]
        rfl
      -- facts about positions outside the window after the permutation
      have bL : ∀ x y, 1 ≤ x → x < left → left ≤ y → y ≤ n → b x ≤ b y := by
        intro x y x1 x2 y1 y2
        rw [pb.perm.out (Or.inl x2)]
        rcases Nat.lt_or_ge right y with h | h
        · rw [pb.perm.out (Or.inr h)]; exact hL x y x1 x2 y1 y2
        · obtain ⟨z, z1, z2, e⟩ := pb.perm.src y1 h
          rw [e]; exact hL x z x1 x2 z1 (by omega)
      have bR : ∀ x y, 1 ≤ x → x ≤ right → right < y → y ≤ n → b x ≤ b y := by
        intro x y x1 x2 y1 y2
        rw [pb.perm.out (Or.inr y1)]
        rcases Nat.lt_or_ge x left with h | h
        · rw [pb.perm.out (Or.inl h)]; exact hR x y x1 x2 y1 y2
        · obtain ⟨z, z1, z2, e⟩ := pb.perm.src h x2
          rw [e]; exact hR z y (by omega) z2 y1 y2
      by_cases hkj : k ≤ j
      · obtain ⟨c, ec, pcc, sc⟩ := ih (j - left) (by omega) b left j le_rfl h1 hlk hkj (by omega) bL
          (by
            intro x y x1 x2 y1 y2
            rcases Nat.lt_or_ge x left with h | h
            · exact bL x y x1 h (by omega) y2
            · rcases Nat.lt_or_ge right y with h' | h'
              · exact bR x y x1 (by omega) h' y2
              · exact (blo x h (by omega)).trans (bhi y y1 h'))
        exact ⟨c, by rw [unf]; simp [hkj, ec], pb.perm.trans (pcc.mono le_rfl (by omega)), sc⟩
      · by_cases hki : i ≤ k
        · obtain ⟨c, ec, pcc, sc⟩ := ih (right - i) (by omega) b i right le_rfl (by omega) hki hkr hn
            (by
              intro x y x1 x2 y1 y2
              rcases Nat.lt_or_ge x left with h | h
              · exact bL x y x1 h (by omega) y2
              · rcases Nat.lt_or_ge right y with h' | h'
                · exact bR x y x1 (by omega) h' y2
                · exact (blo x h x2).trans (bhi y (by omega) h')) bR
          exact ⟨c, by rw [unf]; simp [hkj, hki, ec], pb.perm.trans (pcc.mono (by omega) le_rfl), sc⟩
        · refine ⟨b, by rw [unf]; simp [hkj, hki], pb.perm, ?_, ?_⟩
          · intro x x1 x2
            rcases Nat.lt_or_ge x left with h | h
            · exact bL x k x1 h hlk (by omega)
            · exact (blo x h (by omega)).trans (bhi k (by omega) hkr)
          · intro x x1 x2
            rcases Nat.lt_or_ge right x with h | h
            · exact bR k x (by omega) hkr h x2
            · exact (blo k hlk (by omega)).trans (bhi x (by omega) h)
    · obtain ⟨c, ec, pc, sc⟩ := insertionSort_ok (n := n) id a h1 hn
      refine ⟨c, by rw [selectLoop, if_neg ht]; exact ec, pc, ?_, ?_⟩
      · intro x x1 x2
        rcases Nat.lt_or_ge x left with h | h
        · rw [pc.out (Or.inl h)]
          obtain ⟨z, z1, z2, e⟩ := pc.src hlk hkr
          rw [e]; exact hL x z x1 h z1 (by omega)
        · exact sc x k h x2 hkr
      · intro x x1 x2
        rcases Nat.lt_or_ge right x with h | h
        · rw [pc.out (Or.inr h)]
          obtain ⟨z, z1, z2, e⟩ := pc.src hlk hkr
          rw [e]; exact hR z x (by omega) z2 h x2
        · exact sc k x hlk x1 h

end Skyborn.MK
