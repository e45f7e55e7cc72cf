/-
Proofs about the isentropic kernel of Verif/Interp/Isentropic.lean: the insertion sort, the two searches, one column.
-/
import Verif.Interp.Isentropic
import Mathlib.Tactic.Linarith

namespace Skyborn.Isen

theorem sortInner_spec (n : ℕ) (tx : ℝ) : ∀ j (x y : ℕ → ℝ), j + 1 ≤ n → ∃ x' y' j', sortInner n tx j x y = some (x', y', j') ∧ j' ≤ j ∧
    (∀ k, k ≤ j' → x' k = x k ∧ y' k = y k) ∧ (∀ k, j' + 1 < k → k ≤ j + 1 → x' k = x (k - 1) ∧ y' k = y (k - 1)) ∧
    (∀ k, j + 1 < k → x' k = x k ∧ y' k = y k) ∧ (∀ k, j' < k → k ≤ j → tx < x k) ∧ (1 ≤ j' → x j' ≤ tx) := by
  intro j
  induction j with
  | zero =>
    intro x y _
    refine ⟨x, y, 0, rfl, le_rfl, fun _ _ => ⟨rfl, rfl⟩, ?_, fun _ _ => ⟨rfl, rfl⟩, ?_, ?_⟩
    · intro k h1 h2; omega
    · intro k h1 h2; omega
    · intro h; omega
  | succ j ih =>
    intro x y hn
    rw [sortInner]
    by_cases hx : tx < x (j + 1)
    · obtain ⟨x', y', j', e, hj, h1, h2, h3, h4, h5⟩ := ih (Function.update x (j + 2) (x (j + 1))) (Function.update y (j + 2) (y (j + 1))) (by omega)
      refine ⟨x', y', j', ?_, by omega, ?_, ?_, ?_, ?_, ?_⟩
      · simp only [rd_ok (show 1 ≤ j + 1 by omega) (show j + 1 ≤ n by omega), wr_ok (show 1 ≤ j + 2 by omega) (show j + 2 ≤ n by omega),
          Option.bind_eq_bind, Option.bind_some, if_pos hx]
        exact e
      · intro k hk
        obtain ⟨a, b⟩ := h1 k hk
        rw [Function.update_of_ne (by omega)] at a b
        exact ⟨a, b⟩
      · intro k hk1 hk2
        by_cases hk : k = j + 2
        · subst hk
          obtain ⟨a, b⟩ := h3 (j + 2) (by omega)
          rw [Function.update_self] at a b
          exact ⟨a, b⟩
        · obtain ⟨a, b⟩ := h2 k hk1 (by omega)
          rw [Function.update_of_ne (by omega)] at a b
          exact ⟨a, b⟩
      · intro k hk
        obtain ⟨a, b⟩ := h3 k (by omega)
        rw [Function.update_of_ne (by omega)] at a b
        exact ⟨a, b⟩
      · intro k hk1 hk2
        by_cases hk : k = j + 1
        · subst hk; exact hx
        · have := h4 k hk1 (by omega)
          rwa [Function.update_of_ne (by omega)] at this
      · intro h
        have := h5 h
        rwa [Function.update_of_ne (by omega)] at this
    · refine ⟨x, y, j + 1, ?_, le_rfl, fun _ _ => ⟨rfl, rfl⟩, ?_, fun _ _ => ⟨rfl, rfl⟩, ?_, ?_⟩
      · simp only [rd_ok (show 1 ≤ j + 1 by omega) (show j + 1 ≤ n by omega), Option.bind_eq_bind, Option.bind_some, if_neg hx]
      · intro k h1 h2; omega
      · intro k h1 h2; omega
      · intro _; exact not_lt.1 hx

/-- Strictly increasing in (value, original position). -/
def Lex (x : ℕ → ℝ) (a b : ℕ) : Prop := x a < x b ∨ x a = x b ∧ a < b

theorem sortPairs_spec {n : ℕ} (hn : 1 ≤ n) (x y : ℕ → ℝ) : ∃ (x' y' : ℕ → ℝ) (σ : ℕ → ℕ), sortPairs n x y = some (x', y') ∧
    (∀ k, 1 ≤ k → k ≤ n → x' k = x (σ k) ∧ y' k = y (σ k) ∧ 1 ≤ σ k ∧ σ k ≤ n) ∧
    (∀ m, 1 ≤ m → m ≤ n → ∃ k, 1 ≤ k ∧ k ≤ n ∧ σ k = m) ∧
    (∀ k l, 1 ≤ k → k < l → l ≤ n → Lex x (σ k) (σ l)) := by
  rw [sortPairs]
  obtain ⟨s, e, σ, h1, h2, h3, h4, h5⟩ := doLoopM_inv (lo := 2) (hi := n) (by omega) (s := (x, y))
    (f := fun i s => do
      let tx ← rd n s.1 i
      let ty ← rd n s.2 i
      let r ← sortInner n tx (i - 1) s.1 s.2
      let x ← wr n r.1 (r.2.2 + 1) tx
      let y ← wr n r.2.1 (r.2.2 + 1) ty
      some (x, y))
    (fun i s => ∃ σ : ℕ → ℕ, (∀ k, s.1 k = x (σ k) ∧ s.2 k = y (σ k)) ∧ (∀ k, i ≤ k → σ k = k) ∧ (∀ k, 1 ≤ k → k < i → 1 ≤ σ k ∧ σ k < i) ∧
      (∀ m, 1 ≤ m → m < i → ∃ k, 1 ≤ k ∧ k < i ∧ σ k = m) ∧ (∀ k l, 1 ≤ k → k < l → l < i → Lex x (σ k) (σ l)))
    ⟨id, fun _ => ⟨rfl, rfl⟩, fun _ _ => rfl, fun k h1 h2 => ⟨h1, h2⟩, fun m h1 h2 => ⟨m, h1, h2, rfl⟩, by intro k l h1 h2 h3; omega⟩
    (by
      rintro i ⟨u, w⟩ hi1 hi2 ⟨σ, h1, h2, h3, h4, h5⟩
      simp only at h1
      obtain ⟨u', w', j', e, hj, g1, g2, g3, g4, g5⟩ := sortInner_spec n (u i) (i - 1) u w (by omega)
      simp only [rd_ok (show 1 ≤ i by omega) hi2, Option.bind_eq_bind, Option.bind_some, e, wr_ok (show 1 ≤ j' + 1 by omega) (show j' + 1 ≤ n by omega)]
      refine ⟨_, rfl, fun k => if k ≤ j' then σ k else if k = j' + 1 then i else if k ≤ i then σ (k - 1) else k, ?_, ?_, ?_, ?_, ?_⟩
      · intro k
        by_cases c1 : k ≤ j'
        · simp only [if_pos c1, Function.update_of_ne (show k ≠ j' + 1 by omega)]
          exact ⟨(g1 k c1).1.trans (h1 k).1, (g1 k c1).2.trans (h1 k).2⟩
        · by_cases c2 : k = j' + 1
          · subst c2
            simp only [if_neg c1, if_true, Function.update_self]
            have := h1 i
            rwa [h2 i le_rfl] at this
          · by_cases c3 : k ≤ i
            · simp only [if_neg c1, if_neg c2, if_pos c3, Function.update_of_ne c2]
              obtain ⟨a, b⟩ := g2 k (by omega) (by omega)
              exact ⟨a.trans (h1 _).1, b.trans (h1 _).2⟩
            · simp only [if_neg c1, if_neg c2, if_neg c3, Function.update_of_ne c2]
              obtain ⟨a, b⟩ := g3 k (by omega)
              have := h1 k
              rw [h2 k (by omega)] at this
              exact ⟨a.trans this.1, b.trans this.2⟩
      · intro k hk
        simp only [if_neg (show ¬ k ≤ j' by omega), if_neg (show k ≠ j' + 1 by omega), if_neg (show ¬ k ≤ i by omega)]
      · intro k k1 k2
        by_cases c1 : k ≤ j'
        · simp only [if_pos c1]
          have := h3 k k1 (by omega); omega
        · by_cases c2 : k = j' + 1
          · simp only [if_neg c1, if_pos c2]; omega
          · simp only [if_neg c1, if_neg c2, if_pos (show k ≤ i by omega)]
            have := h3 (k - 1) (by omega) (by omega); omega
      · intro m m1 m2
        by_cases hm : m = i
        · refine ⟨j' + 1, by omega, by omega, ?_⟩
          simp only [if_neg (show ¬ j' + 1 ≤ j' by omega), if_true, hm]
        · obtain ⟨k, k1, k2, k3⟩ := h4 m m1 (by omega)
          by_cases c1 : k ≤ j'
          · exact ⟨k, k1, by omega, by simp only [if_pos c1, k3]⟩
          · refine ⟨k + 1, by omega, by omega, ?_⟩
            simp only [if_neg (show ¬ k + 1 ≤ j' by omega), if_neg (show k + 1 ≠ j' + 1 by omega), if_pos (show k + 1 ≤ i by omega)]
            exact k3
      · have hui : u i = x i := by have := (h1 i).1; rwa [h2 i le_rfl] at this
        have lt_case : ∀ k, 1 ≤ k → k ≤ j' → Lex x (σ k) i := by
          intro k k1 k2
          have hb := h3 k k1 (by omega)
          have hj1 : x (σ j') ≤ x i := by rw [← (h1 j').1, ← hui]; exact g5 (by omega)
          have hle : x (σ k) ≤ x (σ j') := by
            by_cases hk : k = j'
            · rw [hk]
            · rcases h5 k j' k1 (by omega) (by omega) with h | h
              · exact le_of_lt h
              · exact le_of_eq h.1
          rcases lt_or_eq_of_le (hle.trans hj1) with h | h
          · exact Or.inl h
          · exact Or.inr ⟨h, hb.2⟩
        have gt_case : ∀ k, j' < k → k < i → Lex x i (σ k) := by
          intro k k1 k2
          left
          rw [← (h1 k).1, ← hui]
          exact g4 k k1 (by omega)
        intro k l k1 kl l2
        by_cases c1 : l ≤ j'
        · simp only [if_pos c1, if_pos (show k ≤ j' by omega)]
          exact h5 k l k1 kl (by omega)
        · by_cases c2 : l = j' + 1
          · simp only [if_neg c1, if_pos c2, if_pos (show k ≤ j' by omega)]
            exact lt_case k k1 (by omega)
          · simp only [if_neg c1, if_neg c2, if_pos (show l ≤ i by omega)]
            by_cases c3 : k ≤ j'
            · simp only [if_pos c3]
              exact h5 k (l - 1) k1 (by omega) (by omega)
            · by_cases c4 : k = j' + 1
              · simp only [if_neg c3, if_pos c4]
                exact gt_case (l - 1) (by omega) (by omega)
              · simp only [if_neg c3, if_neg c4, if_pos (show k ≤ i by omega)]
                exact h5 (k - 1) (l - 1) (by omega) (by omega) (by omega))
  refine ⟨s.1, s.2, σ, by rw [e], ?_, ?_, ?_⟩
  · intro k k1 k2
    have := h3 k k1 (by omega)
    exact ⟨(h1 k).1, (h1 k).2, this.1, by omega⟩
  · intro m m1 m2
    obtain ⟨k, a, b, c⟩ := h4 m m1 (by omega)
    exact ⟨k, a, by omega, c⟩
  · intro k l k1 kl l2
    exact h5 k l k1 kl (by omega)

theorem exactLoop_spec (n : ℕ) (x y : ℕ → ℝ) (t : ℝ) :
    ((∀ k, 1 ≤ k → k ≤ n → x k ≠ t) ∧ exactLoop n x y t = some none) ∨
    ∃ k, 1 ≤ k ∧ k ≤ n ∧ x k = t ∧ (∀ l, 1 ≤ l → l < k → x l ≠ t) ∧ exactLoop n x y t = some (some (y k)) := by
  rw [exactLoop]
  obtain ⟨s, e, h⟩ := doLoopM_inv (lo := 1) (hi := n) (by omega) (s := (none : Option ℝ))
    (f := fun k s =>
      match s with
      | some v => some (some v)
      | none => do
        let xk ← rd n x k
        if t = xk then do
          let yk ← rd n y k
          some (some yk)
        else some none)
    (fun j s => (s = none ∧ ∀ k, 1 ≤ k → k < j → x k ≠ t) ∨
      ∃ k, 1 ≤ k ∧ k < j ∧ x k = t ∧ (∀ l, 1 ≤ l → l < k → x l ≠ t) ∧ s = some (y k))
    (Or.inl ⟨rfl, by intro k h1 h2; omega⟩)
    (by
      rintro j s j1 j2 (⟨rfl, h⟩ | ⟨k, k1, k2, k3, k4, rfl⟩)
      · simp only [rd_ok j1 j2, Option.bind_eq_bind, Option.bind_some]
        by_cases hx : t = x j
        · rw [if_pos hx]
          exact ⟨_, rfl, Or.inr ⟨j, j1, by omega, hx.symm, h, rfl⟩⟩
        · rw [if_neg hx]
          refine ⟨_, rfl, Or.inl ⟨rfl, ?_⟩⟩
          intro k k1 k2
          by_cases hk : k = j
          · rw [hk]; exact fun h => hx h.symm
          · exact h k k1 (by omega)
      · exact ⟨_, rfl, Or.inr ⟨k, k1, by omega, k3, k4, rfl⟩⟩)
  rcases h with ⟨rfl, h⟩ | ⟨k, k1, k2, k3, k4, rfl⟩
  · exact Or.inl ⟨fun k k1 k2 => h k k1 (by omega), e⟩
  · exact Or.inr ⟨k, k1, by omega, k3, k4, e⟩

theorem intervalLoop_spec (n : ℕ) (x y : ℕ → ℝ) (t : ℝ) :
    ((∀ k, 1 ≤ k → k < n → ¬ (x k ≤ t ∧ t ≤ x (k + 1))) ∧ intervalLoop n x y t = some none) ∨
    ∃ k, 1 ≤ k ∧ k < n ∧ x k ≤ t ∧ t ≤ x (k + 1) ∧
      intervalLoop n x y t = some (some (if x (k + 1) = x k then y k else y k + (y (k + 1) - y k) * (t - x k) / (x (k + 1) - x k))) := by
  rw [intervalLoop]
  obtain ⟨s, e, h⟩ := doLoopM_inv (lo := 1) (hi := n - 1) (by omega) (s := (none : Option ℝ))
    (f := fun k s =>
      match s with
      | some v => some (some v)
      | none => do
        let x0 ← rd n x k
        let x1 ← rd n x (k + 1)
        if x0 ≤ t ∧ t ≤ x1 then do
          let y0 ← rd n y k
          let y1 ← rd n y (k + 1)
          if x1 = x0 then some (some y0) else some (some (y0 + (y1 - y0) * (t - x0) / (x1 - x0)))
        else some none)
    (fun j s => (s = none ∧ ∀ k, 1 ≤ k → k < j → ¬ (x k ≤ t ∧ t ≤ x (k + 1))) ∨
      ∃ k, 1 ≤ k ∧ k < j ∧ k < n ∧ x k ≤ t ∧ t ≤ x (k + 1) ∧
        s = some (if x (k + 1) = x k then y k else y k + (y (k + 1) - y k) * (t - x k) / (x (k + 1) - x k)))
    (Or.inl ⟨rfl, by intro k h1 h2; omega⟩)
    (by
      rintro j s j1 j2 (⟨rfl, h⟩ | ⟨k, k1, k2, k3, k4, k5, rfl⟩)
      · simp only [rd_ok j1 (show j ≤ n by omega), rd_ok (show 1 ≤ j + 1 by omega) (show j + 1 ≤ n by omega), Option.bind_eq_bind,
          Option.bind_some]
        by_cases hx : x j ≤ t ∧ t ≤ x (j + 1)
        · rw [if_pos hx]
          refine ⟨some (if x (j + 1) = x j then y j else y j + (y (j + 1) - y j) * (t - x j) / (x (j + 1) - x j)), ?_,
            Or.inr ⟨j, j1, by omega, by omega, hx.1, hx.2, rfl⟩⟩
          split <;> rfl
        · rw [if_neg hx]
          refine ⟨_, rfl, Or.inl ⟨rfl, ?_⟩⟩
          intro k k1 k2
          by_cases hk : k = j
          · rw [hk]; exact hx
          · exact h k k1 (by omega)
      · exact ⟨_, rfl, Or.inr ⟨k, k1, by omega, k3, k4, k5, rfl⟩⟩)
  rcases h with ⟨rfl, h⟩ | ⟨k, k1, k2, k3, k4, k5, rfl⟩
  · exact Or.inl ⟨fun k k1 k2 => h k k1 (by omega), e⟩
  · exact Or.inr ⟨k, k1, by omega, k4, k5, e⟩

/-- What one target of one column gets, in terms of the usable levels `U`, their potential temperatures `th` and values `val`. -/
structure RawSpec (U : ℕ → Prop) (th val : ℕ → ℝ) (t : ℝ) (ex : Bool) (spvl v : ℝ) : Prop where
  few : (∀ a b, U a → U b → a = b) → v = spvl
  below : ∀ a b, U a → U b → a ≠ b → (∀ k, U k → t < th k) → (ex = false → v = spvl) ∧
    ∀ m, ex = true → U m → (∀ k, U k → k = m ∨ Lex th m k) → v = val m
  above : ∀ a b, U a → U b → a ≠ b → (∀ k, U k → th k < t) → (ex = false → v = spvl) ∧
    ∀ m, ex = true → U m → (∀ k, U k → k = m ∨ Lex th k m) → v = val m
  exact : ∀ a b, U a → U b → a ≠ b → ∀ m, U m → th m = t → (∀ k, U k → th k = t → m ≤ k) → v = val m
  between : ∀ a b, U a → U b → th a < t → t < th b → (∀ k, U k → th k ≠ t) → (∀ k, U k → th k < t → k = a ∨ Lex th k a) →
    (∀ k, U k → t < th k → k = b ∨ Lex th b k) → v = val a + (val b - val a) * (t - th a) / (th b - th a)

theorem lex_irrefl {th : ℕ → ℝ} {a : ℕ} : ¬ Lex th a a := by
  rintro (h | h)
  · exact lt_irrefl _ h
  · exact lt_irrefl _ h.2

theorem lex_trans {th : ℕ → ℝ} {a b c : ℕ} (h : Lex th a b) (h' : Lex th b c) : Lex th a c := by
  rcases h with h | h <;> rcases h' with h' | h'
  · exact Or.inl (h.trans h')
  · exact Or.inl (h'.1 ▸ h)
  · exact Or.inl (h.1 ▸ h')
  · exact Or.inr ⟨h.1.trans h'.1, h.2.trans h'.2⟩

theorem lex_le {th : ℕ → ℝ} {a b : ℕ} (h : Lex th a b) : th a ≤ th b := by
  rcases h with h | h
  · exact le_of_lt h
  · exact le_of_eq h.1

/-- `interp_sorted_profile` on an enumeration `ρ` of the usable levels in (theta, level) order. -/
theorem interpSorted_spec {U : ℕ → Prop} {th val : ℕ → ℝ} {n : ℕ} {x y : ℕ → ℝ} {ρ : ℕ → ℕ} (hx : ∀ k, 1 ≤ k → k ≤ n → x k = th (ρ k) ∧ y k = val (ρ k) ∧ U (ρ k))
    (hs : ∀ m, U m → ∃ k, 1 ≤ k ∧ k ≤ n ∧ ρ k = m) (hl : ∀ k l, 1 ≤ k → k < l → l ≤ n → Lex th (ρ k) (ρ l)) (hn : 2 ≤ n) (t : ℝ) (ex : Bool)
    (spvl : ℝ) : ∃ v, interpSorted n x y t ex spvl = some v ∧ RawSpec U th val t ex spvl v := by
  have inj : ∀ k l, 1 ≤ k → k ≤ n → 1 ≤ l → l ≤ n → ρ k = ρ l → k = l := by
    intro k l k1 k2 l1 l2 h
    rcases lt_trichotomy k l with hkl | hkl | hkl
    · exact absurd (h ▸ hl k l k1 hkl l2) lex_irrefl
    · exact hkl
    · exact absurd (h ▸ hl l k l1 hkl k2) lex_irrefl
  have mono : ∀ k l, 1 ≤ k → k ≤ l → l ≤ n → th (ρ k) ≤ th (ρ l) := by
    intro k l k1 kl l2
    rcases Nat.lt_or_eq_of_le kl with h | h
    · exact lex_le (hl k l k1 h l2)
    · rw [h]
  have nofew : ¬ ∀ a b, U a → U b → a = b := by
    intro h
    have := h (ρ 1) (ρ 2) (hx 1 le_rfl (by omega)).2.2 (hx 2 (by omega) hn).2.2
    have := inj 1 2 le_rfl (by omega) (by omega) hn this
    omega
  -- the least and the greatest element
  have least : ∀ m, U m → (∀ k, U k → k = m ∨ Lex th m k) → m = ρ 1 := by
    intro m hm h
    rcases h (ρ 1) (hx 1 le_rfl (by omega)).2.2 with h | h
    · exact h.symm
    · obtain ⟨k, k1, k2, k3⟩ := hs m hm
      by_cases hk : k = 1
      · rw [← k3, hk]
      · have := hl 1 k le_rfl (by omega) k2
        rw [k3] at this
        exact absurd (lex_trans h this) lex_irrefl
  have greatest : ∀ m, U m → (∀ k, U k → k = m ∨ Lex th k m) → m = ρ n := by
    intro m hm h
    rcases h (ρ n) (hx n (by omega) le_rfl).2.2 with h | h
    · exact h.symm
    · obtain ⟨k, k1, k2, k3⟩ := hs m hm
      by_cases hk : k = n
      · rw [← k3, hk]
      · have := hl k n k1 (by omega) le_rfl
        rw [k3] at this
        exact absurd (lex_trans h this) lex_irrefl
  obtain ⟨x1, y1, u1⟩ := hx 1 le_rfl (by omega)
  obtain ⟨xn, yn, un⟩ := hx n (by omega) le_rfl
  rw [interpSorted, if_neg (by omega)]
  simp only [rd_ok (le_refl 1) (show 1 ≤ n by omega), rd_ok (show 1 ≤ n by omega) (le_refl n), Option.bind_eq_bind, Option.bind_some]
  by_cases c1 : t < x 1
  · rw [if_pos c1]
    have hall : ∀ k, U k → t < th k := by
      intro k hk
      obtain ⟨l, l1, l2, rfl⟩ := hs k hk
      have := mono 1 l le_rfl l1 l2
      rw [x1] at c1
      linarith
    refine ⟨if ex then y 1 else spvl, by cases ex <;> simp, fun h => absurd h nofew, ?_, ?_, ?_, ?_⟩
    · intro a b _ _ _ _
      constructor
      · rintro rfl; rfl
      · rintro m rfl hm h
        rw [least m hm h, ← y1]; rfl
    · intro a b ha _ _ h
      have := hall a ha; have := h a ha; linarith
    · intro a b _ _ _ m hm hmt _
      have := hall m hm; linarith
    · intro a b ha _ h _ _ _ _
      have := hall a ha; linarith
  · rw [if_neg c1]
    by_cases c2 : x n < t
    · rw [if_pos c2]
      have hall : ∀ k, U k → th k < t := by
        intro k hk
        obtain ⟨l, l1, l2, rfl⟩ := hs k hk
        have := mono l n l1 l2 le_rfl
        rw [xn] at c2
        linarith
      refine ⟨if ex then y n else spvl, by cases ex <;> simp, fun h => absurd h nofew, ?_, ?_, ?_, ?_⟩
      · intro a b ha _ _ h
        have := hall a ha; have := h a ha; linarith
      · intro a b _ _ _ _
        constructor
        · rintro rfl; rfl
        · rintro m rfl hm h
          rw [greatest m hm h, ← yn]; rfl
      · intro a b _ _ _ m hm hmt _
        have := hall m hm; linarith
      · intro a b _ hb _ h _ _ _
        have := hall b hb; linarith
    · rw [if_neg c2]
      have nb : ¬ ∀ k, U k → t < th k := fun h => c1 (x1 ▸ h _ u1)
      have na : ¬ ∀ k, U k → th k < t := fun h => c2 (xn ▸ h _ un)
      rcases exactLoop_spec n x y t with ⟨hne, e⟩ | ⟨k, k1, k2, k3, k4, e⟩
      · rw [e]
        simp only [Option.bind_some]
        have hne' : ∀ k, U k → th k ≠ t := by
          intro k hk
          obtain ⟨l, l1, l2, rfl⟩ := hs k hk
          rw [← (hx l l1 l2).1]
          exact hne l l1 l2
        rcases intervalLoop_spec n x y t with ⟨hni, _⟩ | ⟨k, k1, k2, k3, k4, e'⟩
        · exfalso
          have : ∀ k, 1 ≤ k → k ≤ n → x k ≤ t := by
            intro k k1
            induction k, k1 using Nat.le_induction with
            | base => intro _; exact not_lt.1 c1
            | succ k k1 ih =>
              intro k2
              by_contra h
              exact hni k k1 (by omega) ⟨ih (by omega), le_of_lt (not_le.1 h)⟩
          exact hne n (by omega) le_rfl (le_antisymm (this n (by omega) le_rfl) (not_lt.1 c2))
        · rw [e']
          simp only [Option.bind_some]
          have a1 := (hx k k1 (by omega)).1
          have b1 := (hx (k + 1) (by omega) (by omega)).1
          have l1 : x k < t := lt_of_le_of_ne k3 (hne k k1 (by omega))
          have l2 : t < x (k + 1) := lt_of_le_of_ne k4 (Ne.symm (hne (k + 1) (by omega) (by omega)))
          rw [if_neg (by linarith : x (k + 1) ≠ x k)]
          refine ⟨_, rfl, fun h => absurd h nofew, fun _ _ _ _ _ h => absurd h nb, fun _ _ _ _ _ h => absurd h na,
            fun _ _ _ _ _ m hm h => absurd h (hne' m hm), ?_⟩
          intro a b ha hb hat hbt _ hamax hbmin
          have eqa : a = ρ k := by
            obtain ⟨i, i1, i2, rfl⟩ := hs a ha
            have hik : i ≤ k := by
              by_contra hc
              have := mono (k + 1) i (by omega) (by omega) i2
              rw [b1] at l2; linarith
            rcases hamax (ρ k) (hx k k1 (by omega)).2.2 (a1 ▸ l1) with h | h
            · exact h.symm
            · rcases Nat.lt_or_eq_of_le hik with hlt | heq
              · exact absurd (lex_trans h (hl i k i1 hlt (by omega))) lex_irrefl
              · rw [heq]
          have eqb : b = ρ (k + 1) := by
            obtain ⟨i, i1, i2, rfl⟩ := hs b hb
            have hik : k + 1 ≤ i := by
              by_contra hc
              have := mono i k i1 (by omega) (by omega)
              rw [a1] at l1; linarith
            rcases hbmin (ρ (k + 1)) (hx (k + 1) (by omega) (by omega)).2.2 (b1 ▸ l2) with h | h
            · exact h.symm
            · rcases Nat.lt_or_eq_of_le hik with hlt | heq
              · exact absurd (lex_trans h (hl (k + 1) i (by omega) hlt i2)) lex_irrefl
              · rw [← heq]
          rw [eqa, eqb, ← a1, ← b1, ← (hx k k1 (by omega)).2.1, ← (hx (k + 1) (by omega) (by omega)).2.1]
      · rw [e]
        simp only [Option.bind_some]
        refine ⟨_, rfl, fun h => absurd h nofew, fun _ _ _ _ _ h => absurd h nb, fun _ _ _ _ _ h => absurd h na, ?_, ?_⟩
        · intro a b _ _ _ m hm hmt hfirst
          obtain ⟨i, i1, i2, rfl⟩ := hs m hm
          have hki : k ≤ i := by
            by_contra hc
            exact k4 i i1 (by omega) ((hx i i1 i2).1.trans hmt)
          rcases Nat.lt_or_eq_of_le hki with hlt | heq
          · rcases hl k i k1 hlt i2 with h | h
            · rw [← (hx k k1 k2).1, k3, hmt] at h; exact absurd h (lt_irrefl _)
            · have := hfirst (ρ k) (hx k k1 k2).2.2 (by rw [← (hx k k1 k2).1, k3])
              omega
          · rw [(hx k k1 k2).2.1, heq]
        · intro a b _ _ _ _ h _ _
          exact absurd (by rw [← (hx k k1 k2).1, k3]) (h _ (hx k k1 k2).2.2)

end Skyborn.Isen
