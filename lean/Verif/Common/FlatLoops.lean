/-
Rules for loops over flat (row-major) buffers.
-/
import Verif.Common.Grid2
import Mathlib.Algebra.BigOperators.Intervals
import Mathlib.Algebra.BigOperators.Group.Finset.Basic
import Mathlib.Tactic.Ring

namespace Skyborn

variable {α σ : Type}

theorem forM_congr {lo hi : ℕ} {s : σ} {f g : ℕ → σ → Option σ} (h : ∀ i, lo ≤ i → i < hi → ∀ s, f i s = g i s) :
    forM lo hi s f = forM lo hi s g := by
  unfold forM
  have : ∀ l : List ℕ, (∀ i ∈ l, lo ≤ i ∧ i < hi) → ∀ s, l.foldlM (fun s i => f i s) s = l.foldlM (fun s i => g i s) s := by
    intro l
    induction l with
    | nil => intros; rfl
    | cons a t ih =>
      intro hl s
      have ha := hl a (by simp)
      simp only [List.foldlM_cons]
      rw [h a ha.1 ha.2 s]
      congr 1
      funext s'
      exact ih (fun i hi => hl i (by simp [hi])) s'
  apply this
  intro i hi
  rw [List.mem_range'_1] at hi
  omega

/-- An accumulation loop is a sum. -/
theorem forM_sum {M : Type} [AddCommMonoid M] {lo hi : ℕ} (hle : lo ≤ hi) (s : M) {f : ℕ → M → Option M} (v : ℕ → M)
    (h : ∀ j, lo ≤ j → j < hi → ∀ s, f j s = some (s + v j)) : forM lo hi s f = some (s + ∑ j ∈ Finset.Ico lo hi, v j) := by
  obtain ⟨s', e, hs⟩ := forM_inv hle (f := f) (s := s) (fun i t => t = s + ∑ j ∈ Finset.Ico lo i, v j) (by simp)
    (by
      intro i t h1 h2 ht
      refine ⟨_, h i h1 h2 t, ?_⟩
      rw [ht, Finset.sum_Ico_succ_top h1, add_assoc])
  rw [e, hs]

/-- A loop writing `v j` at position `pos j`. -/
theorem forM_write {lo hi : ℕ} (hle : lo ≤ hi) {a : ℕ → α} {f : ℕ → (ℕ → α) → Option (ℕ → α)} (pos : ℕ → ℕ) (v : ℕ → α)
    (hinj : ∀ i j, lo ≤ i → i < hi → lo ≤ j → j < hi → pos i = pos j → i = j)
    (h : ∀ j, lo ≤ j → j < hi → ∀ b : ℕ → α, b (pos j) = a (pos j) →
      (∀ p, (∀ i, lo ≤ i → i < hi → pos i ≠ p) → b p = a p) → f j b = some (Function.update b (pos j) (v j))) :
    ∃ b, forM lo hi a f = some b ∧ (∀ j, lo ≤ j → j < hi → b (pos j) = v j) ∧
      ∀ p, (∀ j, lo ≤ j → j < hi → pos j ≠ p) → b p = a p := by
  obtain ⟨b, e, h1, h2⟩ := forM_inv hle (f := f) (s := a)
    (fun i b => (∀ j, lo ≤ j → j < i → b (pos j) = v j) ∧ ∀ p, (∀ j, lo ≤ j → j < i → pos j ≠ p) → b p = a p)
    ⟨by intro j h1 h2; omega, by intros; rfl⟩
    (by
      rintro i b h1 h2 ⟨hb1, hb2⟩
      refine ⟨_, h i h1 h2 b ?_ ?_, ?_, ?_⟩
      · apply hb2
        intro j h3 h4 h5
        have := hinj j i h3 (by omega) h1 h2 h5
        omega
      · intro p hp
        exact hb2 p fun j h3 h4 => hp j h3 (by omega)
      · intro j h3 h4
        rcases Nat.lt_succ_iff_lt_or_eq.mp h4 with h5 | h5
        · have : pos j ≠ pos i := fun e => by have := hinj j i h3 (by omega) h1 h2 e; omega
          rw [Function.update_of_ne this, hb1 j h3 h5]
        · subst h5; simp
      · intro p hp
        rw [Function.update_of_ne (hp i h1 (by omega)).symm]
        exact hb2 p fun j h3 h4 => hp j h3 (by omega))
  exact ⟨b, e, h1, h2⟩

theorem flat_lt {n m i j : ℕ} (hi : i < n) (hj : j < m) : i * m + j < n * m := by
  have : (i + 1) * m ≤ n * m := Nat.mul_le_mul_right m hi
  have e : (i + 1) * m = i * m + m := by ring
  omega

theorem flat_inj {m i j i' j' : ℕ} (hj : j < m) (hj' : j' < m) (h : i * m + j = i' * m + j') : i = i' ∧ j = j' := by
  have hm : 0 < m := by omega
  have h1 : (i * m + j) / m = i := by rw [Nat.add_comm, Nat.add_mul_div_right _ _ hm, Nat.div_eq_of_lt hj, Nat.zero_add]
  have h2 : (i' * m + j') / m = i' := by rw [Nat.add_comm, Nat.add_mul_div_right _ _ hm, Nat.div_eq_of_lt hj', Nat.zero_add]
  have h3 : (i * m + j) % m = j := by rw [Nat.add_comm, Nat.add_mul_mod_self_right, Nat.mod_eq_of_lt hj]
  have h4 : (i' * m + j') % m = j' := by rw [Nat.add_comm, Nat.add_mul_mod_self_right, Nat.mod_eq_of_lt hj']
  rw [h] at h1 h3
  omega

/-- A double loop writing `v i j` at `off + (i * m + j)`. -/
theorem forM2_write {n m off : ℕ} {a : ℕ → α} {f : ℕ → ℕ → (ℕ → α) → Option (ℕ → α)} (v : ℕ → ℕ → α)
    (h : ∀ i j, i < n → j < m → ∀ b : ℕ → α,
      (∀ p, (∀ i j, i < n → j < m → off + (i * m + j) ≠ p) → b p = a p) →
      f i j b = some (Function.update b (off + (i * m + j)) (v i j))) :
    ∃ b, (forM 0 n a fun i a => forM 0 m a fun j a => f i j a) = some b ∧
      (∀ i j, i < n → j < m → b (off + (i * m + j)) = v i j) ∧
      ∀ p, (∀ i j, i < n → j < m → off + (i * m + j) ≠ p) → b p = a p := by
  obtain ⟨b, e, h1, h2⟩ := forM_inv (Nat.zero_le n) (f := fun i a => forM 0 m a fun j a => f i j a) (s := a)
    (fun r b => (∀ i j, i < r → j < m → b (off + (i * m + j)) = v i j) ∧
      ∀ p, (∀ i j, i < r → j < m → off + (i * m + j) ≠ p) → b p = a p)
    ⟨by intro i j h; omega, by intros; rfl⟩
    (by
      rintro r b - hr ⟨hb1, hb2⟩
      obtain ⟨b', e', h1, h2⟩ := forM_write (Nat.zero_le m) (a := b) (f := fun j a => f r j a) (fun j => off + (r * m + j)) (v r)
        (by intro i j _ _ _ _ e; omega)
        (by
          intro j _ hj c hc1 hc2
          apply h r j hr hj
          intro p hp
          rw [hc2 p fun i _ hi => hp r i hr hi]
          exact hb2 p fun i j h3 h4 => hp i j (by omega) h4)
      refine ⟨b', e', ?_, ?_⟩
      · intro i j h3 h4
        rcases Nat.lt_succ_iff_lt_or_eq.mp h3 with h5 | h5
        · rw [h2 _ fun k _ hk e => by have := flat_inj (m := m) hk h4 (by simpa using e); omega]
          exact hb1 i j h5 h4
        · subst h5; exact h1 j (Nat.zero_le _) h4
      · intro p hp
        rw [h2 p fun j _ hj => hp r j (by omega) hj]
        exact hb2 p fun i j h3 h4 => hp i j (by omega) h4)
  exact ⟨b, e, h1, h2⟩

end Skyborn
