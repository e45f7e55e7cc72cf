/-
C209, C214, C215, C218: which calls are refused, and that the outcome of a call depends on the grid, the radius and the
arguments only.
-/
import Verif.RedGauss.WindResults

namespace Skyborn.RedGauss

open Skyborn Sphere

variable {lib : Lib} {c c' : Cfg} {E E' : Env}

/-! ### Outcomes -/

/-- Two calls end the same way: both return, with results related by `R`, or both raise the same exception. -/
def Spec.SameOutcome {α : Type} (R : α → α → Prop) : Except Fail α → Except Fail α → Prop
  | .ok a, .ok b => R a b
  | .error e, .error f => e = f
  | _, _ => False

/-- Two pairs of arrays with the same elements. -/
def Spec.Eqv2 {α : Type} (p q : NDArr α × NDArr α) : Prop := p.1.Eqv q.1 ∧ p.2.Eqv q.2

theorem same_of_tri {α : Type} {x y : M α} {P P' : World × Caches → Prop} {φ φ' : α → Prop} {ε ε' : Fail → Prop} {R : α → α → Prop}
    (h : Tri P x φ ε) (h' : Tri P' y φ' ε') (hR : ∀ a b, φ a → φ' b → R a b) (h1 : ∀ a e, φ a → ¬ ε' e) (h2 : ∀ a e, φ' a → ¬ ε e) (h3 : ∀ e f, ε e → ε' f → e = f)
    {s t : World × Caches} (hs : P s) (ht : P' t) : Spec.SameOutcome R (exec x s).1 (exec y t).1 := by
  have hx := (h s hs).2
  have hy := (h' t ht).2
  revert hx hy
  cases (exec x s).1 <;> cases (exec y t).1 <;> intro hx hy
  · exact h3 _ _ hx hy
  · exact h2 _ _ hy hx
  · exact h1 _ _ hx hy
  · exact hR _ _ hx hy

theorem inB_cons {n : ℕ} {s idx : List ℕ} (h : InB (n :: s) idx) : ∃ p e, idx = p :: e ∧ p < n ∧ InB s e := by
  cases idx with
  | nil => exact h.elim
  | cons p e => exact ⟨p, e, rfl, h.1, h.2⟩

/-- Every packed position is a point of a row. -/
theorem packed_cases (pl : List ℕ) {p : ℕ} (h : p < pl.sum) : ∃ j i, 1 ≤ j ∧ j ≤ pl.length ∧ 1 ≤ i ∧ i ≤ Spec.row pl j ∧ p = (pl.take (j - 1)).sum + (i - 1) := by
  induction pl generalizing p with
  | nil => simp at h
  | cons a pl ih =>
    by_cases hp : p < a
    · exact ⟨1, p + 1, le_rfl, by simp, by omega, by simpa [Spec.row] using hp, by simp⟩
    · obtain ⟨j, i, h1, h2, h3, h4, h5⟩ := ih (p := p - a) (by simp at h; omega)
      refine ⟨j + 1, i, by omega, by simpa using h2, h3, ?_, ?_⟩
      · unfold Spec.row at h4 ⊢
        obtain ⟨q, rfl⟩ : ∃ q, j = q + 1 := ⟨j - 1, by omega⟩
        simpa using h4
      · obtain ⟨q, rfl⟩ : ∃ q, j = q + 1 := ⟨j - 1, by omega⟩
        simp at h5 ⊢
        omega

theorem packed_eqv {pl extra : List ℕ} {g h : NDArr ℝ} {F : List ℕ → ℕ → ℕ → ℝ} (hg : Spec.IsPacked pl extra g F) (hh : Spec.IsPacked pl extra h F) : g.Eqv h := by
  refine ⟨hg.1.trans hh.1.symm, fun idx hi => ?_⟩
  rw [hg.1] at hi
  obtain ⟨p, e, rfl, hp, he⟩ := inB_cons hi
  obtain ⟨j, i, h1, h2, h3, h4, rfl⟩ := packed_cases pl hp
  rw [hg.2 e he j i h1 h2 h3 h4, hh.2 e he j i h1 h2 h3 h4]

theorem spectrum_eqv {T : ℕ} {extra : List ℕ} {g h : NDArr ℂ} {F : List ℕ → ℕ → ℕ → ℂ} (hg : Sphere.Spec.IsSpectrum T extra g F) (hh : Sphere.Spec.IsSpectrum T extra h F) : g.Eqv h := by
  refine ⟨hg.1.trans hh.1.symm, fun idx hi => ?_⟩
  rw [hg.1] at hi
  obtain ⟨p, e, rfl, hp, he⟩ := inB_cons hi
  obtain ⟨⟨m, n⟩, ⟨h1, h2⟩, rfl⟩ := (Spectral.C43_bijection T).2.2 hp
  exact (hg.2 e he m n h1 h2).trans (hh.2 e he m n h1 h2).symm

theorem same_eqv2 {α : Type} {a b : NDArr α × NDArr α} (h1 : a.1.Eqv b.1) (h2 : a.2.Eqv b.2) : Spec.Eqv2 a b := ⟨h1, h2⟩

theorem gridRefusal_same {x : NDArr ℝ} {t : Option ℤ} {e f : Fail} (h : GridRefusal c x t e) (h' : GridRefusal c x t f) : e = f := by
  rcases h with ⟨rfl, h⟩ | ⟨rfl, ⟨ex, h, _⟩, T, hT⟩ <;> rcases h' with ⟨rfl, h'⟩ | ⟨rfl, ⟨ex', h', _⟩, T', hT'⟩
  · rfl
  · rcases h with h | h
    · exact absurd h' (h _)
    · exact absurd hT' (h _)
  · rcases h' with h' | h'
    · exact absurd h (h' _)
    · exact absurd hT (h' _)
  · rfl

theorem specRefusal_same {s : NDArr ℂ} {e f : Fail} (h : SpecRefusal c s e) (h' : SpecRefusal c s f) : e = f := by
  rcases h with ⟨rfl, h⟩ | ⟨rfl, T, ex, h, _⟩ <;> rcases h' with ⟨rfl, h'⟩ | ⟨rfl, T', ex', h', _⟩
  · rfl
  · exact absurd h' (h _ _)
  · exact absurd h (h' _ _)
  · rfl

theorem pairRefusal_same {s t : NDArr ℂ} {e f : Fail} (h : PairRefusal c s t e) (h' : PairRefusal c s t f) : e = f := by
  rcases h with ⟨rfl, h⟩ | ⟨rfl, T, ex, h, hst, _⟩ <;> rcases h' with ⟨rfl, h'⟩ | ⟨rfl, T', ex', h', hst', _⟩
  · rfl
  · rcases h with h | h
    · exact absurd hst'.symm h
    · exact absurd h' (h _ _)
  · rcases h' with h' | h'
    · exact absurd hst.symm h'
    · exact absurd h (h' _ _)
  · rfl

theorem windRefusal_same {u v : NDArr ℝ} {t : Option ℤ} {e f : Fail} (h : WindRefusal c u v t e) (h' : WindRefusal c u v t f) : e = f := by
  rcases h with ⟨rfl, h⟩ | ⟨rfl, ⟨ex, h, huv, _⟩, T, hT⟩ <;> rcases h' with ⟨rfl, h'⟩ | ⟨rfl, ⟨ex', h', huv', _⟩, T', hT'⟩
  · rfl
  · rcases h with h | h | h
    · exact absurd huv'.symm h
    · exact absurd h' (h _)
    · exact absurd hT' (h _)
  · rcases h' with h' | h' | h'
    · exact absurd huv.symm h'
    · exact absurd h (h' _)
    · exact absurd hT (h' _)
  · rfl

end Skyborn.RedGauss
