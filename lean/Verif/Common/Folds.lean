/- Folds over `List.range`, used for Python `for` loops. -/
import Verif.Common.Loops
import Mathlib.Algebra.BigOperators.Group.Finset.Basic

namespace Skyborn

theorem foldlM_range_inv {σ : Type*} {n : ℕ} {f : σ → ℕ → Option σ} {s : σ} (P : ℕ → σ → Prop) (h0 : P 0 s)
    (hs : ∀ i, i < n → ∀ s, P i s → ∃ s', f s i = some s' ∧ P (i + 1) s') :
    ∃ s', (List.range n).foldlM f s = some s' ∧ P n s' := by
  induction n with
  | zero => exact ⟨s, by simp, h0⟩
  | succ n ih =>
    obtain ⟨s1, e1, p1⟩ := ih fun i hi => hs i (by omega)
    obtain ⟨s2, e2, p2⟩ := hs n (by omega) s1 p1
    refine ⟨s2, ?_, p2⟩
    rw [List.range_succ, List.foldlM_append, e1]
    simp [e2]

theorem foldl_range_inv {σ : Type*} {n : ℕ} {f : σ → ℕ → σ} {s : σ} (P : ℕ → σ → Prop) (h0 : P 0 s)
    (hs : ∀ i, i < n → ∀ s, P i s → P (i + 1) (f s i)) : P n ((List.range n).foldl f s) := by
  induction n with
  | zero => exact h0
  | succ n ih =>
    rw [List.range_succ, List.foldl_append]
    exact hs n (by omega) _ (ih fun i hi => hs i (by omega))

/-- a `flatMap` over a range, as a multiset, is a finite sum -/
theorem coe_flatMap_range {β : Type*} (n : ℕ) (f : ℕ → List β) :
    (((List.range n).flatMap f : List β) : Multiset β) = ∑ i ∈ Finset.range n, (f i : Multiset β) := by
  induction n with
  | zero => simp
  | succ n ih =>
    rw [List.range_succ, List.flatMap_append, ← Multiset.coe_add, ih, Finset.sum_range_succ]
    simp

end Skyborn
