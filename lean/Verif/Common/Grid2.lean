/-
Bounds-checked 2-D buffers (0-based, C order) and Python/C `for .. in range(n)` loops.
-/
import Verif.Common.Folds

namespace Skyborn

variable {α σ : Type*}

/-- Read of `a[i, j]` in an `n0 x n1` buffer; `none` = access outside the buffer. -/
def rd2 (n0 n1 : ℕ) (a : ℕ → ℕ → α) (i j : ℕ) : Option α := if i < n0 ∧ j < n1 then some (a i j) else none

/-- The buffer after `a[i, j] = v`. -/
def set2 (a : ℕ → ℕ → α) (i j : ℕ) (v : α) : ℕ → ℕ → α := fun i' j' => if i' = i ∧ j' = j then v else a i' j'

/-- Write `a[i, j] = v` in an `n0 x n1` buffer; `none` = access outside the buffer. -/
def wr2 (n0 n1 : ℕ) (a : ℕ → ℕ → α) (i j : ℕ) (v : α) : Option (ℕ → ℕ → α) :=
  if i < n0 ∧ j < n1 then some (set2 a i j v) else none

/-- Read / write of a 0-based 1-D buffer of length `n`. -/
def rd0 (n : ℕ) (a : ℕ → α) (i : ℕ) : Option α := if i < n then some (a i) else none
def wr0 (n : ℕ) (a : ℕ → α) (i : ℕ) (v : α) : Option (ℕ → α) := if i < n then some (Function.update a i v) else none

/-- `for i in range(lo, hi): s = f(i, s)`. -/
def forM (lo hi : ℕ) (s : σ) (f : ℕ → σ → Option σ) : Option σ := (List.range' lo (hi - lo)).foldlM (fun s i => f i s) s

theorem rd2_ok {n0 n1 : ℕ} {a : ℕ → ℕ → α} {i j : ℕ} (hi : i < n0) (hj : j < n1) : rd2 n0 n1 a i j = some (a i j) := by
  simp [rd2, hi, hj]
theorem wr2_ok {n0 n1 : ℕ} {a : ℕ → ℕ → α} {i j : ℕ} {v : α} (hi : i < n0) (hj : j < n1) :
    wr2 n0 n1 a i j v = some (set2 a i j v) := by simp [wr2, hi, hj]
theorem rd0_ok {n : ℕ} {a : ℕ → α} {i : ℕ} (hi : i < n) : rd0 n a i = some (a i) := by simp [rd0, hi]
theorem wr0_ok {n : ℕ} {a : ℕ → α} {i : ℕ} {v : α} (hi : i < n) : wr0 n a i v = some (Function.update a i v) := by simp [wr0, hi]

@[simp] theorem set2_same (a : ℕ → ℕ → α) (i j : ℕ) (v : α) : set2 a i j v i j = v := by simp [set2]
theorem set2_ne {a : ℕ → ℕ → α} {i j i' j' : ℕ} {v : α} (h : ¬ (i' = i ∧ j' = j)) : set2 a i j v i' j' = a i' j' := by
  simp only [set2, if_neg h]

/-- Invariant rule: every iteration succeeds, so the loop does. -/
theorem forM_inv {lo hi : ℕ} (hle : lo ≤ hi) {s : σ} {f : ℕ → σ → Option σ} (P : ℕ → σ → Prop) (h0 : P lo s)
    (hs : ∀ i s, lo ≤ i → i < hi → P i s → ∃ s', f i s = some s' ∧ P (i + 1) s') : ∃ s', forM lo hi s f = some s' ∧ P hi s' := by
  rcases Nat.eq_zero_or_pos hi with h | h
  · have : lo = 0 := by omega
    subst h; subst this
    exact ⟨s, by simp [forM], h0⟩
  · obtain ⟨k, rfl⟩ : ∃ k, hi = k + 1 := ⟨hi - 1, by omega⟩
    exact doLoopM_inv (lo := lo) (hi := k) hle P h0 fun i s h1 h2 => hs i s h1 (by omega)

theorem forM_empty {lo hi : ℕ} (h : hi ≤ lo) (s : σ) (f : ℕ → σ → Option σ) : forM lo hi s f = some s := by
  simp [forM, Nat.sub_eq_zero_of_le h]

end Skyborn
