/-
Loop and buffer primitives shared by the models of the Fortran and C kernels.
-/
import Mathlib.Algebra.BigOperators.Intervals
import Mathlib.Algebra.BigOperators.Group.Finset.Basic
import Mathlib.Data.List.Basic
import Mathlib.Tactic.Ring
import Mathlib.Tactic.Linarith

namespace Skyborn

variable {α σ : Type*}

/-- A Fortran counted loop `do i = lo, hi ... end do` (zero trips when `hi < lo`), the loop body being a
state transformer. Models the language construct used throughout
`/repo/src/skyborn/calc/mann_kendall/fortran/mann_kendall_core.f90`. -/
def doLoop (lo hi : ℕ) (s : σ) (f : ℕ → σ → σ) : σ :=
  (List.range' lo (hi + 1 - lo)).foldl (fun s i => f i s) s

/-- The same loop with a body that may fail (out-of-bounds access or non-terminating inner loop = `none`). -/
def doLoopM (lo hi : ℕ) (s : σ) (f : ℕ → σ → Option σ) : Option σ :=
  (List.range' lo (hi + 1 - lo)).foldlM (fun s i => f i s) s

/-- Bounds-checked read of a 1-based buffer of length `n`. `none` = access outside the buffer. -/
def rd (n : ℕ) (a : ℕ → α) (i : ℕ) : Option α := if 1 ≤ i ∧ i ≤ n then some (a i) else none

/-- Bounds-checked write to a 1-based buffer of length `n`. `none` = access outside the buffer. -/
def wr (n : ℕ) (a : ℕ → α) (i : ℕ) (v : α) : Option (ℕ → α) :=
  if 1 ≤ i ∧ i ≤ n then some (Function.update a i v) else none

/-- Contents of positions `1..n` of a buffer, as a list. -/
def bufList (n : ℕ) (a : ℕ → α) : List α := (List.range n).map fun i => a (i + 1)

theorem rd_ok {n : ℕ} {a : ℕ → α} {i : ℕ} (h1 : 1 ≤ i) (h2 : i ≤ n) : rd n a i = some (a i) := by
  simp [rd, h1, h2]

theorem wr_ok {n : ℕ} {a : ℕ → α} {i : ℕ} {v : α} (h1 : 1 ≤ i) (h2 : i ≤ n) :
    wr n a i v = some (Function.update a i v) := by
  simp [wr, h1, h2]

@[simp] theorem bufList_length (n : ℕ) (a : ℕ → α) : (bufList n a).length = n := by simp [bufList]

theorem doLoop_zero {lo hi : ℕ} (h : hi < lo) (s : σ) (f : ℕ → σ → σ) : doLoop lo hi s f = s := by
  have : hi + 1 - lo = 0 := by omega
  simp [doLoop, this]

theorem doLoop_succ {lo hi : ℕ} (h : lo ≤ hi + 1) (s : σ) (f : ℕ → σ → σ) :
    doLoop lo (hi + 1) s f = f (hi + 1) (doLoop lo hi s f) := by
  unfold doLoop
  have h1 : hi + 1 + 1 - lo = (hi + 1 - lo) + 1 := by omega
  rw [h1, List.range'_1_concat, List.foldl_append]
  simp only [List.foldl_cons, List.foldl_nil]
  congr 1; omega

/-- Invariant rule for `doLoop`. -/
theorem doLoop_inv {lo hi : ℕ} (hle : lo ≤ hi + 1) {s : σ} {f : ℕ → σ → σ} (P : ℕ → σ → Prop) (h0 : P lo s)
    (hs : ∀ i s, lo ≤ i → i ≤ hi → P i s → P (i + 1) (f i s)) : P (hi + 1) (doLoop lo hi s f) := by
  have key : ∀ k s lo, (∀ i s, lo ≤ i → i < lo + k → P i s → P (i + 1) (f i s)) → P lo s →
      P (lo + k) ((List.range' lo k).foldl (fun s i => f i s) s) := by
    intro k
    induction k with
    | zero => intro s lo _ h; simpa using h
    | succ k ih =>
      intro s lo hs h
      rw [List.range'_succ, List.foldl_cons]
      have := ih (f lo s) (lo + 1) (fun i s h1 h2 => hs i s (by omega) (by omega)) (hs lo s le_rfl (by omega) h)
      rwa [show lo + (k + 1) = lo + 1 + k by omega]
  have := key (hi + 1 - lo) s lo (fun i s h1 h2 => hs i s h1 (by omega)) h0
  rwa [show lo + (hi + 1 - lo) = hi + 1 by omega] at this

/-- Invariant rule for `doLoopM`: every iteration succeeds, so the loop does. -/
theorem doLoopM_inv {lo hi : ℕ} (hle : lo ≤ hi + 1) {s : σ} {f : ℕ → σ → Option σ} (P : ℕ → σ → Prop)
    (h0 : P lo s)
    (hs : ∀ i s, lo ≤ i → i ≤ hi → P i s → ∃ s', f i s = some s' ∧ P (i + 1) s') :
    ∃ s', doLoopM lo hi s f = some s' ∧ P (hi + 1) s' := by
  have key : ∀ k s lo, (∀ i s, lo ≤ i → i < lo + k → P i s → ∃ s', f i s = some s' ∧ P (i + 1) s') → P lo s →
      ∃ s', (List.range' lo k).foldlM (fun s i => f i s) s = some s' ∧ P (lo + k) s' := by
    intro k
    induction k with
    | zero => intro s lo _ h; exact ⟨s, by simp, by simpa using h⟩
    | succ k ih =>
      intro s lo hs h
      obtain ⟨s1, e1, p1⟩ := hs lo s le_rfl (by omega) h
      obtain ⟨s2, e2, p2⟩ := ih s1 (lo + 1) (fun i s h1 h2 => hs i s (by omega) (by omega)) p1
      refine ⟨s2, ?_, by rwa [show lo + (k + 1) = lo + 1 + k by omega]⟩
      rw [List.range'_succ, List.foldlM_cons, e1]
      exact e2
  obtain ⟨s', e, p⟩ := key (hi + 1 - lo) s lo (fun i s h1 h2 => hs i s h1 (by omega)) h0
  exact ⟨s', e, by rwa [show lo + (hi + 1 - lo) = hi + 1 by omega] at p⟩

theorem doLoopM_zero {lo hi : ℕ} (h : hi < lo) (s : σ) (f : ℕ → σ → Option σ) :
    doLoopM lo hi s f = some s := by
  have : hi + 1 - lo = 0 := by omega
  simp [doLoopM, this]

/-- An accumulating loop computes a finite sum. -/
theorem doLoop_add {M : Type*} [AddCommMonoid M] (lo hi : ℕ) (s : M) (f : ℕ → M) :
    doLoop lo hi s (fun i s => s + f i) = s + ∑ i ∈ Finset.Icc lo hi, f i := by
  rcases Nat.lt_or_ge hi lo with h | h
  · rw [doLoop_zero h, Finset.Icc_eq_empty (by omega), Finset.sum_empty, add_zero]
  · induction hi with
    | zero =>
      have : lo = 0 := by omega
      subst this; simp [doLoop]
    | succ m ih =>
      rw [doLoop_succ h]
      rcases Nat.lt_or_ge m lo with h2 | h2
      · have : lo = m + 1 := by omega
        subst this
        rw [doLoop_zero (by omega)]; simp
      · rw [ih h2, ← Finset.insert_Icc_right_eq_Icc_add_one (by omega), Finset.sum_insert (by simp), add_assoc,
          add_comm (f (m+1))]

theorem doLoop_congr {lo hi : ℕ} {s : σ} {f g : ℕ → σ → σ}
    (h : ∀ i s, lo ≤ i → i ≤ hi → f i s = g i s) : doLoop lo hi s f = doLoop lo hi s g := by
  unfold doLoop
  have key : ∀ l : List ℕ, (∀ i ∈ l, lo ≤ i ∧ i ≤ hi) → ∀ s,
      l.foldl (fun s i => f i s) s = l.foldl (fun s i => g i s) s := by
    intro l
    induction l with
    | nil => intros; rfl
    | cons x xs ih =>
      intro hl s
      simp only [List.foldl_cons]
      rw [h x s (hl x (by simp)).1 (hl x (by simp)).2]
      exact ih (fun i hi => hl i (by simp [hi])) _
  apply key
  intro i hi
  simp [List.mem_range'_1] at hi
  omega

end Skyborn
