/-
N-dimensional NumPy arrays: shape + element function on multi-indices; C-order flattening.
Only multi-indices inside the shape (`InB`) are meaningful.
-/
import Mathlib.Data.List.Basic
import Mathlib.Algebra.BigOperators.Group.List.Basic
import Mathlib.Data.Nat.Basic
import Mathlib.Tactic.Ring
import Mathlib.Tactic.Linarith

namespace Skyborn

/-- multi-index inside a shape -/
def InB : List ℕ → List ℕ → Prop
  | [], [] => True
  | n :: s, i :: is => i < n ∧ InB s is
  | _, _ => False

/-- C-order (row-major) flat position of a multi-index: numpy's `ravel` order. -/
def ravel : List ℕ → List ℕ → ℕ
  | _ :: s, i :: is => i * s.prod + ravel s is
  | _, _ => 0

/-- Multi-index of a C-order flat position. -/
def unravel : List ℕ → ℕ → List ℕ
  | [], _ => []
  | _ :: s, k => (k / s.prod) :: unravel s (k % s.prod)

theorem InB.length {s is : List ℕ} (h : InB s is) : is.length = s.length := by
  induction s generalizing is with
  | nil => cases is with
    | nil => rfl
    | cons => exact absurd h (by simp [InB])
  | cons n s ih => cases is with
    | nil => exact absurd h (by simp [InB])
    | cons i is => simp [InB] at h; simp [ih h.2]

theorem ravel_lt {s is : List ℕ} (h : InB s is) : ravel s is < s.prod := by
  induction s generalizing is with
  | nil => cases is with
    | nil => simp [ravel]
    | cons => exact absurd h (by simp [InB])
  | cons n s ih => cases is with
    | nil => exact absurd h (by simp [InB])
    | cons i is =>
      simp only [InB] at h
      have := ih h.2
      simp only [ravel, List.prod_cons]
      calc i * s.prod + ravel s is < i * s.prod + s.prod := by omega
        _ = (i + 1) * s.prod := by ring
        _ ≤ n * s.prod := Nat.mul_le_mul_right _ h.1

theorem unravel_ravel {s is : List ℕ} (h : InB s is) : unravel s (ravel s is) = is := by
  induction s generalizing is with
  | nil => cases is with
    | nil => rfl
    | cons => exact absurd h (by simp [InB])
  | cons n s ih => cases is with
    | nil => exact absurd h (by simp [InB])
    | cons i is =>
      simp only [InB] at h
      have hl := ravel_lt h.2
      have hp : 0 < s.prod := by omega
      simp only [ravel, unravel]
      rw [show i * s.prod + ravel s is = ravel s is + s.prod * i by ring, Nat.add_mul_div_left _ _ hp,
        Nat.div_eq_of_lt hl, Nat.add_mul_mod_self_left, Nat.mod_eq_of_lt hl, ih h.2, zero_add]

theorem unravel_inB {s : List ℕ} {k : ℕ} (h : k < s.prod) : InB s (unravel s k) := by
  induction s generalizing k with
  | nil => simp [unravel, InB]
  | cons n s ih =>
    rw [List.prod_cons] at h
    have hp : 0 < s.prod := by
      rcases Nat.eq_zero_or_pos s.prod with h0 | h0
      · rw [h0] at h; simp at h
      · exact h0
    refine ⟨?_, ih (Nat.mod_lt _ hp)⟩
    rw [Nat.div_lt_iff_lt_mul hp]; exact h

theorem ravel_unravel {s : List ℕ} {k : ℕ} (h : k < s.prod) : ravel s (unravel s k) = k := by
  induction s generalizing k with
  | nil => simp at h; simp [unravel, ravel, h]
  | cons n s ih =>
    rw [List.prod_cons] at h
    have hp : 0 < s.prod := by
      rcases Nat.eq_zero_or_pos s.prod with h0 | h0
      · rw [h0] at h; simp at h
      · exact h0
    simp only [unravel, ravel, ih (Nat.mod_lt _ hp)]
    rw [mul_comm]; exact Nat.div_add_mod k s.prod

theorem InB_append {s t is js : List ℕ} (hl : is.length = s.length) :
    InB (s ++ t) (is ++ js) ↔ InB s is ∧ InB t js := by
  induction s generalizing is with
  | nil => cases is with
    | nil => simp [InB]
    | cons => simp at hl
  | cons n s ih => cases is with
    | nil => simp at hl
    | cons i is => simp only [List.cons_append, InB]; rw [ih (by simpa using hl), and_assoc]

theorem ravel_append {s t is js : List ℕ} (hl : is.length = s.length) :
    ravel (s ++ t) (is ++ js) = ravel s is * t.prod + ravel t js := by
  induction s generalizing is with
  | nil => cases is with
    | nil => simp [ravel]
    | cons => simp at hl
  | cons n s ih => cases is with
    | nil => simp at hl
    | cons i is =>
      simp only [List.cons_append, ravel]
      rw [ih (by simpa using hl), List.prod_append]; ring

/-- pointwise description of `InB` -/
theorem inB_iff {s is : List ℕ} : InB s is ↔ is.length = s.length ∧ ∀ j, j < s.length → is.getD j 0 < s.getD j 0 := by
  induction s generalizing is with
  | nil => cases is with
    | nil => simp [InB]
    | cons => simp [InB]
  | cons n s ih => cases is with
    | nil => simp [InB]
    | cons i is =>
      simp only [InB, ih, List.length_cons, Nat.add_right_cancel_iff]
      constructor
      · rintro ⟨h1, h2, h3⟩
        refine ⟨h2, ?_⟩
        intro j hj
        cases j with
        | zero => simpa using h1
        | succ j => simpa using h3 j (by omega)
      · rintro ⟨h1, h2⟩
        refine ⟨by simpa using h2 0 (by omega), h1, ?_⟩
        intro j hj
        simpa using h2 (j + 1) (by omega)

/-- A NumPy array. -/
structure NDArr (α : Type*) where
  /-- `a.shape` -/ shape : List ℕ
  /-- `a[i0, i1, ...]` -/ get : List ℕ → α

namespace NDArr
variable {α β : Type*}

/-- Equality of the arrays a user can observe: same shape and same elements. -/
def Eqv (a b : NDArr α) : Prop := a.shape = b.shape ∧ ∀ idx, InB a.shape idx → a.get idx = b.get idx

theorem Eqv.refl (a : NDArr α) : Eqv a a := ⟨rfl, fun _ _ => rfl⟩
theorem Eqv.symm {a b : NDArr α} (h : Eqv a b) : Eqv b a := ⟨h.1.symm, fun i hi => (h.2 i (h.1 ▸ hi)).symm⟩
theorem Eqv.trans {a b c : NDArr α} (h : Eqv a b) (h' : Eqv b c) : Eqv a c :=
  ⟨h.1.trans h'.1, fun i hi => (h.2 i hi).trans (h'.2 i (h.1 ▸ hi))⟩

/-- `np.reshape(a, newshape)` (C order); `none` = ValueError because the sizes differ. -/
def reshape (a : NDArr α) (newshape : List ℕ) : Option (NDArr α) :=
  if newshape.prod = a.shape.prod then
    some ⟨newshape, fun idx => a.get (unravel a.shape (ravel newshape idx))⟩
  else none

/-- `np.moveaxis(a, axis, 0)` for an already normalised axis. -/
def moveToFront (a : NDArr α) (axis : ℕ) : NDArr α :=
  ⟨a.shape.getD axis 0 :: a.shape.eraseIdx axis,
   fun idx => match idx with
    | [] => a.get []
    | t :: rest => a.get (rest.insertIdx axis t)⟩

end NDArr

theorem InB_insertIdx {s rest : List ℕ} {axis t : ℕ} (ha : axis < s.length) (hr : InB (s.eraseIdx axis) rest)
    (ht : t < s.getD axis 0) : InB s (rest.insertIdx axis t) := by
  induction s generalizing axis rest with
  | nil => simp at ha
  | cons n s ih =>
    cases axis with
    | zero => simp only [List.eraseIdx_zero, List.tail_cons] at hr; simpa [InB] using ⟨by simpa using ht, hr⟩
    | succ a =>
      cases rest with
      | nil => simp [InB] at hr
      | cons i is =>
        simp only [List.eraseIdx_cons_succ, InB] at hr
        simp only [List.insertIdx_succ_cons, InB]
        exact ⟨hr.1, ih (by simpa using ha) hr.2 (by simpa using ht)⟩

end Skyborn
