import Verif.MK.Kernels
import Verif.MK.SortLemmas
import Verif.MK.Spec
import Mathlib.Algebra.BigOperators.Ring.Finset
import Mathlib.Algebra.Order.BigOperators.Group.Finset
import Mathlib.Algebra.Order.BigOperators.Ring.Finset
import Mathlib.Algebra.Module.NatInt
import Mathlib.Tactic.FieldSimp
import Mathlib.Tactic.Positivity
import Mathlib.Tactic.NormNum

namespace Skyborn.MK

open Skyborn Finset Spec

section sums
variable {M : Type*} [AddCommMonoid M]

theorem mem_pairs {n : ℕ} {p : ℕ × ℕ} : p ∈ pairs n ↔ 1 ≤ p.1 ∧ p.1 < p.2 ∧ p.2 ≤ n := by
  simp [pairs]; omega

theorem sum_rows (n : ℕ) (f : ℕ → ℕ → M) :
    ∑ i ∈ Icc 1 (n - 1), ∑ j ∈ Icc (i + 1) n, f i j = ∑ p ∈ pairs n, f p.1 p.2 := by
  rw [Finset.sum_sigma']
  refine Finset.sum_nbij' (fun x => (x.1, x.2)) (fun p => ⟨p.1, p.2⟩) ?_ ?_ ?_ ?_ ?_
  · rintro ⟨i, j⟩ h; simp [mem_pairs] at h ⊢; omega
  · rintro ⟨i, j⟩ h; simp [mem_pairs] at h ⊢; omega
  · rintro ⟨i, j⟩ _; rfl
  · rintro ⟨i, j⟩ _; rfl
  · rintro ⟨i, j⟩ _; rfl

theorem sum_lags (n : ℕ) (f : ℕ → ℕ → M) :
    ∑ lag ∈ Icc 1 (n - 1), ∑ i ∈ Icc 1 (n - lag), f i (i + lag) = ∑ p ∈ pairs n, f p.1 p.2 := by
  rw [Finset.sum_sigma']
  refine Finset.sum_nbij' (fun x => (x.2, x.2 + x.1)) (fun p => ⟨p.2 - p.1, p.1⟩) ?_ ?_ ?_ ?_ ?_
  · rintro ⟨i, j⟩ h; simp [mem_pairs] at h ⊢; omega
  · rintro ⟨i, j⟩ h; simp [mem_pairs] at h ⊢; omega
  · rintro ⟨i, j⟩ h; simp at h ⊢
  · rintro ⟨i, j⟩ h; simp [mem_pairs] at h ⊢; omega
  · rintro ⟨i, j⟩ _; rfl

theorem sum_square (n : ℕ) (f : ℕ → ℕ → M) :
    ∑ i ∈ Icc 1 n, ∑ j ∈ Icc 1 n, f i j =
      ∑ p ∈ pairs n, (f p.1 p.2 + f p.2 p.1) + ∑ i ∈ Icc 1 n, f i i := by
  rw [← Finset.sum_product', Finset.sum_add_distrib]
  rw [← Finset.sum_filter_add_sum_filter_not _ (fun p : ℕ × ℕ => p.1 < p.2)]
  rw [add_assoc]
  congr 1
  rw [← Finset.sum_filter_add_sum_filter_not _ (fun p : ℕ × ℕ => p.2 < p.1)]
  congr 1
  · refine Finset.sum_nbij' (fun x => (x.2, x.1)) (fun x => (x.2, x.1)) ?_ ?_ ?_ ?_ ?_
    · rintro ⟨i, j⟩ h; simp [mem_pairs] at h ⊢; omega
    · rintro ⟨i, j⟩ h; simp [mem_pairs] at h ⊢; omega
    · rintro ⟨i, j⟩ _; rfl
    · rintro ⟨i, j⟩ _; rfl
    · rintro ⟨i, j⟩ _; rfl
  · refine Finset.sum_nbij' (fun x => x.1) (fun x => (x, x)) ?_ ?_ ?_ ?_ ?_
    · rintro ⟨i, j⟩ h; simp at h ⊢; omega
    · rintro i h; simp at h ⊢; omega
    · rintro ⟨i, j⟩ h; simp at h ⊢; omega
    · rintro i _; rfl
    · rintro ⟨i, j⟩ h; simp at h
      have : i = j := by omega
      subst this; rfl

theorem card_pairs (n : ℕ) : 2 * (pairs n).card = n * (n - 1) := by
  have h := sum_square n (fun _ _ => (1 : ℕ))
  simp only [Finset.sum_const, Nat.card_Icc, smul_eq_mul, mul_one, Nat.add_sub_cancel] at h
  rcases n with _ | n
  · simpa using h
  · simp only [Nat.add_sub_cancel]
    nlinarith [h]

end sums

variable {K : Type} [Field K] [LinearOrder K] 

theorem sgn_pos {x : K} (h : 0 < x) : sgn x = 1 := by simp [sgn, sign_pos h]
theorem sgn_neg {x : K} (h : x < 0) : sgn x = -1 := by simp [sgn, sign_neg h]
theorem sgn_zero : sgn (0 : K) = 0 := by simp [sgn]

variable [IsStrictOrderedRing K]

theorem sgn_neg_eq (x : K) : sgn (-x) = -sgn x := by
  rcases lt_trichotomy x 0 with h | h | h
  · rw [sgn_neg h, sgn_pos (by linarith)]; ring
  · subst h; simp [sgn_zero]
  · rw [sgn_pos h, sgn_neg (by linarith)]

theorem sgn_swap (x y : K) : sgn (x - y) = -sgn (y - x) := by rw [← sgn_neg_eq, neg_sub]

theorem sgn_mul (x y : K) : sgn (x * y) = sgn x * sgn y := by
  simp [sgn, sign_mul]

theorem sgn_eq_signOf (d : K) : signOf d = sgn d := by
  unfold signOf
  rcases lt_trichotomy d 0 with h | h | h
  · simp [sgn_neg h, h, h.le]
  · subst h; simp [sgn_zero]
  · simp [sgn_pos h, h]

theorem abs_sgn_le (x : K) : |sgn x| ≤ 1 := by
  rcases lt_trichotomy x 0 with h | h | h
  · simp [sgn_neg h]
  · subst h; simp [sgn_zero]
  · simp [sgn_pos h]

theorem sgn_le_one (x : K) : sgn x ≤ 1 := (abs_le.mp (abs_sgn_le x)).2
theorem neg_one_le_sgn (x : K) : -1 ≤ sgn x := (abs_le.mp (abs_sgn_le x)).1

theorem sgn_eq_one_iff (x : K) : sgn x = 1 ↔ 0 < x := by
  rcases lt_trichotomy x 0 with h | h | h
  · rw [sgn_neg h]; constructor
    · intro h'; linarith
    · intro h'; linarith
  · subst h; simp [sgn_zero]
  · simp [sgn_pos h, h]

theorem sgn_eq_zero_iff (x : K) : sgn x = 0 ↔ x = 0 := by
  rcases lt_trichotomy x 0 with h | h | h
  · rw [sgn_neg h]; simp [h.ne]
  · subst h; simp [sgn_zero]
  · simp [sgn_pos h, h.ne']

/-- the comparison steps of the kernels add a sign -/
theorem step_sgn (a b s : K) : (if b > a then s + 1 else if b < a then s - 1 else s) = s + sgn (b - a) := by
  rcases lt_trichotomy a b with h | h | h
  · rw [sgn_pos (by linarith)]; simp [h]
  · subst h; simp [sgn_zero]
  · rw [sgn_neg (by linarith)]; simp [h, h.le, sub_eq_add_neg]

theorem sValue_eq_score (n : ℕ) (y : ℕ → K) : sValue n y = score n y := by
  unfold sValue score
  simp only [step_sgn, doLoop_add]
  rw [zero_add, sum_rows n (fun i j => sgn (y j - y i))]

/-! ### quickselect median -/

theorem selectKth_ok {n k : ℕ} (a : ℕ → K) (h1 : 1 ≤ k) (hk : k ≤ n) :
    ∃ b, selectKth n a k = some b ∧ PermOn 1 n a b ∧ SelectedAt n k b :=
  selectLoop_ok n a 1 n (by omega) le_rfl h1 hk le_rfl (fun x y _ _ _ _ => by omega) (fun x y _ _ _ _ => by omega)

end Skyborn.MK
