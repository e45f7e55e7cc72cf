/-
Parity and the derivative recurrence of the associated Legendre functions; the tables the code builds.
-/
import Verif.RedGauss.Paths

namespace Skyborn.RedGauss

open Skyborn Skyborn.Sphere Polynomial

/-! ### Functions -/

theorem rod_comp_neg (n k : ℕ) : (rod n k).comp (-X) = C ((-1) ^ k) * rod n k := by
  induction k with
  | zero => simp [rod]
  | succ k ih =>
    have h := congrArg derivative ih
    rw [derivative_comp, ← rod_succ, derivative_C_mul, ← rod_succ] at h
    simp only [derivative_neg, derivative_X] at h
    rw [pow_succ, C_mul]
    have : (rod n (k + 1)).comp (-X) = -(C ((-1) ^ k) * rod n (k + 1)) := by rw [← h]; ring
    rw [this]; simp

theorem rod_neg (n k : ℕ) (x : ℝ) : (rod n k).eval (-x) = (-1) ^ k * (rod n k).eval x := by
  have h := congrArg (fun p => p.eval x) (rod_comp_neg n k)
  simpa using h

theorem neg_one_sub {m n : ℕ} (h : m ≤ n) : (-1 : ℝ) ^ (n + m) = (-1) ^ (n - m) := by
  obtain ⟨d, rfl⟩ : ∃ d, n = m + d := ⟨n - m, by omega⟩
  rw [show m + d + m = 2 * m + d by omega, show m + d - m = d by omega, pow_add, pow_mul]
  simp

/-- Values in the two hemispheres. -/
theorem pbar_mirror {m n : ℕ} (h : m ≤ n) (θ : ℝ) : pbar m n (Real.pi - θ) = (-1) ^ (n - m) * pbar m n θ := by
  unfold pbar
  rw [Real.sin_pi_sub, Real.cos_pi_sub, rod_neg, neg_one_sub h]; ring

theorem dpbar_mirror {m n : ℕ} (h : m ≤ n) (θ : ℝ) : dpbar m n (Real.pi - θ) = -(-1) ^ (n - m) * dpbar m n θ := by
  unfold dpbar
  rw [Real.sin_pi_sub, Real.cos_pi_sub, rod_neg, rod_neg, pow_succ (-1 : ℝ) (n + m), neg_one_sub h]; ring

theorem rod_zero {n k : ℕ} (h : 2 * n < k) : rod n k = 0 := by
  unfold rod
  apply iterate_derivative_eq_zero
  refine lt_of_le_of_lt (natDegree_pow_le) ?_
  have : (X ^ 2 - 1 : ℝ[X]).natDegree ≤ 2 := by
    refine (natDegree_sub_le _ _).trans ?_
    simp
  calc n * (X ^ 2 - 1 : ℝ[X]).natDegree ≤ n * 2 := Nat.mul_le_mul_left n this
    _ < k := by omega

/-- Derivatives of `(x²-1)^{n+1}` in terms of those of `(x²-1)^n`. -/
theorem rod_down (n : ℕ) : ∀ k : ℕ, rod (n + 1) (k + 1) = C (2 * ((n : ℝ) + 1)) * (X * rod n k + C (k : ℝ) * rod n (k - 1))
  | 0 => by
    have e : rod (n + 1) (0 + 1) = derivative ((X ^ 2 - 1 : ℝ[X]) ^ (n + 1)) := rfl
    have e0 : rod n 0 = (X ^ 2 - 1 : ℝ[X]) ^ n := rfl
    rw [e, e0, derivative_pow_succ]
    simp only [derivative_sub, derivative_X_sq, derivative_one, map_mul, map_add, map_one, map_natCast, map_ofNat, Nat.cast_zero, map_zero]
    ring
  | 1 => by
    rw [rod_succ, rod_down n 0]
    simp only [derivative_C_mul, derivative_add, derivative_mul, derivative_X, ← rod_succ, derivative_C, Nat.cast_zero, map_zero,
      Nat.cast_one, map_one]
    ring
  | k + 2 => by
    rw [rod_succ, rod_down n (k + 1)]
    simp only [derivative_C_mul, derivative_add, derivative_mul, derivative_X, ← rod_succ, derivative_C, Nat.add_sub_cancel,
      Nat.cast_add, Nat.cast_one, Nat.cast_ofNat, map_add, map_one, map_natCast, map_ofNat, show k + 2 - 1 = k + 1 by omega,
      derivative_natCast, derivative_one]
    ring

/-- The polynomial part of the derivative recurrence. -/
theorem rod_step (n m : ℕ) (hm : m ≤ n + 1) (x : ℝ) :
    (1 - x ^ 2) * (rod (n + 1) (n + 1 + m + 1)).eval x + ((n : ℝ) + 1 - m) * x * (rod (n + 1) (n + 1 + m)).eval x
      = 2 * ((n : ℝ) + 1) * ((n : ℝ) + 1 + m) * (rod n (n + m)).eval x := by
  have e1 := congrArg (fun p => p.eval x) (rod_down n (n + 1 + m))
  have e2 := congrArg (fun p => p.eval x) (rod_down n (n + m))
  simp only [eval_mul, eval_add, eval_X, eval_C, show n + 1 + m - 1 = n + m by omega] at e1 e2
  rw [show n + 1 + m = n + m + 1 by omega] at e1 ⊢
  rw [e1, e2]
  rcases Nat.eq_zero_or_pos (n + m) with h0 | h0
  · have hn : n = 0 := by omega
    have hm0 : m = 0 := by omega
    subst hn; subst hm0
    simp [rod_zero (n := 0) (k := 1) (by omega)]
    simp [rod]; ring
  · have o := congrArg (fun p => p.eval x) (rod_rec n (n + m - 1))
    simp only [eval_add, eval_mul, eval_sub, eval_pow, eval_X, eval_one, eval_C, show n + m - 1 + 2 = n + m + 1 by omega,
      show n + m - 1 + 1 = n + m by omega] at o
    have ec : ((n + m - 1 : ℕ) : ℝ) = (n : ℝ) + m - 1 := by rw [Nat.cast_sub (by omega)]; push_cast; ring
    rw [ec] at o
    push_cast
    generalize (rod n (n + m + 1)).eval x = y2 at *
    generalize (rod n (n + m)).eval x = y1 at *
    generalize (rod n (n + m - 1)).eval x = y0 at *
    linear_combination (-2 * ((n : ℝ) + 1) * x) * o

/-- The coefficient of the recurrence (f90:279-282). -/
noncomputable def recCoef (n m : ℕ) : ℝ := Real.sqrt ((((2 * n + 1) * (n * n - m * m) : ℕ) : ℝ) / ((2 * n - 1 : ℕ) : ℝ))

theorem norm_step {m n : ℕ} (h : m ≤ n) : Sphere.norm m (n + 1) * (2 * ((n : ℝ) + 1) * ((n : ℝ) + 1 + m)) = recCoef (n + 1) m * Sphere.norm m n := by
  unfold Sphere.norm recCoef
  have e1 : (n + 1 - m).factorial = (n + 1 - m) * (n - m).factorial := by
    rw [show n + 1 - m = (n - m) + 1 by omega, Nat.factorial_succ]
  have e2 : (n + 1 + m).factorial = (n + 1 + m) * (n + m).factorial := by
    rw [show n + 1 + m = (n + m) + 1 by omega, Nat.factorial_succ]
  have e3 : ((2 * (n + 1) - 1 : ℕ) : ℝ) = 2 * n + 1 := by rw [show 2 * (n + 1) - 1 = 2 * n + 1 by omega]; push_cast; ring
  have e4 : (((2 * (n + 1) + 1) * ((n + 1) * (n + 1) - m * m) : ℕ) : ℝ) = (2 * n + 3) * (((n : ℝ) + 1 - m) * (n + 1 + m)) := by
    rw [Nat.cast_mul, Nat.cast_sub (Nat.mul_le_mul (by omega) (by omega))]; push_cast; ring
  have e5 : ((n + 1 - m : ℕ) : ℝ) = (n : ℝ) + 1 - m := by rw [Nat.cast_sub (by omega)]; push_cast; ring
  have hm' : (m : ℝ) ≤ n := by exact_mod_cast h
  have hA : (0 : ℝ) < (n - m).factorial := by positivity
  have hB : (0 : ℝ) < (n + m).factorial := by positivity
  have hd : (0 : ℝ) ≤ (n : ℝ) + 1 - m := by linarith
  rw [e1, e2, e3, e4, Nat.factorial_succ, pow_succ]
  push_cast
  rw [e5]
  have key : Real.sqrt ((2 * ((n : ℝ) + 1) + 1) * (((n : ℝ) + 1 - m) * (n - m).factorial) / (2 * ((n + 1 + m) * (n + m).factorial))) * ((n : ℝ) + 1 + m)
      = Real.sqrt ((2 * n + 3) * (((n : ℝ) + 1 - m) * (n + 1 + m)) / (2 * n + 1)) * Real.sqrt ((2 * n + 1) * (n - m).factorial / (2 * (n + m).factorial)) := by
    have hp : (0 : ℝ) ≤ (n : ℝ) + 1 + m := by positivity
    have hp' : (n : ℝ) + 1 + m ≠ 0 := by positivity
    rw [← Real.sqrt_mul (by positivity)]
    nth_rewrite 2 [← Real.sqrt_sq hp]
    rw [← Real.sqrt_mul (by positivity)]
    congr 1
    field_simp
    ring
  have hn1 : ((n : ℝ) + 1) ≠ 0 := by positivity
  have hf : ((n.factorial : ℕ) : ℝ) ≠ 0 := by positivity
  rw [div_mul_eq_mul_div, ← mul_div_assoc, div_eq_div_iff (by positivity) (by positivity)]
  linear_combination (2 * ((n : ℝ) + 1) * (2 ^ n * n.factorial)) * key

/-- **The derivative recurrence** the code uses. -/
theorem dpbar_rec {m n : ℕ} (h : m ≤ n) (θ : ℝ) :
    Real.sin θ * dpbar m (n + 1) θ = (n + 1 : ℕ) * Real.cos θ * pbar m (n + 1) θ - recCoef (n + 1) m * pbar m n θ := by
  have st := rod_step n m (by omega) (Real.cos θ)
  have hs : 1 - Real.cos θ ^ 2 = Real.sin θ ^ 2 := by rw [← Real.sin_sq_add_cos_sq θ]; ring
  rw [hs] at st
  have hn := norm_step h
  unfold dpbar pbar
  have e : Real.sin θ * ((m : ℝ) * Real.sin θ ^ (m - 1)) = m * Real.sin θ ^ m := by
    rcases m with _ | m
    · simp
    · rw [Nat.add_sub_cancel, pow_succ]; ring
  push_cast
  generalize (rod (n + 1) (n + 1 + m + 1)).eval (Real.cos θ) = y2 at *
  generalize (rod (n + 1) (n + 1 + m)).eval (Real.cos θ) = y1 at *
  generalize (rod n (n + m)).eval (Real.cos θ) = y0 at *
  linear_combination (Sphere.norm m (n + 1) * Real.cos θ * y1) * e - Sphere.norm m (n + 1) * Real.sin θ ^ m * st - (Real.sin θ ^ m * y0) * hn

/-- The lowest degree of an order. -/
theorem dpbar_diag (m : ℕ) (θ : ℝ) : Real.sin θ * dpbar m m θ = m * Real.cos θ * pbar m m θ := by
  unfold dpbar pbar
  have e : Real.sin θ * ((m : ℝ) * Real.sin θ ^ (m - 1)) = m * Real.sin θ ^ m := by
    rcases m with _ | m
    · simp
    · rw [Nat.add_sub_cancel, pow_succ]; ring
  rw [rod_zero (n := m) (k := m + m + 1) (by omega)]
  simp only [eval_zero, mul_zero, sub_zero]
  linear_combination (Sphere.norm m m * Real.cos θ * (rod m (m + m)).eval (Real.cos θ)) * e

end Skyborn.RedGauss
