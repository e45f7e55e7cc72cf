/-
Orthonormality of the Legendre functions, and of the vector harmonics built from them, under Gaussian quadrature.
-/
import Verif.Sphere.Legendre
import Mathlib.Analysis.SpecialFunctions.Integrals.Basic
import Mathlib.MeasureTheory.Integral.IntervalIntegral.FundThmCalculus
import Mathlib.Algebra.Polynomial.Degree.Lemmas
import Mathlib.Topology.Algebra.Polynomial

namespace Skyborn.Sphere

open Polynomial

/-- `∫_{-1}^{1} p` -/
noncomputable def integ (p : ℝ[X]) : ℝ := ∫ x in (-1 : ℝ)..1, p.eval x

theorem integ_add (p q : ℝ[X]) : integ (p + q) = integ p + integ q := by
  unfold integ
  rw [← intervalIntegral.integral_add (p.continuous.intervalIntegrable _ _) (q.continuous.intervalIntegrable _ _)]
  simp only [eval_add]

theorem integ_smul (c : ℝ) (p : ℝ[X]) : integ (C c * p) = c * integ p := by
  unfold integ
  rw [← intervalIntegral.integral_const_mul]
  simp only [eval_mul, eval_C]

theorem integ_deriv (p : ℝ[X]) : integ (derivative p) = p.eval 1 - p.eval (-1) := by
  unfold integ
  exact intervalIntegral.integral_eq_sub_of_hasDerivAt (fun x _ => p.hasDerivAt x) ((derivative p).continuous.intervalIntegrable _ _)

theorem integ_one : integ 1 = 2 := by
  have := integ_deriv X
  simp only [derivative_X, eval_X] at this
  rw [this]; norm_num

/-- `1 - x²` -/
noncomputable def WW : ℝ[X] := 1 - X ^ 2

theorem WW_deriv : derivative WW = C (-2) * X := by
  unfold WW
  simp only [derivative_sub, derivative_one, derivative_X_sq, map_neg, map_ofNat]
  ring

theorem WW_ends : WW.eval 1 = 0 ∧ WW.eval (-1) = 0 := by
  unfold WW; constructor <;> simp

theorem WW_pow_deriv (m : ℕ) : derivative (WW ^ (m + 1)) = C (-2 * ((m : ℝ) + 1)) * X * WW ^ m := by
  rw [derivative_pow_succ, WW_deriv]
  simp only [map_mul, map_add, map_neg, map_one, map_natCast, map_ofNat]
  ring

theorem ode_poly (m n : ℕ) : WW * rod n (n + m + 2) = C (2 * ((m : ℝ) + 1)) * X * rod n (n + m + 1)
    + C ((m : ℝ) * (m + 1) - n * (n + 1)) * rod n (n + m) := by
  apply Polynomial.funext
  intro x
  have := rod_ode m n x
  unfold WW
  simp only [eval_add, eval_mul, eval_sub, eval_pow, eval_X, eval_one, eval_C]
  linear_combination -this

/-- The equation in Sturm–Liouville form. -/
theorem sturm (m n : ℕ) : derivative (WW ^ (m + 1) * rod n (n + m + 1)) = C ((m : ℝ) * (m + 1) - n * (n + 1)) * (WW ^ m * rod n (n + m)) := by
  have o := ode_poly m n
  rw [derivative_mul, ← rod_succ, WW_pow_deriv]
  simp only [map_mul, map_add, map_neg, map_one, map_natCast, map_ofNat, map_sub] at o ⊢
  linear_combination WW ^ m * o

theorem integ_by_parts (m n : ℕ) (S : ℝ[X]) :
    integ (WW ^ (m + 1) * rod n (n + m + 1) * derivative S) = ((n : ℝ) * (n + 1) - m * (m + 1)) * integ (WW ^ m * rod n (n + m) * S) := by
  have h := integ_deriv (WW ^ (m + 1) * rod n (n + m + 1) * S)
  rw [derivative_mul, sturm, integ_add] at h
  rw [show C ((m : ℝ) * (m + 1) - n * (n + 1)) * (WW ^ m * rod n (n + m)) * S = C ((m : ℝ) * (m + 1) - n * (n + 1)) * (WW ^ m * rod n (n + m) * S) by ring, integ_smul] at h
  simp only [eval_mul, eval_pow, WW_ends.1, WW_ends.2, zero_pow (Nat.succ_ne_zero m), zero_mul, sub_zero] at h
  linarith

theorem integ_orth {m n k : ℕ} (h : n ≠ k) : integ (WW ^ m * rod n (n + m) * rod k (k + m)) = 0 := by
  have h1 := integ_by_parts m n (rod k (k + m))
  have h2 := integ_by_parts m k (rod n (n + m))
  rw [← rod_succ] at h1 h2
  rw [show WW ^ (m + 1) * rod k (k + m + 1) * rod n (n + m + 1) = WW ^ (m + 1) * rod n (n + m + 1) * rod k (k + m + 1) by ring,
    show WW ^ m * rod k (k + m) * rod n (n + m) = WW ^ m * rod n (n + m) * rod k (k + m) by ring] at h2
  have h3 : ((n : ℝ) * (n + 1) - k * (k + 1)) * integ (WW ^ m * rod n (n + m) * rod k (k + m)) = 0 := by linarith
  rcases mul_eq_zero.mp h3 with h4 | h4
  · exfalso
    have h5 : ((n : ℝ) - k) * (n + k + 1) = 0 := by linarith
    rcases mul_eq_zero.mp h5 with h6 | h6
    · exact h (by exact_mod_cast sub_eq_zero.mp h6)
    · have : (0 : ℝ) ≤ n := Nat.cast_nonneg n
      have : (0 : ℝ) ≤ k := Nat.cast_nonneg k
      linarith
  · exact h4

theorem integ_WW (n : ℕ) : integ (WW ^ n) * ((2 * n + 1).factorial : ℝ) = 2 * (2 ^ n * (n.factorial : ℝ)) ^ 2 := by
  induction n with
  | zero => simp [integ_one]
  | succ n ih =>
    have h := integ_deriv (X * WW ^ (n + 1))
    rw [derivative_mul, WW_pow_deriv, derivative_X] at h
    have e : 1 * WW ^ (n + 1) + X * (C (-2 * ((n : ℝ) + 1)) * X * WW ^ n) = C (2 * (n : ℝ) + 3) * WW ^ (n + 1) + C (-2 * ((n : ℝ) + 1)) * WW ^ n := by
      have : (X : ℝ[X]) ^ 2 = 1 - WW := by unfold WW; ring
      simp only [map_mul, map_add, map_neg, map_one, map_natCast, map_ofNat]
      linear_combination (-2 * ((n : ℝ[X]) + 1)) * WW ^ n * this
    rw [e, integ_add, integ_smul, integ_smul] at h
    simp only [eval_mul, eval_pow, WW_ends.1, WW_ends.2, zero_pow (Nat.succ_ne_zero n), mul_zero, sub_zero] at h
    rw [show 2 * (n + 1) + 1 = (2 * n + 1 + 1) + 1 by ring, Nat.factorial_succ, Nat.factorial_succ, Nat.factorial_succ n]
    push_cast
    have h' : (2 * (n : ℝ) + 3) * integ (WW ^ (n + 1)) = 2 * ((n : ℝ) + 1) * integ (WW ^ n) := by linarith
    linear_combination (2 * (n : ℝ) + 2) * ((2 * n + 1).factorial : ℝ) * h' + 4 * ((n : ℝ) + 1) ^ 2 * ih

theorem natDegree_base (n : ℕ) : ((X ^ 2 - 1 : ℝ[X]) ^ n).natDegree = 2 * n ∧ ((X ^ 2 - 1 : ℝ[X]) ^ n).Monic := by
  have hm : (X ^ 2 - 1 : ℝ[X]).Monic := by
    have := monic_X_pow_sub_C (1 : ℝ) (n := 2) (by norm_num)
    simpa using this
  have hd : (X ^ 2 - 1 : ℝ[X]).natDegree = 2 := by
    have := natDegree_X_pow_sub_C (n := 2) (r := (1 : ℝ))
    simpa using this
  refine ⟨?_, hm.pow n⟩
  rw [hm.natDegree_pow, hd, mul_comm]

theorem rod_top (n : ℕ) : rod n (n + n) = C ((2 * n).factorial : ℝ) := by
  obtain ⟨hd, hm⟩ := natDegree_base n
  unfold rod
  ext i
  rw [coeff_iterate_derivative, coeff_C]
  by_cases hi : i = 0
  · subst hi
    rw [if_pos rfl, zero_add, show n + n = 2 * n by ring, Nat.descFactorial_self]
    have : ((X ^ 2 - 1 : ℝ[X]) ^ n).coeff (2 * n) = 1 := by rw [← hd]; exact hm
    rw [this]; simp
  · rw [if_neg hi, coeff_eq_zero_of_natDegree_lt (by rw [hd]; omega), smul_zero]

theorem integ_norm {m n : ℕ} (h : m ≤ n) :
    integ (WW ^ m * rod n (n + m) * rod n (n + m)) * ((n - m).factorial : ℝ) = integ (WW ^ 0 * rod n (n + 0) * rod n (n + 0)) * ((n + m).factorial : ℝ) := by
  induction m with
  | zero => simp
  | succ m ih =>
    have h1 := integ_by_parts m n (rod n (n + m))
    rw [← rod_succ] at h1
    have ih' := ih (by omega)
    have hf : ((n - m).factorial : ℝ) = ((n : ℝ) - m) * ((n - (m + 1)).factorial : ℝ) := by
      rw [show n - m = (n - (m + 1)) + 1 by omega, Nat.factorial_succ]
      push_cast
      rw [Nat.cast_sub h]
      push_cast; ring
    rw [hf] at ih'
    rw [show n + (m + 1) = n + m + 1 by ring, h1, Nat.factorial_succ]
    push_cast
    linear_combination ((n : ℝ) + m + 1) * ih'

theorem integ_zero (n : ℕ) : integ (WW ^ 0 * rod n (n + 0) * rod n (n + 0)) * (2 * n + 1) = 2 * (2 ^ n * (n.factorial : ℝ)) ^ 2 := by
  have h1 := integ_norm (le_refl n)
  rw [rod_top, Nat.sub_self, Nat.factorial_zero, show WW ^ n * C ((2 * n).factorial : ℝ) * C ((2 * n).factorial : ℝ) =
    C (((2 * n).factorial : ℝ) * ((2 * n).factorial : ℝ)) * WW ^ n by rw [map_mul]; ring, integ_smul, show n + n = 2 * n by ring] at h1
  have h2 := integ_WW n
  rw [Nat.factorial_succ] at h2
  push_cast at h1 h2
  have hp : ((2 * n).factorial : ℝ) ≠ 0 := by positivity
  have h3 : integ (WW ^ 0 * rod n (n + 0) * rod n (n + 0)) = ((2 * n).factorial : ℝ) * integ (WW ^ n) := by
    apply mul_right_cancel₀ hp
    linear_combination -h1
  rw [h3]
  linear_combination h2

theorem norm_sq {m n : ℕ} (h : m ≤ n) : norm m n * norm m n * integ (WW ^ m * rod n (n + m) * rod n (n + m)) = 1 := by
  have h1 := integ_norm h
  have h2 := integ_zero n
  have hf1 : ((n - m).factorial : ℝ) ≠ 0 := by positivity
  have hf2 : ((n + m).factorial : ℝ) ≠ 0 := by positivity
  have hf3 : (2 : ℝ) ^ n * (n.factorial : ℝ) ≠ 0 := by positivity
  have hf4 : (2 * (n : ℝ) + 1) ≠ 0 := by positivity
  unfold norm
  rw [div_mul_div_comm, Real.mul_self_sqrt (by positivity)]
  generalize integ (WW ^ m * rod n (n + m) * rod n (n + m)) = N at *
  generalize integ (WW ^ 0 * rod n (n + 0) * rod n (n + 0)) = N0 at *
  have e0 : N0 = 2 * (2 ^ n * (n.factorial : ℝ)) ^ 2 / (2 * n + 1) := by rw [eq_div_iff hf4]; exact h2
  have e1 : N = N0 * ((n + m).factorial : ℝ) / ((n - m).factorial : ℝ) := by rw [eq_div_iff hf1]; exact h1
  rw [e1, e0]
  generalize (2 : ℝ) ^ n * (n.factorial : ℝ) = q at *
  field_simp

/-! ### Quadrature -/

/-- Gaussian quadrature: rows `θ 1, …, θ N` and weights that integrate every polynomial in `cos θ` of degree up to `2N - 1`
exactly over the sphere's `cos θ ∈ [-1, 1]`. -/
def Spec.Gauss (N : ℕ) (θ w : ℕ → ℝ) : Prop :=
  ∀ p : ℝ[X], p.natDegree ≤ 2 * N - 1 → ∑ j ∈ Finset.Icc 1 N, w j * p.eval (Real.cos (θ j)) = ∫ x in (-1 : ℝ)..1, p.eval x

theorem rod_natDegree_le (n m : ℕ) : (rod n (n + m)).natDegree ≤ n - m := by
  unfold rod
  refine (natDegree_iterate_derivative _ _).trans ?_
  rw [(natDegree_base n).1]; omega

theorem WW_degree (m : ℕ) : (WW ^ m).natDegree ≤ 2 * m := by
  refine natDegree_pow_le.trans ?_
  have : WW.natDegree ≤ 2 := by unfold WW; compute_degree
  calc m * WW.natDegree ≤ m * 2 := Nat.mul_le_mul_left _ this
    _ = 2 * m := by ring

theorem sin_sq_WW (θ : ℝ) : Real.sin θ ^ 2 = WW.eval (Real.cos θ) := by
  unfold WW
  simp only [eval_sub, eval_one, eval_pow, eval_X]
  linarith [Real.sin_sq_add_cos_sq θ]

/-- Orthonormality of the Legendre functions of one order. -/
theorem gauss_orth {N : ℕ} {θ w : ℕ → ℝ} (hG : Spec.Gauss N θ w) {m n k : ℕ} (hn : n < N) (hk : k < N) (hmn : m ≤ n) (hmk : m ≤ k) :
    ∑ j ∈ Finset.Icc 1 N, w j * (pbar m n (θ j) * pbar m k (θ j)) = if n = k then 1 else 0 := by
  have h := hG (C (norm m n * norm m k) * (WW ^ m * rod n (n + m) * rod k (k + m))) (by
    refine (natDegree_C_mul_le _ _).trans ?_
    refine natDegree_mul_le.trans ?_
    have h1 := (natDegree_mul_le (p := WW ^ m) (q := rod n (n + m)))
    have h2 := WW_degree m
    have h3 := rod_natDegree_le n m
    have h4 := rod_natDegree_le k m
    omega)
  have e : ∀ j, pbar m n (θ j) * pbar m k (θ j) = (C (norm m n * norm m k) * (WW ^ m * rod n (n + m) * rod k (k + m))).eval (Real.cos (θ j)) := by
    intro j
    simp only [eval_mul, eval_C, eval_pow, ← sin_sq_WW]
    unfold pbar
    ring
  rw [Finset.sum_congr rfl fun j _ => by rw [e j], h]
  change integ _ = _
  rw [integ_smul]
  by_cases hnk : n = k
  · subst hnk; rw [if_pos rfl]; exact norm_sq hmn
  · rw [if_neg hnk, integ_orth hnk, mul_zero]

/-- `p'_n p'_k + m² p_n p_k / sin²` as a polynomial in `cos θ`. -/
noncomputable def vecPoly (m : ℕ) (R R' S S' : ℝ[X]) : ℝ[X] :=
  match m with
  | 0 => WW * R' * S'
  | m + 1 => WW ^ m * (C (((m : ℝ) + 1) ^ 2) * R * S + (C ((m : ℝ) + 1) * X * R - WW * R') * (C ((m : ℝ) + 1) * X * S - WW * S'))

theorem vecPoly_integ (m n : ℕ) (S : ℝ[X]) :
    integ (vecPoly m (rod n (n + m)) (rod n (n + m + 1)) S (derivative S)) = n * (n + 1) * integ (WW ^ m * rod n (n + m) * S) := by
  cases m with
  | zero =>
    have := integ_by_parts 0 n S
    simp only [zero_add, pow_one, Nat.cast_zero, zero_mul, sub_zero] at this
    exact this
  | succ m =>
    have hX : (X : ℝ[X]) ^ 2 = 1 - WW := by unfold WW; ring
    have o := ode_poly (m + 1) n
    have e : vecPoly (m + 1) (rod n (n + (m + 1))) (rod n (n + (m + 1) + 1)) S (derivative S) =
        derivative (WW ^ (m + 1) * S * (WW * rod n (n + (m + 1) + 1) - C ((m : ℝ) + 1) * X * rod n (n + (m + 1)))) +
          C ((n : ℝ) * (n + 1)) * (WW ^ (m + 1) * rod n (n + (m + 1)) * S) := by
      unfold vecPoly
      simp only [derivative_mul, derivative_sub, derivative_C, derivative_X, WW_pow_deriv, WW_deriv, ← rod_succ]
      generalize derivative S = S' at *
      generalize rod n (n + (m + 1)) = R at *
      generalize rod n (n + (m + 1) + 1) = R' at *
      generalize rod n (n + (m + 1) + 2) = R'' at *
      simp only [map_mul, map_add, map_neg, map_one, map_natCast, map_ofNat, map_sub, map_pow, Nat.cast_add, Nat.cast_one] at o ⊢
      linear_combination -(WW ^ (m + 1) * S * o) - ((m : ℝ[X]) + 1) ^ 2 * R * WW ^ m * S * hX
    rw [e, integ_add, integ_deriv, integ_smul]
    simp only [eval_mul, eval_pow, WW_ends.1, WW_ends.2, zero_pow (Nat.succ_ne_zero m), zero_mul, sub_zero, zero_add]

theorem mul_degree_le {p q : ℝ[X]} {a b : ℕ} (hp : p.natDegree ≤ a) (hq : q.natDegree ≤ b) : (p * q).natDegree ≤ a + b :=
  natDegree_mul_le.trans (Nat.add_le_add hp hq)

theorem half_degree {m : ℕ} {R R' : ℝ[X]} {a : ℕ} (c : ℝ) (hR : R.natDegree ≤ a) (hR' : R'.natDegree ≤ a - 1) (h0 : a = 0 → R' = 0) :
    (C c * X * R - WW * R').natDegree ≤ a + 1 := by
  refine (natDegree_sub_le _ _).trans (max_le ?_ ?_)
  · have := mul_degree_le (mul_degree_le (natDegree_C c).le natDegree_X_le) hR
    omega
  · by_cases h : a = 0
    · rw [h0 h]; simp
    · have h1 := mul_degree_le (WW_degree 1) hR'
      rw [pow_one] at h1
      omega

theorem rod_deg_succ (n m : ℕ) : (rod n (n + m + 1)).natDegree ≤ n - m - 1 := by
  have := rod_natDegree_le n (m + 1)
  rw [show n + (m + 1) = n + m + 1 by ring] at this
  omega

theorem rod_zero {n m : ℕ} (h : n ≤ m) : rod n (n + m + 1) = 0 := by
  unfold rod
  exact iterate_derivative_eq_zero (by rw [(natDegree_base n).1]; omega)

theorem vecPoly_degree {m n k : ℕ} (hmn : m ≤ n) (hmk : m ≤ k) :
    (vecPoly m (rod n (n + m)) (rod n (n + m + 1)) (rod k (k + m)) (rod k (k + m + 1))).natDegree ≤ n + k := by
  cases m with
  | zero =>
    unfold vecPoly
    by_cases h : n = 0
    · subst h
      have : rod 0 (0 + 0 + 1) = 0 := rod_zero (le_refl 0)
      rw [this]; simp
    · have h1 := mul_degree_le (mul_degree_le (WW_degree 1) (rod_deg_succ n 0)) (rod_deg_succ k 0)
      rw [pow_one] at h1
      by_cases h' : k = 0
      · subst h'
        have : rod 0 (0 + 0 + 1) = 0 := rod_zero (le_refl 0)
        rw [this]; simp
      · show (WW * rod n (n + 0 + 1) * rod k (k + 0 + 1)).natDegree ≤ n + k
        omega
  | succ m =>
    unfold vecPoly
    have hr := rod_natDegree_le n (m + 1)
    have hs := rod_natDegree_le k (m + 1)
    have h1 := mul_degree_le (mul_degree_le (natDegree_C (((m : ℝ) + 1) ^ 2)).le hr) hs
    have h2 := mul_degree_le (half_degree (m := m) ((m : ℝ) + 1) hr (rod_deg_succ n (m + 1)) fun h => rod_zero (by omega))
      (half_degree (m := m) ((m : ℝ) + 1) hs (rod_deg_succ k (m + 1)) fun h => rod_zero (by omega))
    have h3 := mul_degree_le (WW_degree m) (natDegree_add_le_of_degree_le (n := (n - (m + 1) + 1) + (k - (m + 1) + 1)) (h1.trans (by omega)) h2)
    refine h3.trans (by omega)

/-- Orthogonality of the gradients of the harmonics of one order. -/
theorem gauss_vec {N : ℕ} {θ w : ℕ → ℝ} (hG : Spec.Gauss N θ w) (hs : ∀ j, 1 ≤ j → j ≤ N → Real.sin (θ j) ≠ 0)
    {m n k : ℕ} (hn : n < N) (hk : k < N) (hmn : m ≤ n) (hmk : m ≤ k) :
    ∑ j ∈ Finset.Icc 1 N, w j * (m / Real.sin (θ j) * pbar m n (θ j) * (m / Real.sin (θ j) * pbar m k (θ j)) + dpbar m n (θ j) * dpbar m k (θ j)) =
      if n = k then (n : ℝ) * (n + 1) else 0 := by
  have h := hG (C (norm m n * norm m k) * vecPoly m (rod n (n + m)) (rod n (n + m + 1)) (rod k (k + m)) (rod k (k + m + 1)))
    ((natDegree_C_mul_le _ _).trans ((vecPoly_degree hmn hmk).trans (by omega)))
  have e : ∀ j, 1 ≤ j → j ≤ N → m / Real.sin (θ j) * pbar m n (θ j) * (m / Real.sin (θ j) * pbar m k (θ j)) + dpbar m n (θ j) * dpbar m k (θ j) =
      (C (norm m n * norm m k) * vecPoly m (rod n (n + m)) (rod n (n + m + 1)) (rod k (k + m)) (rod k (k + m + 1))).eval (Real.cos (θ j)) := by
    intro j h1 h2
    have hs' := hs j h1 h2
    have hW := sin_sq_WW (θ j)
    unfold pbar dpbar vecPoly
    cases m with
    | zero =>
      simp only [eval_mul, eval_C, ← hW]
      simp
      ring
    | succ m =>
      simp only [eval_mul, eval_C, eval_add, eval_sub, eval_pow, eval_X, ← hW, Nat.add_sub_cancel, Nat.cast_add, Nat.cast_one]
      field_simp
      ring
  rw [Finset.sum_congr rfl fun j hj => congrArg (w j * ·) (e j (Finset.mem_Icc.mp hj).1 (Finset.mem_Icc.mp hj).2), h]
  change integ _ = _
  rw [integ_smul, rod_succ k (k + m), vecPoly_integ]
  by_cases hnk : n = k
  · subst hnk
    rw [if_pos rfl]
    linear_combination (n : ℝ) * (n + 1) * norm_sq hmn
  · rw [if_neg hnk, integ_orth hnk, mul_zero, mul_zero]

/-- A gradient and a rotated gradient are orthogonal. -/
theorem gauss_cross {N : ℕ} {θ w : ℕ → ℝ} (hG : Spec.Gauss N θ w) (hs : ∀ j, 1 ≤ j → j ≤ N → Real.sin (θ j) ≠ 0)
    {m n k : ℕ} (hn : n < N) (hk : k < N) (hmn : m ≤ n) (hmk : m ≤ k) :
    ∑ j ∈ Finset.Icc 1 N, w j * (m / Real.sin (θ j) * pbar m n (θ j) * dpbar m k (θ j) + dpbar m n (θ j) * (m / Real.sin (θ j) * pbar m k (θ j))) = 0 := by
  cases m with
  | zero => simp
  | succ m =>
    have h := hG (C (-((m : ℝ) + 1) * (norm (m + 1) n * norm (m + 1) k)) * derivative (WW ^ (m + 1) * rod n (n + (m + 1)) * rod k (k + (m + 1)))) (by
      refine (natDegree_C_mul_le _ _).trans ((natDegree_derivative_le _).trans ?_)
      have := mul_degree_le (mul_degree_le (WW_degree (m + 1)) (rod_natDegree_le n (m + 1))) (rod_natDegree_le k (m + 1))
      omega)
    have e : ∀ j, 1 ≤ j → j ≤ N → ((m + 1 : ℕ) : ℝ) / Real.sin (θ j) * pbar (m + 1) n (θ j) * dpbar (m + 1) k (θ j) +
        dpbar (m + 1) n (θ j) * (((m + 1 : ℕ) : ℝ) / Real.sin (θ j) * pbar (m + 1) k (θ j)) =
        (C (-((m : ℝ) + 1) * (norm (m + 1) n * norm (m + 1) k)) * derivative (WW ^ (m + 1) * rod n (n + (m + 1)) * rod k (k + (m + 1)))).eval (Real.cos (θ j)) := by
      intro j h1 h2
      have hs' := hs j h1 h2
      have hW := sin_sq_WW (θ j)
      simp only [derivative_mul, WW_pow_deriv, ← rod_succ, eval_mul, eval_C, eval_add, eval_pow, eval_X, ← hW]
      unfold pbar dpbar
      simp only [Nat.add_sub_cancel, Nat.cast_add, Nat.cast_one]
      field_simp
      ring
    rw [Finset.sum_congr rfl fun j hj => congrArg (w j * ·) (e j (Finset.mem_Icc.mp hj).1 (Finset.mem_Icc.mp hj).2), h]
    change integ _ = _
    rw [integ_smul, integ_deriv]
    simp only [eval_mul, eval_pow, WW_ends.1, WW_ends.2, zero_pow (Nat.succ_ne_zero m), zero_mul, sub_zero, mul_zero]

end Skyborn.Sphere
