/-
The normalised associated Legendre functions of SPHEREPACK and their differential equation.

Modelled: the definitions the SPHEREPACK documentation gives
(`/repo/src/skyborn/spharm/src/fortran/vhsec.f` lines 221-243, `shaes.f` lines 159-164): `pbar`, `vbar`, `wbar`.
-/
import Mathlib.Analysis.Calculus.Deriv.Polynomial
import Mathlib.Analysis.SpecialFunctions.Trigonometric.Deriv
import Mathlib.Analysis.SpecialFunctions.Sqrt
import Mathlib.Algebra.Polynomial.Derivative
import Mathlib.Tactic.LinearCombination
import Mathlib.Tactic.FieldSimp

namespace Skyborn.Sphere

open Polynomial

/-- The `k`-th derivative of `(x^2-1)^n` (vhsec.f:225-228). -/
noncomputable def rod (n k : ℕ) : ℝ[X] := derivative^[k] ((X ^ 2 - 1) ^ n)

/-- `sqrt((2n+1) (n-m)! / (2 (n+m)!)) / (2^n n!)` (vhsec.f:225-227). -/
noncomputable def norm (m n : ℕ) : ℝ :=
  Real.sqrt ((2 * n + 1) * (n - m).factorial / (2 * (n + m).factorial)) / (2 ^ n * n.factorial)

/-- `pbar(m,n,theta)` (vhsec.f:223-228). -/
noncomputable def pbar (m n : ℕ) (θ : ℝ) : ℝ :=
  norm m n * (Real.sin θ ^ m * (rod n (n + m)).eval (Real.cos θ))

/-- The derivative of `pbar(m,n,theta)` with respect to `theta`, in closed form. -/
noncomputable def dpbar (m n : ℕ) (θ : ℝ) : ℝ :=
  norm m n * (m * Real.sin θ ^ (m - 1) * Real.cos θ * (rod n (n + m)).eval (Real.cos θ)
    - Real.sin θ ^ (m + 1) * (rod n (n + m + 1)).eval (Real.cos θ))

/-- `vbar(m,n,theta)` (vhsec.f:230-232): the derivative of `pbar` divided by the root of `n(n+1)`. -/
noncomputable def vbar (m n : ℕ) (θ : ℝ) : ℝ := deriv (pbar m n) θ / Real.sqrt (n * (n + 1))

/-- `wbar(m,n,theta)` (vhsec.f:239-240): `m/sin(theta) pbar(m,n,theta)` divided by the root of `n(n+1)`, with one sine
cancelled, so that the poles are included (the form of vhsec.f:242-246 is regular there too). -/
noncomputable def wbar (m n : ℕ) (θ : ℝ) : ℝ :=
  m * (norm m n * (Real.sin θ ^ (m - 1) * (rod n (n + m)).eval (Real.cos θ))) / Real.sqrt (n * (n + 1))

/-- Off the poles `wbar` is what the documentation says. -/
theorem wbar_off (m n : ℕ) (θ : ℝ) (h : Real.sin θ ≠ 0) :
    wbar m n θ = m / Real.sin θ * pbar m n θ / Real.sqrt (n * (n + 1)) := by
  unfold wbar pbar
  cases m with
  | zero => simp
  | succ m =>
    rw [Nat.add_sub_cancel, pow_succ]
    field_simp

theorem rod_succ (n k : ℕ) : rod n (k + 1) = derivative (rod n k) := by
  unfold rod; rw [Function.iterate_succ_apply']

theorem hasDerivAt_rod (n k : ℕ) (x : ℝ) : HasDerivAt (fun y => (rod n k).eval y) ((rod n (k + 1)).eval x) x := by
  rw [rod_succ]; exact (rod n k).hasDerivAt x

/-- Leibniz: the differential equation of `(x^2-1)^n`, differentiated `j+1` times. -/
theorem rod_rec (n : ℕ) : ∀ j : ℕ,
    (X ^ 2 - 1) * rod n (j + 2) + C (2 * ((j : ℝ) + 1)) * X * rod n (j + 1) + C (((j : ℝ) + 1) * j) * rod n j
      = C (2 * (n : ℝ)) * (X * rod n (j + 1) + C ((j : ℝ) + 1) * rod n j)
  | 0 => by
    have h0 : (X ^ 2 - 1) * rod n 1 = C (2 * (n : ℝ)) * (X * rod n 0) := by
      cases n with
      | zero => simp [rod]
      | succ n =>
        simp only [rod, Function.iterate_one, Function.iterate_zero, id, derivative_pow_succ, derivative_sub, derivative_pow, derivative_X,
          derivative_one]
        simp only [map_mul, map_add, map_one, map_natCast, map_ofNat, Nat.cast_add, Nat.cast_one]
        simp
        ring
    have h1 := congrArg derivative h0
    rw [derivative_mul, ← rod_succ, derivative_mul, derivative_mul, ← rod_succ] at h1
    simp only [derivative_sub, derivative_X_sq, derivative_one, derivative_C, derivative_X] at h1
    simp only [map_mul, map_ofNat, Nat.cast_zero, zero_add, mul_zero, map_zero, mul_one, zero_mul, add_zero, map_one] at h1 ⊢
    linear_combination h1
  | j + 1 => by
    have h1 := congrArg derivative (rod_rec n j)
    simp only [derivative_add, derivative_mul, ← rod_succ, derivative_sub, derivative_X_sq, derivative_one, derivative_C,
      derivative_X] at h1
    simp only [map_mul, map_add, map_ofNat, map_one, map_natCast, Nat.cast_add, Nat.cast_one, map_zero] at h1 ⊢
    linear_combination h1

/-- The associated Legendre equation in the polynomial part. -/
theorem rod_ode (m n : ℕ) (x : ℝ) :
    (x ^ 2 - 1) * (rod n (n + m + 2)).eval x + 2 * (m + 1) * x * (rod n (n + m + 1)).eval x
      + (m * (m + 1) - n * (n + 1)) * (rod n (n + m)).eval x = 0 := by
  have h := congrArg (fun p => p.eval x) (rod_rec n (n + m))
  simp only [eval_add, eval_mul, eval_sub, eval_pow, eval_X, eval_one, eval_C, Nat.cast_add] at h
  linear_combination h

theorem hasDerivAt_pbar (m n : ℕ) (θ : ℝ) : HasDerivAt (pbar m n) (dpbar m n θ) θ := by
  unfold pbar dpbar
  have h1 := (Real.hasDerivAt_sin θ).pow m
  have h2 := (hasDerivAt_rod n (n + m) (Real.cos θ)).comp θ (Real.hasDerivAt_cos θ)
  refine ((h1.mul h2).const_mul (norm m n)).congr_deriv ?_
  simp only [Function.comp_def, Pi.pow_apply]
  ring

/-- Second derivative of `pbar`, in closed form. -/
noncomputable def ddpbar (m n : ℕ) (θ : ℝ) : ℝ :=
  norm m n * (m * ((m - 1 : ℕ) * Real.sin θ ^ (m - 1 - 1) * Real.cos θ * Real.cos θ
        - Real.sin θ ^ (m - 1) * Real.sin θ) * (rod n (n + m)).eval (Real.cos θ)
      - m * Real.sin θ ^ (m - 1) * Real.cos θ * Real.sin θ * (rod n (n + m + 1)).eval (Real.cos θ)
      - ((m + 1) * Real.sin θ ^ m * Real.cos θ * (rod n (n + m + 1)).eval (Real.cos θ)
        - Real.sin θ ^ (m + 1) * Real.sin θ * (rod n (n + m + 2)).eval (Real.cos θ)))

theorem hasDerivAt_dpbar (m n : ℕ) (θ : ℝ) : HasDerivAt (dpbar m n) (ddpbar m n θ) θ := by
  unfold dpbar ddpbar
  have s := Real.hasDerivAt_sin θ
  have c := Real.hasDerivAt_cos θ
  have r1 := (hasDerivAt_rod n (n + m) (Real.cos θ)).comp θ c
  have r2 := (hasDerivAt_rod n (n + m + 1) (Real.cos θ)).comp θ c
  have t1 := (((s.pow (m - 1)).const_mul (m : ℝ)).mul c).mul r1
  have t2 := (s.pow (m + 1)).mul r2
  refine ((t1.sub t2).const_mul (norm m n)).congr_deriv ?_
  simp only [Function.comp_def, Pi.pow_apply, Pi.mul_apply, Nat.cast_add, Nat.cast_one, Nat.add_sub_cancel]
  ring

theorem deriv_pbar (m n : ℕ) (θ : ℝ) : deriv (pbar m n) θ = dpbar m n θ := (hasDerivAt_pbar m n θ).deriv

/-- **The associated Legendre equation** for `pbar`, off the poles. -/
theorem pbar_ode (m n : ℕ) (θ : ℝ) (h : Real.sin θ ≠ 0) :
    Real.sin θ * ddpbar m n θ + Real.cos θ * dpbar m n θ - m ^ 2 / Real.sin θ * pbar m n θ
      = -(n * (n + 1)) * Real.sin θ * pbar m n θ := by
  have o := rod_ode m n (Real.cos θ)
  have sc := Real.sin_sq_add_cos_sq θ
  unfold ddpbar dpbar pbar
  generalize (rod n (n + m)).eval (Real.cos θ) = y at *
  generalize (rod n (n + m + 1)).eval (Real.cos θ) = y1 at *
  generalize (rod n (n + m + 2)).eval (Real.cos θ) = y2 at *
  generalize Real.sin θ = s at *
  generalize Real.cos θ = c at *
  generalize norm m n = k at *
  have o' : s ^ 2 * y2 = 2 * (m + 1) * c * y1 + (m * (m + 1) - n * (n + 1)) * y := by
    have : s ^ 2 = 1 - c ^ 2 := by linarith
    rw [this]; linear_combination -o
  rcases m with _ | _ | m
  · simp only [Nat.cast_zero, zero_mul, zero_add, pow_zero, pow_one] at *
    field_simp
    linear_combination k * s ^ 2 * o'
  · simp only [Nat.cast_one, Nat.cast_zero, zero_add, pow_zero, pow_one, Nat.sub_self, zero_mul] at *
    field_simp
    linear_combination k * s^2 * o' + k * y * sc
  · simp only [Nat.add_sub_cancel, Nat.cast_add, Nat.cast_one] at *
    field_simp
    linear_combination k * s ^ (m + 4) * o' + k * s ^ (m + 2) * y * (m + 2) ^ 2 * sc

end Skyborn.Sphere
