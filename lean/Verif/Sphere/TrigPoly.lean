/-
The normalised associated Legendre functions as trigonometric polynomials: the coefficients, their recurrence, symmetry and leading one.
Used for `legendre` (Sphere/LegFunc). No code is modelled here.
-/
import Verif.Sphere.Legendre
import Mathlib.Analysis.Complex.Trigonometric
import Mathlib.Analysis.SpecialFunctions.ExpDeriv
import Mathlib.Analysis.SpecialFunctions.Trigonometric.Basic
import Mathlib.Algebra.Polynomial.Roots
import Mathlib.Algebra.Polynomial.Reverse
import Mathlib.Algebra.Polynomial.Degree.Lemmas
import Mathlib.Algebra.Polynomial.Degree.Operations
import Mathlib.Algebra.Polynomial.Degree.SmallDegree

namespace Skyborn.Sphere.Leg

open Polynomial

/-- `e^(iθ)` -/
noncomputable def zz (θ : ℝ) : ℂ := Complex.exp (θ * Complex.I)

theorem zz_ne (θ : ℝ) : zz θ ≠ 0 := Complex.exp_ne_zero _

theorem zz_neg (θ : ℝ) : zz (-θ) = (zz θ)⁻¹ := by
  unfold zz
  rw [← Complex.exp_neg]; congr 1; push_cast; ring

theorem zz_cos (θ : ℝ) : (Real.cos θ : ℂ) = (zz θ + (zz θ)⁻¹) / 2 := by
  rw [← zz_neg, Complex.ofReal_cos, Complex.cos]
  unfold zz
  congr 2; push_cast; ring_nf

theorem zz_sin (θ : ℝ) : (Real.sin θ : ℂ) = (zz θ - (zz θ)⁻¹) / (2 * Complex.I) := by
  have h : Complex.I ≠ 0 := Complex.I_ne_zero
  rw [← zz_neg, Complex.ofReal_sin, Complex.sin]
  unfold zz
  have e : Complex.exp (-↑θ * Complex.I) = Complex.exp (((-θ : ℝ) : ℂ) * Complex.I) := by push_cast; rfl
  rw [e]
  generalize Complex.exp (((-θ : ℝ) : ℂ) * Complex.I) = a
  generalize Complex.exp (θ * Complex.I) = b
  field_simp
  linear_combination (a - b) * Complex.I_sq

/-- `g` is a trigonometric polynomial of degree `d` with leading coefficient `c`. -/
def Rep (d : ℕ) (c : ℂ) (g : ℝ → ℂ) : Prop := ∃ F : ℂ[X], F.natDegree ≤ 2 * d ∧ F.coeff (2 * d) = c ∧ ∀ θ, zz θ ^ d * g θ = F.eval (zz θ)

theorem Rep.mul {a b : ℕ} {c e : ℂ} {g h : ℝ → ℂ} (hg : Rep a c g) (hh : Rep b e h) : Rep (a + b) (c * e) (fun θ => g θ * h θ) := by
  obtain ⟨F, h1, h2, h3⟩ := hg
  obtain ⟨G, k1, k2, k3⟩ := hh
  refine ⟨F * G, ?_, ?_, fun θ => ?_⟩
  · exact (natDegree_mul_le_of_le h1 k1).trans (by omega)
  · rw [mul_add, coeff_mul_add_eq_of_natDegree_le h1 k1, h2, k2]
  · rw [eval_mul, ← h3, ← k3, pow_add]; ring

theorem Rep.const (c : ℂ) : Rep 0 c (fun _ => c) := ⟨C c, by simp, by simp, by simp⟩

theorem Rep.smul {d : ℕ} {c : ℂ} {g : ℝ → ℂ} (a : ℂ) (h : Rep d c g) : Rep d (a * c) (fun θ => a * g θ) := by
  have := (Rep.const a).mul h
  rwa [zero_add] at this

theorem Rep.pow {d : ℕ} {c : ℂ} {g : ℝ → ℂ} (h : Rep d c g) (k : ℕ) : Rep (d * k) (c ^ k) (fun θ => g θ ^ k) := by
  induction k with
  | zero => simpa using Rep.const 1
  | succ k ih => simpa only [mul_add, mul_one, pow_succ] using ih.mul h

theorem Rep.add {d : ℕ} {c e : ℂ} {g h : ℝ → ℂ} (hg : Rep d c g) (hh : Rep d e h) : Rep d (c + e) (fun θ => g θ + h θ) := by
  obtain ⟨F, h1, h2, h3⟩ := hg
  obtain ⟨G, k1, k2, k3⟩ := hh
  refine ⟨F + G, natDegree_add_le_of_degree_le h1 k1, by rw [coeff_add, h2, k2], fun θ => ?_⟩
  rw [eval_add, ← h3, ← k3]; ring

theorem Rep.raise {d : ℕ} {c : ℂ} {g : ℝ → ℂ} (h : Rep d c g) : Rep (d + 1) 0 g := by
  obtain ⟨F, h1, h2, h3⟩ := h
  refine ⟨F * X, ?_, ?_, fun θ => ?_⟩
  · exact (natDegree_mul_le_of_le h1 natDegree_X_le).trans (by omega)
  · rw [show 2 * (d + 1) = (2 * d + 1) + 1 by ring, coeff_mul_X]
    exact coeff_eq_zero_of_natDegree_lt (by omega)
  · rw [eval_mul, ← h3, eval_X, pow_succ]; ring

theorem Rep.cos : Rep 1 (1 / 2) (fun θ => (Real.cos θ : ℂ)) := by
  refine ⟨C (1 / 2) * X ^ 2 + C 0 * X + C (1 / 2), by simpa using natDegree_quadratic_le, by simp, fun θ => ?_⟩
  have := zz_ne θ
  dsimp only
  rw [zz_cos]
  simp only [eval_add, eval_mul, eval_C, eval_pow, eval_X]
  field_simp
  ring

theorem Rep.sin : Rep 1 (1 / (2 * Complex.I)) (fun θ => (Real.sin θ : ℂ)) := by
  have e : ∀ θ, (Real.sin θ : ℂ) = (1 / (2 * Complex.I)) * (zz θ - (zz θ)⁻¹) := fun θ => by rw [zz_sin]; ring
  generalize (1 : ℂ) / (2 * Complex.I) = c at *
  refine ⟨C c * X ^ 2 + C 0 * X + C (-c), natDegree_quadratic_le, by simp, fun θ => ?_⟩
  have := zz_ne θ
  dsimp only
  rw [e]
  simp only [eval_add, eval_mul, eval_C, eval_pow, eval_X]
  field_simp
  ring

theorem Rep.poly (r : ℝ[X]) (d : ℕ) (h : r.natDegree ≤ d) : Rep d (r.coeff d * (1 / 2) ^ d) (fun θ => ((r.eval (Real.cos θ) : ℝ) : ℂ)) := by
  have key : ∀ d : ℕ, Rep d (r.coeff d * (1 / 2) ^ d) (fun θ => ∑ j ∈ Finset.range (d + 1), (r.coeff j : ℂ) * (Real.cos θ : ℂ) ^ j) := by
    intro d
    induction d with
    | zero => simpa using Rep.const (r.coeff 0 : ℂ)
    | succ d ih =>
      have h1 := Rep.add ih.raise ((Rep.cos.pow (d + 1)).smul (r.coeff (d + 1) : ℂ) |> fun h => by rwa [one_mul] at h)
      rw [zero_add] at h1
      have e : (fun θ : ℝ => ∑ j ∈ Finset.range (d + 1 + 1), (r.coeff j : ℂ) * (Real.cos θ : ℂ) ^ j) = fun θ =>
          ∑ j ∈ Finset.range (d + 1), (r.coeff j : ℂ) * (Real.cos θ : ℂ) ^ j + (r.coeff (d + 1) : ℂ) * (Real.cos θ : ℂ) ^ (d + 1) := by
        funext θ; rw [Finset.sum_range_succ]
      rw [e]
      exact h1
  have e : (fun θ => ((r.eval (Real.cos θ) : ℝ) : ℂ)) = fun θ => ∑ j ∈ Finset.range (d + 1), (r.coeff j : ℂ) * (Real.cos θ : ℂ) ^ j := by
    funext θ
    rw [eval_eq_sum_range' (show r.natDegree < d + 1 by omega)]
    push_cast
    rfl
  rw [e]
  exact key d

theorem rod_degree (m n : ℕ) (h : m ≤ n) : (rod n (n + m)).natDegree ≤ n - m := by
  unfold rod
  refine (natDegree_iterate_derivative _ _).trans ?_
  have : ((X ^ 2 - 1 : ℝ[X]) ^ n).natDegree ≤ n * 2 := natDegree_pow_le_of_le n (by
    have : (X ^ 2 - 1 : ℝ[X]).natDegree ≤ 2 := by compute_degree
    exact this)
  omega

theorem rod_lead (m n : ℕ) (h : m ≤ n) : (rod n (n + m)).coeff (n - m) * (n - m).factorial = (2 * n).factorial := by
  have hd : (X ^ 2 - 1 : ℝ[X]).natDegree ≤ 2 := by compute_degree
  have h1 : ((X ^ 2 - 1 : ℝ[X]) ^ n).coeff (2 * n) = 1 := by
    have := coeff_pow_of_natDegree_le (m := n) hd
    rw [mul_comm, this]
    simp [coeff_one]
  unfold rod
  rw [coeff_iterate_derivative, show n - m + (n + m) = 2 * n by omega, h1, nsmul_eq_mul, mul_one]
  have := Nat.factorial_mul_descFactorial (show n + m ≤ 2 * n by omega)
  rw [show 2 * n - (n + m) = n - m by omega] at this
  rw [← this]
  push_cast
  ring

/-- The leading coefficient of `pbar`. -/
noncomputable def top (m n : ℕ) : ℂ := (norm m n * ((2 * n).factorial / (n - m).factorial) / 2 ^ n : ℝ) * (1 / Complex.I) ^ m

theorem pbar_rep (m n : ℕ) (h : m ≤ n) : Rep n (top m n) (fun θ => (pbar m n θ : ℂ)) := by
  have h1 := ((Rep.sin.pow m).mul (Rep.poly _ _ (rod_degree m n h))).smul (norm m n : ℂ)
  rw [one_mul, show m + (n - m) = n by omega] at h1
  have e : (norm m n : ℂ) * ((1 / (2 * Complex.I)) ^ m * (((rod n (n + m)).coeff (n - m) : ℂ) * (1 / 2) ^ (n - m))) = top m n := by
    have hl : ((rod n (n + m)).coeff (n - m) : ℂ) = ((2 * n).factorial / (n - m).factorial : ℝ) := by
      congr 1
      rw [eq_div_iff (by positivity), rod_lead m n h]
    unfold top
    rw [hl]
    have : (2 : ℂ) ^ n = 2 ^ m * 2 ^ (n - m) := by rw [← pow_add]; congr 1; omega
    push_cast
    rw [this, one_div, mul_inv, mul_pow, one_div, one_div, inv_pow, inv_pow, inv_pow]
    have h2 : (2 : ℂ) ^ m ≠ 0 := pow_ne_zero _ two_ne_zero
    have h3 : (2 : ℂ) ^ (n - m) ≠ 0 := pow_ne_zero _ two_ne_zero
    have h4 : ((n - m).factorial : ℂ) ≠ 0 := by exact_mod_cast (n - m).factorial_ne_zero
    field_simp
  rw [e] at h1
  have e2 : (fun θ => (pbar m n θ : ℂ)) = fun θ => (norm m n : ℂ) * ((Real.sin θ : ℂ) ^ m * (((rod n (n + m)).eval (Real.cos θ) : ℝ) : ℂ)) := by
    funext θ; unfold pbar; push_cast; rfl
  rw [e2]
  exact h1

/-! ## The recurrence -/

/-- `e^(-inθ) P(e^(iθ))` -/
noncomputable def val (n : ℕ) (P : ℂ[X]) (θ : ℝ) : ℂ := (zz θ)⁻¹ ^ n * P.eval (zz θ)

/-- Multiplies the coefficient of `e^(ikθ)` by `k`. -/
noncomputable def rot (n : ℕ) (P : ℂ[X]) : ℂ[X] := X * derivative P - C (n : ℂ) * P

theorem coeff_rot (n : ℕ) (P : ℂ[X]) (j : ℕ) : (rot n P).coeff j = ((j : ℂ) - n) * P.coeff j := by
  unfold rot
  rw [coeff_sub, coeff_C_mul]
  cases j with
  | zero => simp
  | succ j => rw [mul_comm X, coeff_mul_X, coeff_derivative]; push_cast; ring

theorem hasDerivAt_zz (θ : ℝ) : HasDerivAt zz (Complex.I * zz θ) θ := by
  unfold zz
  have h1 : HasDerivAt (fun t : ℝ => (t : ℂ) * Complex.I) (1 * Complex.I) θ := (Complex.ofRealCLM.hasDerivAt (x := θ)).mul_const _
  refine h1.cexp.congr_deriv ?_
  ring

theorem hasDerivAt_val (n : ℕ) (P : ℂ[X]) (θ : ℝ) : HasDerivAt (val n P) (Complex.I * val n (rot n P) θ) θ := by
  have h0 := zz_ne θ
  have hz := hasDerivAt_zz θ
  have hp : HasDerivAt (fun t => P.eval (zz t)) ((derivative P).eval (zz θ) * (Complex.I * zz θ)) θ := (P.hasDerivAt (zz θ)).comp θ hz
  have hi : HasDerivAt (fun t => (zz t)⁻¹ ^ n) (-(n : ℂ) * Complex.I * (zz θ)⁻¹ ^ n) θ := by
    have h1 := (hz.inv h0).pow n
    refine h1.congr_deriv ?_
    simp only [Pi.inv_apply]
    cases n with
    | zero => simp
    | succ n =>
      have e : (zz θ)⁻¹ ^ (n + 1) = (zz θ)⁻¹ ^ n * (zz θ)⁻¹ := pow_succ _ _
      rw [Nat.add_sub_cancel, e]
      generalize (zz θ)⁻¹ ^ n = w
      field_simp
  refine (hi.mul hp).congr_deriv ?_
  unfold val rot
  simp only [eval_sub, eval_mul, eval_X, eval_C]
  ring

theorem eq_of_half {P Q : ℂ[X]} (h : ∀ θ : ℝ, 0 < θ → θ < Real.pi → P.eval (zz θ) = Q.eval (zz θ)) : P = Q := by
  refine eq_of_infinite_eval_eq P Q (Set.Infinite.mono (s := zz '' Set.Ioo 0 Real.pi) ?_ (Set.Infinite.image ?_ (Set.Ioo_infinite Real.pi_pos)))
  · rintro _ ⟨θ, hθ, rfl⟩
    exact h θ hθ.1 hθ.2
  · intro a ha b hb hab
    have hre : Real.cos a = Real.cos b := by
      have := congrArg Complex.re hab
      unfold zz at this
      rwa [Complex.exp_ofReal_mul_I_re, Complex.exp_ofReal_mul_I_re] at this
    exact Real.injOn_cos ⟨ha.1.le, ha.2.le⟩ ⟨hb.1.le, hb.2.le⟩ hre

theorem ode_poly' (m n : ℕ) (F : ℂ[X]) (hF : ∀ θ, zz θ ^ n * (pbar m n θ : ℂ) = F.eval (zz θ)) :
    (X ^ 4 - C 2 * X ^ 2 + 1) * (C ((n : ℂ) * (n + 1)) * F - rot n (rot n F)) - (X ^ 4 - 1) * rot n F + C (4 * (m : ℂ) ^ 2) * (X ^ 2 * F) = 0 := by
  have e0 : (fun θ => (pbar m n θ : ℂ)) = val n F := by
    funext θ
    unfold val
    rw [← hF, inv_pow]
    field_simp [zz_ne θ]
  have e1 : (fun θ => (dpbar m n θ : ℂ)) = fun θ => Complex.I * val n (rot n F) θ := by
    funext θ
    have h1 := (hasDerivAt_pbar m n θ).ofReal_comp
    rw [e0] at h1
    exact h1.unique (hasDerivAt_val n F θ)
  have e2 : ∀ θ, (ddpbar m n θ : ℂ) = -val n (rot n (rot n F)) θ := by
    intro θ
    have h1 := (hasDerivAt_dpbar m n θ).ofReal_comp
    rw [e1] at h1
    rw [h1.unique ((hasDerivAt_val n (rot n F) θ).const_mul Complex.I), ← mul_assoc, Complex.I_mul_I]
    ring
  refine eq_of_half fun θ h0 h1 => ?_
  have hs : Real.sin θ ≠ 0 := (Real.sin_pos_of_pos_of_lt_pi h0 h1).ne'
  have ode := pbar_ode m n θ hs
  have ode' : Real.sin θ ^ 2 * ddpbar m n θ + Real.sin θ * Real.cos θ * dpbar m n θ + (n * (n + 1) * Real.sin θ ^ 2 - m ^ 2) * pbar m n θ = 0 := by
    field_simp at ode
    linear_combination ode
  have c := congrArg (fun x : ℝ => (x : ℂ)) ode'
  push_cast at c
  rw [e2 θ, congrFun e1 θ, congrFun e0 θ, ← Complex.ofReal_sin, ← Complex.ofReal_cos, zz_cos, zz_sin] at c
  simp only [eval_add, eval_sub, eval_mul, eval_pow, eval_X, eval_C, eval_one, eval_zero]
  unfold val at c
  have hz := zz_ne θ
  generalize (rot n (rot n F)).eval (zz θ) = a at *
  generalize (rot n F).eval (zz θ) = b at *
  generalize F.eval (zz θ) = f at *
  generalize zz θ = z at *
  have hi : Complex.I ≠ 0 := Complex.I_ne_zero
  rw [inv_pow] at c
  have hzn : z ^ n ≠ 0 := pow_ne_zero _ hz
  generalize z ^ n = w at *
  field_simp at c
  have hI : Complex.I ^ 2 = -1 := Complex.I_sq
  simp only [hI] at c
  linear_combination c

/-- The three-term recurrence of the coefficients. -/
theorem three_term (m n : ℕ) (F : ℂ[X]) (hF : ∀ θ, zz θ ^ n * (pbar m n θ : ℂ) = F.eval (zz θ)) (j : ℕ) :
    (2 * (n : ℂ) - j) * (j + 1) * F.coeff j + (4 * (m : ℂ) ^ 2 - 2 * ((n : ℂ) * (n + 1) - ((j : ℂ) - n + 2) ^ 2)) * F.coeff (j + 2)
      + ((n : ℂ) * (n + 1) - ((j : ℂ) - n + 4) * ((j : ℂ) - n + 3)) * F.coeff (j + 4) = 0 := by
  have h := congrArg (fun P : ℂ[X] => P.coeff (j + 4)) (ode_poly' m n F hF)
  simp only [add_mul, sub_mul, one_mul, mul_assoc, coeff_add, coeff_sub, coeff_C_mul, coeff_zero] at h
  have x4 : ∀ P : ℂ[X], (X ^ 4 * P).coeff (j + 4) = P.coeff j := fun P => coeff_X_pow_mul P 4 j
  have x2 : ∀ P : ℂ[X], (X ^ 2 * P).coeff (j + 4) = P.coeff (j + 2) := fun P => coeff_X_pow_mul P 2 (j + 2)
  simp only [x4, x2] at h
  simp only [coeff_sub, coeff_C_mul, coeff_rot] at h
  push_cast at h
  linear_combination h

/-! ## Symmetry, series -/

theorem pbar_neg (m n : ℕ) (θ : ℝ) : pbar m n (-θ) = (-1) ^ m * pbar m n θ := by
  unfold pbar
  rw [Real.sin_neg, Real.cos_neg, neg_pow]; ring

theorem symm (m n : ℕ) (F : ℂ[X]) (hd : F.natDegree ≤ 2 * n) (hF : ∀ θ, zz θ ^ n * (pbar m n θ : ℂ) = F.eval (zz θ)) (j : ℕ) (hj : j ≤ 2 * n) :
    F.coeff (2 * n - j) = (-1) ^ m * F.coeff j := by
  have h : reflect (2 * n) F = C ((-1) ^ m) * F := by
    refine eq_of_half fun θ _ _ => ?_
    have hz := zz_ne θ
    letI : Invertible (zz θ)⁻¹ := invertibleOfNonzero (inv_ne_zero hz)
    have h1 := eval₂_reflect_mul_pow (RingHom.id ℂ) (zz θ)⁻¹ (2 * n) F hd
    rw [invOf_eq_inv, inv_inv] at h1
    change eval (zz θ) (reflect (2 * n) F) * _ = eval (zz θ)⁻¹ F at h1
    rw [← zz_neg θ, ← hF, zz_neg, pbar_neg] at h1
    rw [eval_mul, eval_C, ← hF]
    push_cast at h1
    have hzn : zz θ ^ n ≠ 0 := pow_ne_zero _ hz
    rw [show ((zz θ)⁻¹ ^ (2 * n) : ℂ) = (zz θ)⁻¹ ^ n * (zz θ)⁻¹ ^ n by rw [← pow_add, two_mul], inv_pow] at h1
    field_simp at h1
    linear_combination h1
  have := congrArg (fun P : ℂ[X] => P.coeff j) h
  simp only [coeff_reflect, coeff_C_mul] at this
  rwa [revAt_le hj] at this

/-- The value from the coefficients. -/
theorem pbar_sum (m n : ℕ) (F : ℂ[X]) (hd : F.natDegree ≤ 2 * n) (hF : ∀ θ, zz θ ^ n * (pbar m n θ : ℂ) = F.eval (zz θ)) (θ : ℝ) :
    (pbar m n θ : ℂ) = F.coeff n + ∑ k ∈ Finset.range n, F.coeff (n + (k + 1)) * (zz θ ^ (k + 1) + (-1) ^ m * (zz θ)⁻¹ ^ (k + 1)) := by
  have hz := zz_ne θ
  have hzn : zz θ ^ n ≠ 0 := pow_ne_zero _ hz
  have h1 := hF θ
  rw [eval_eq_sum_range' (show F.natDegree < n + (n + 1) by omega), Finset.sum_range_add, Finset.sum_range_succ', ← Finset.sum_range_reflect] at h1
  apply mul_left_cancel₀ hzn
  rw [h1, mul_add, Finset.mul_sum, add_zero]
  have : ∀ k ∈ Finset.range n, zz θ ^ n * (F.coeff (n + (k + 1)) * (zz θ ^ (k + 1) + (-1) ^ m * (zz θ)⁻¹ ^ (k + 1)))
      = F.coeff (n - 1 - k) * zz θ ^ (n - 1 - k) + F.coeff (n + (k + 1)) * zz θ ^ (n + (k + 1)) := by
    intro k hk
    rw [Finset.mem_range] at hk
    have hs := symm m n F hd hF (n + (k + 1)) (by omega)
    rw [show 2 * n - (n + (k + 1)) = n - 1 - k by omega] at hs
    rw [hs, pow_add _ n (k + 1), inv_pow]
    have e : zz θ ^ n = zz θ ^ (n - 1 - k) * zz θ ^ (k + 1) := by rw [← pow_add]; congr 1; omega
    have h3 : zz θ ^ (k + 1) ≠ 0 := pow_ne_zero _ hz
    rw [e]
    generalize zz θ ^ (k + 1) = w at *
    generalize F.coeff (n + (k + 1)) = f at *
    field_simp
    ring
  rw [Finset.sum_congr rfl this, Finset.sum_add_distrib]
  ring

/-- Half the leading coefficient of the series in cosines or sines, but for the sign. -/
noncomputable def lead (m n : ℕ) : ℝ := norm m n * ((2 * n).factorial / (n - m).factorial) / 2 ^ n

private theorem coeffs (m n s : ℕ) (u : ℂ) (c : ℕ → ℝ) (F : ℂ[X]) (hd : F.natDegree ≤ 2 * n) (hF : ∀ θ, zz θ ^ n * (pbar m n θ : ℂ) = F.eval (zz θ))
    (htop : F.coeff (2 * n) = u * c n) (hz : ∀ k, n < k → c k = 0)
    (hrec : ∀ k, s ≤ k → k < n → ((n : ℝ) * (n + 1) - k * (k + 1)) * c k + (4 * (m : ℝ) ^ 2 - 2 * ((n : ℝ) * (n + 1) - ((k : ℝ) + 2) ^ 2)) * c (k + 2)
      + ((n : ℝ) * (n + 1) - ((k : ℝ) + 4) * ((k : ℝ) + 3)) * c (k + 4) = 0) :
    ∀ k, s ≤ k → F.coeff (n + k) = u * c k := by
  have key : ∀ d k, s ≤ k → n < k + d → F.coeff (n + k) = u * c k := by
    intro d
    induction d with
    | zero =>
      intro k _ hk
      rw [hz k (by omega), coeff_eq_zero_of_natDegree_lt (by omega)]; simp
    | succ d ih =>
      intro k hs hk
      rcases Nat.lt_or_ge n (k + d) with h' | h'
      · exact ih k hs h'
      rcases Nat.eq_zero_or_pos d with rfl | hd0
      · have : k = n := by omega
        subst this
        rw [← htop]; congr 1; omega
      · have r1 := three_term m n F hF (n + k)
        have r2 := congrArg (fun x : ℝ => (x : ℂ)) (hrec k hs (by omega))
        push_cast at r1 r2
        rw [show n + k + 2 = n + (k + 2) by ring, show n + k + 4 = n + (k + 4) by ring, ih (k + 2) (by omega) (by omega), ih (k + 4) (by omega) (by omega)] at r1
        have hne : (2 * (n : ℂ) - (n + k)) * (n + k + 1) ≠ 0 := by
          have : ((2 * (n : ℝ) - (n + k)) * (n + k + 1) : ℝ) ≠ 0 := by
            have : (k : ℝ) < n := by exact_mod_cast (by omega : k < n)
            have hk0 : (0 : ℝ) ≤ k := Nat.cast_nonneg k
            exact (mul_pos (by linarith) (by linarith)).ne'
          exact_mod_cast this
        apply mul_left_cancel₀ hne
        linear_combination r1 - u * r2
  exact fun k hs => key (n + 1) k hs (by omega)

private theorem I_even (q : ℕ) : (1 / Complex.I) ^ (2 * q) = (-1) ^ q := by
  rw [pow_mul, one_div, inv_pow, Complex.I_sq]; norm_num

/-- Even order: a series in cosines. -/
theorem series_even (q n : ℕ) (h : 2 * q ≤ n) (c : ℕ → ℝ) (htop : c n = 2 * ((-1) ^ q * lead (2 * q) n)) (hz : ∀ k, n < k → c k = 0)
    (hrec : ∀ k, k < n → ((n : ℝ) * (n + 1) - k * (k + 1)) * c k + (4 * ((2 * q : ℕ) : ℝ) ^ 2 - 2 * ((n : ℝ) * (n + 1) - ((k : ℝ) + 2) ^ 2)) * c (k + 2)
      + ((n : ℝ) * (n + 1) - ((k : ℝ) + 4) * ((k : ℝ) + 3)) * c (k + 4) = 0) (θ : ℝ) :
    pbar (2 * q) n θ = c 0 / 2 + ∑ k ∈ Finset.range n, c (k + 1) * Real.cos ((k + 1) * θ) := by
  obtain ⟨F, hd, ht, hF⟩ := pbar_rep (2 * q) n h
  have hc := coeffs (2 * q) n 0 (1 / 2) c F hd hF (by rw [ht, htop, top, I_even, lead]; push_cast; ring) hz (fun k _ => hrec k)
  have hs := pbar_sum (2 * q) n F hd hF θ
  have : ∀ k ∈ Finset.range n, F.coeff (n + (k + 1)) * (zz θ ^ (k + 1) + (-1) ^ (2 * q) * (zz θ)⁻¹ ^ (k + 1)) = ((c (k + 1) * Real.cos ((k + 1) * θ) : ℝ) : ℂ) := by
    intro k _
    rw [hc _ (Nat.zero_le _), pow_mul, neg_one_sq, one_pow, one_mul, Complex.ofReal_mul, zz_cos]
    have e : zz ((k + 1) * θ) = zz θ ^ (k + 1) := by
      unfold zz; rw [← Complex.exp_nat_mul]; congr 1; push_cast; ring
    rw [e, inv_pow]; ring
  rw [Finset.sum_congr rfl this, ← add_zero n, hc 0 le_rfl, add_zero] at hs
  apply Complex.ofReal_injective
  rw [hs]
  push_cast
  ring

/-- Odd order: a series in sines. -/
theorem series_odd (q n : ℕ) (h : 2 * q + 1 ≤ n) (c : ℕ → ℝ) (htop : c n = 2 * ((-1) ^ q * lead (2 * q + 1) n)) (hz : ∀ k, n < k → c k = 0)
    (hrec : ∀ k, 1 ≤ k → k < n → ((n : ℝ) * (n + 1) - k * (k + 1)) * c k + (4 * ((2 * q + 1 : ℕ) : ℝ) ^ 2 - 2 * ((n : ℝ) * (n + 1) - ((k : ℝ) + 2) ^ 2)) * c (k + 2)
      + ((n : ℝ) * (n + 1) - ((k : ℝ) + 4) * ((k : ℝ) + 3)) * c (k + 4) = 0) (θ : ℝ) :
    pbar (2 * q + 1) n θ = ∑ k ∈ Finset.range n, c (k + 1) * Real.sin ((k + 1) * θ) := by
  obtain ⟨F, hd, ht, hF⟩ := pbar_rep (2 * q + 1) n h
  have hc := coeffs (2 * q + 1) n 1 (1 / (2 * Complex.I)) c F hd hF (by
    rw [ht, htop, top, pow_succ, I_even, lead]; push_cast; field_simp) hz hrec
  have hs := pbar_sum (2 * q + 1) n F hd hF θ
  have h0 : F.coeff n = 0 := by
    have := symm (2 * q + 1) n F hd hF n (by omega)
    rw [show 2 * n - n = n by omega, pow_succ, pow_mul, neg_one_sq, one_pow] at this
    linear_combination this / 2
  have : ∀ k ∈ Finset.range n, F.coeff (n + (k + 1)) * (zz θ ^ (k + 1) + (-1) ^ (2 * q + 1) * (zz θ)⁻¹ ^ (k + 1)) = ((c (k + 1) * Real.sin ((k + 1) * θ) : ℝ) : ℂ) := by
    intro k _
    rw [hc _ (by omega), show ((-1 : ℂ) ^ (2 * q + 1)) = -1 by rw [pow_succ, pow_mul]; simp, Complex.ofReal_mul, zz_sin]
    have e : zz ((k + 1) * θ) = zz θ ^ (k + 1) := by
      unfold zz; rw [← Complex.exp_nat_mul]; congr 1; push_cast; ring
    rw [e, inv_pow]; ring
  rw [Finset.sum_congr rfl this, h0, zero_add] at hs
  apply Complex.ofReal_injective
  rw [hs]
  push_cast
  rfl

end Skyborn.Sphere.Leg
