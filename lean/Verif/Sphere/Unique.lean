/-
Fields on the grid determine their coefficients: separation of the longitudes (discrete Fourier analysis) and of the
latitudes (polynomials with more zeros than their degree).
-/
import Verif.Sphere.Field
import Mathlib.Algebra.Polynomial.Roots
import Mathlib.RingTheory.RootsOfUnity.Complex
import Mathlib.Analysis.SpecialFunctions.Complex.Circle

namespace Skyborn.Sphere

open Polynomial

/-! ### Polynomials -/

theorem rod_coeff {m n : ℕ} (h : m ≤ n) : (rod n (n + m)).coeff (n - m) ≠ 0 := by
  have hm : ((X ^ 2 - 1 : ℝ[X]) ^ n).Monic := by
    refine Monic.pow ?_ n
    have := monic_X_pow_sub_C (R := ℝ) (n := 2) 1 two_ne_zero
    simpa using this
  have hd : ((X ^ 2 - 1 : ℝ[X]) ^ n).natDegree = 2 * n := by
    rw [natDegree_pow]
    have := natDegree_X_pow_sub_C (R := ℝ) (n := 2) (r := 1)
    rw [map_one] at this
    rw [this, mul_comm]
  have hc : ((X ^ 2 - 1 : ℝ[X]) ^ n).coeff (2 * n) = 1 := by
    rw [← hd]; exact hm
  unfold rod
  rw [coeff_iterate_derivative, show n - m + (n + m) = 2 * n by omega, hc, nsmul_eq_mul, mul_one]
  rw [Nat.cast_ne_zero, Ne, Nat.descFactorial_eq_zero_iff_lt]
  omega

theorem rod_degree {m n : ℕ} (h : m ≤ n) : (rod n (n + m)).natDegree ≤ n - m := by
  unfold rod
  have h1 := natDegree_iterate_derivative ((X ^ 2 - 1 : ℝ[X]) ^ n) (n + m)
  have h2 : ((X ^ 2 - 1 : ℝ[X]) ^ n).natDegree ≤ 2 * n := by
    refine le_trans natDegree_pow_le ?_
    have : (X ^ 2 - 1 : ℝ[X]).natDegree ≤ 2 := by
      have := natDegree_X_pow_sub_C (R := ℝ) (n := 2) (r := 1)
      rw [map_one] at this
      exact this.le
    nlinarith
  omega

/-- Polynomials of strictly increasing degree are independent. -/
theorem triangular {m K : ℕ} {p : ℕ → ℝ[X]} (hd : ∀ n, m ≤ n → n ≤ K → (p n).natDegree ≤ n - m)
    (hc : ∀ n, m ≤ n → n ≤ K → (p n).coeff (n - m) ≠ 0) {c : ℕ → ℝ}
    (h : ∑ n ∈ Finset.Icc m K, C (c n) * p n = 0) : ∀ n, m ≤ n → n ≤ K → c n = 0 := by
  suffices H : ∀ j n, K - n = j → m ≤ n → n ≤ K → c n = 0 from fun n h1 h2 => H _ n rfl h1 h2
  intro j
  induction j using Nat.strong_induction_on with
  | _ j ih =>
    intro n hj h1 h2
    have e := congrArg (fun q : ℝ[X] => q.coeff (n - m)) h
    simp only [finset_sum_coeff, coeff_C_mul, coeff_zero] at e
    rw [Finset.sum_eq_single n] at e
    · exact (mul_eq_zero.mp e).resolve_right (hc n h1 h2)
    · intro k hk hne
      rw [Finset.mem_Icc] at hk
      rcases lt_or_gt_of_ne hne with hlt | hgt
      · rw [coeff_eq_zero_of_natDegree_lt (lt_of_le_of_lt (hd k hk.1 hk.2) (by omega)), mul_zero]
      · rw [ih (K - k) (by omega) k rfl hk.1 hk.2, zero_mul]
    · intro hn
      exact absurd (Finset.mem_Icc.mpr ⟨h1, h2⟩) hn

theorem sum_degree {m K : ℕ} {p : ℕ → ℝ[X]} (hd : ∀ n, m ≤ n → n ≤ K → (p n).natDegree ≤ n - m) (c : ℕ → ℝ) :
    (∑ n ∈ Finset.Icc m K, C (c n) * p n).natDegree ≤ K - m := by
  refine natDegree_sum_le_of_forall_le _ _ fun n hn => ?_
  rw [Finset.mem_Icc] at hn
  refine le_trans (natDegree_C_mul_le _ _) (le_trans (hd n hn.1 hn.2) ?_)
  omega

/-- A combination of such polynomials with more zeros than its degree has no coefficients. -/
theorem triangular_zeros {m K : ℕ} {p : ℕ → ℝ[X]} (hd : ∀ n, m ≤ n → n ≤ K → (p n).natDegree ≤ n - m)
    (hc : ∀ n, m ≤ n → n ≤ K → (p n).coeff (n - m) ≠ 0) {c : ℕ → ℝ} {S : Finset ℕ} {x : ℕ → ℝ}
    (hx : Set.InjOn x S) (hS : K - m < S.card)
    (h : ∀ i ∈ S, ∑ n ∈ Finset.Icc m K, c n * (p n).eval (x i) = 0) : ∀ n, m ≤ n → n ≤ K → c n = 0 := by
  refine triangular hd hc ?_
  refine eq_zero_of_natDegree_lt_card_of_eval_eq_zero' _ (S.image x) ?_ ?_
  · intro y hy
    obtain ⟨i, hi, rfl⟩ := Finset.mem_image.mp hy
    rw [eval_finset_sum]
    simpa using h i hi
  · rw [Finset.card_image_of_injOn hx]
    exact lt_of_le_of_lt (sum_degree hd c) hS

theorem norm_ne (m n : ℕ) : norm m n ≠ 0 := by
  unfold norm
  positivity

/-! ### Longitudes -/

/-- A trigonometric polynomial of degree less than half the number of longitudes is determined by its values there. -/
theorem waves_zero {N M : ℕ} (hM : 2 * M ≤ N + 1) (hN : 0 < N) {A B : ℕ → ℝ}
    (h : ∀ j < N, ∑ m ∈ Finset.range M, half m *
      (A m * Real.cos (m * (2 * Real.pi * j / N)) - B m * Real.sin (m * (2 * Real.pi * j / N))) = 0) :
    ∀ m < M, A m = 0 ∧ (m ≠ 0 → B m = 0) := by
  rcases Nat.eq_zero_or_pos M with rfl | hM0
  · intro m hm; omega
  set z : ℂ := Complex.exp (2 * Real.pi * Complex.I / N) with hz
  have hprim : IsPrimitiveRoot z N := Complex.isPrimitiveRoot_exp N (by omega)
  set Cc : ℕ → ℂ := fun m => ⟨A m, B m⟩ with hC
  set Q : ℂ[X] := ∑ m ∈ Finset.range M, (C ((half m : ℂ) * Cc m) * X ^ (M - 1 + m)
    + C ((half m : ℂ) * starRingEnd ℂ (Cc m)) * X ^ (M - 1 - m)) with hQ
  have hdeg : Q.natDegree < N := by
    refine lt_of_le_of_lt (b := 2 * M - 2) ?_ (by omega)
    refine natDegree_sum_le_of_forall_le _ _ fun m hm => ?_
    rw [Finset.mem_range] at hm
    refine natDegree_add_le_of_degree_le (le_trans (natDegree_C_mul_X_pow_le _ _) (by omega))
      (le_trans (natDegree_C_mul_X_pow_le _ _) (by omega))
  have hroot : ∀ j < N, Q.eval (z ^ j) = 0 := by
    intro j hj
    set θ : ℝ := 2 * Real.pi * j / N with hθ
    have hzj : z ^ j = Complex.exp (θ * Complex.I) := by
      rw [hz, ← Complex.exp_nat_mul]
      congr 1
      rw [hθ]; push_cast; ring
    have hne : z ^ j ≠ 0 := by rw [hzj]; exact Complex.exp_ne_zero _
    have key : ∀ m : ℕ, (z ^ j) ^ m = ⟨Real.cos (m * θ), Real.sin (m * θ)⟩ := by
      intro m
      rw [hzj, ← Complex.exp_nat_mul, show (m : ℂ) * (θ * Complex.I) = ((m * θ : ℝ) : ℂ) * Complex.I by push_cast; ring,
        Complex.exp_mul_I, ← Complex.ofReal_cos, ← Complex.ofReal_sin]
      apply Complex.ext
      · simp only [Complex.add_re, Complex.mul_re, Complex.ofReal_re, Complex.ofReal_im, Complex.I_re, Complex.I_im]; ring
      · simp only [Complex.add_im, Complex.mul_im, Complex.ofReal_re, Complex.ofReal_im, Complex.I_re, Complex.I_im]; ring
    have hinv : ∀ m : ℕ, ((z ^ j) ^ m)⁻¹ = ⟨Real.cos (m * θ), - Real.sin (m * θ)⟩ := by
      intro m
      have : (⟨Real.cos (m * θ), Real.sin (m * θ)⟩ : ℂ) * ⟨Real.cos (m * θ), - Real.sin (m * θ)⟩ = 1 := by
        apply Complex.ext
        · simp only [Complex.mul_re, Complex.one_re]; nlinarith [Real.sin_sq_add_cos_sq (m * θ)]
        · simp only [Complex.mul_im, Complex.one_im]; ring
      rw [key]
      exact inv_eq_of_mul_eq_one_right this
    have e : Q.eval (z ^ j) = (z ^ j) ^ (M - 1) * ((2 * ∑ m ∈ Finset.range M, half m *
        (A m * Real.cos (m * θ) - B m * Real.sin (m * θ)) : ℝ) : ℂ) := by
      rw [hQ, eval_finset_sum]
      rw [Complex.ofReal_mul, Complex.ofReal_sum, Finset.mul_sum, Finset.mul_sum]
      refine Finset.sum_congr rfl fun m hm => ?_
      rw [Finset.mem_range] at hm
      have e2 : (z ^ j) ^ (M - 1 - m) = (z ^ j) ^ (M - 1) * ((z ^ j) ^ m)⁻¹ := by
        rw [pow_sub₀ _ hne (by omega)]
      simp only [eval_add, eval_mul, eval_C, eval_pow, eval_X]
      rw [pow_add, e2, hinv, key m]
      have : (Cc m) * ⟨Real.cos (m * θ), Real.sin (m * θ)⟩ + starRingEnd ℂ (Cc m) * ⟨Real.cos (m * θ), - Real.sin (m * θ)⟩
          = ((2 * (A m * Real.cos (m * θ) - B m * Real.sin (m * θ)) : ℝ) : ℂ) := by
        apply Complex.ext
        · simp only [hC, Complex.add_re, Complex.mul_re, Complex.conj_re, Complex.conj_im, Complex.ofReal_re]; ring
        · simp only [hC, Complex.add_im, Complex.mul_im, Complex.conj_re, Complex.conj_im, Complex.ofReal_im]; ring
      push_cast at this ⊢
      linear_combination (half m : ℂ) * (z ^ j) ^ (M - 1) * this
    rw [e, h j hj]
    simp
  have hzero : Q = 0 := by
    refine eq_zero_of_natDegree_lt_card_of_eval_eq_zero' _ ((Finset.range N).image fun j => z ^ j) ?_ ?_
    · intro y hy
      obtain ⟨j, hj, rfl⟩ := Finset.mem_image.mp hy
      exact hroot j (Finset.mem_range.mp hj)
    · rw [Finset.card_image_of_injOn, Finset.card_range]
      · exact hdeg
      · intro a ha b hb hab
        exact hprim.pow_inj (by simpa using ha) (by simpa using hb) hab
  intro k hk
  have hco := congrArg (fun q : ℂ[X] => q.coeff (M - 1 + k)) hzero
  rw [hQ] at hco
  simp only [finset_sum_coeff, coeff_add, coeff_C_mul, coeff_X_pow, coeff_zero] at hco
  rw [Finset.sum_eq_single k] at hco
  · rw [if_pos rfl] at hco
    rcases Nat.eq_zero_or_pos k with rfl | hk0
    · refine ⟨?_, fun h => absurd rfl h⟩
      simp only [Nat.sub_zero, add_zero, if_true, mul_one] at hco
      have := congrArg Complex.re hco
      simp [half, hC] at this
      linarith
    · rw [if_neg (by omega), mul_zero, add_zero, mul_one] at hco
      have hh : half k = 1 := by unfold half; rw [if_neg (by omega)]
      rw [hh, Complex.ofReal_one, one_mul] at hco
      have h1 := congrArg Complex.re hco
      have h2 := congrArg Complex.im hco
      simp [hC] at h1 h2
      exact ⟨h1, fun _ => h2⟩
  · intro m hm hne
    rw [Finset.mem_range] at hm
    rw [if_neg (by omega), if_neg (by omega)]
    ring
  · intro hn
    exact absurd (Finset.mem_range.mpr hk) hn

end Skyborn.Sphere
