/-
The discrete Fourier analysis of a row of points.
-/
import Verif.RedGauss.Rows
import Mathlib.RingTheory.RootsOfUnity.Complex

namespace Skyborn.RedGauss.Spec

/-- The real field on a circle with the Fourier coefficients `A 0, …, A T`, as far as `N` equally spaced points can carry
it: waves shorter than two grid lengths are dropped and the wave of exactly two grid lengths is counted once. -/
noncomputable def rowField (N T : ℕ) (A : ℕ → ℂ) (l : ℝ) : ℝ :=
  ∑ m ∈ (Finset.range (T + 1)).filter (fun m => 2 * m ≤ N), (if m = 0 ∨ 2 * m = N then 1 else 2) * (A m * Complex.exp (Complex.I * (m * l))).re

/-- Fourier coefficient `m` at colatitude `θ` of the spherical-harmonic series with coefficients `a`. -/
noncomputable def order (T : ℕ) (a : ℕ → ℕ → ℂ) (θ : ℝ) (m : ℕ) : ℂ := ∑ n ∈ Finset.Icc m T, a m n * (Sphere.pbar m n θ : ℂ)

end Skyborn.RedGauss.Spec

namespace Skyborn.RedGauss

open Complex

/-- A row that resolves every wave carries the series itself. -/
theorem rowField_full {N T : ℕ} (h : 2 * T < N) (a : ℕ → ℕ → ℂ) (θ l : ℝ) :
    Spec.rowField N T (Spec.order T a θ) l = Spec.series T a θ l := by
  unfold Spec.rowField Spec.series Spec.order
  rw [Finset.filter_true_of_mem fun m hm => by rw [Finset.mem_range] at hm; omega]
  refine Finset.sum_congr rfl fun m hm => ?_
  rw [Finset.mem_range] at hm
  congr 1
  by_cases h0 : m = 0
  · simp [h0]
  · rw [if_neg (by omega), if_neg h0]

theorem re_exp_mul (A : ℂ) (x : ℝ) : (A * exp (I * x)).re = A.re * Real.cos x - A.im * Real.sin x := by
  rw [mul_comm I, exp_mul_I, mul_re]
  simp [← ofReal_cos, ← ofReal_sin]

/-- The series the code evaluates at a point of the row. -/
theorem fourSeries_row {N T i : ℕ} (hN : 1 ≤ N) (hi : 1 ≤ i) (A : ℕ → ℂ) (c s : ℕ → ℝ) (h0 : c 0 = 2 * (A 0).re) (hc : ∀ m, 1 ≤ m → m ≤ T → c m = 2 * (A m).re)
    (hs : ∀ m, 1 ≤ m → m ≤ T → s m = 2 * (A m).im) : fourSeries N T c s (lam N i) = Spec.rowField N T A (lam N i) := by
  unfold fourSeries Spec.rowField
  have hset : (Finset.range (T + 1)).filter (fun m => 2 * m ≤ N) = insert 0 ((Finset.Icc 1 T).filter (fun m => 2 * m ≤ N)) := by
    ext m; simp only [Finset.mem_filter, Finset.mem_range, Finset.mem_insert, Finset.mem_Icc]; omega
  rw [hset, Finset.sum_insert (by simp), h0]
  congr 1
  · simp
  · refine Finset.sum_congr rfl fun m hm => ?_
    rw [Finset.mem_filter, Finset.mem_Icc] at hm
    have e : (I * ((m : ℂ) * ((lam N i : ℝ) : ℂ))) = I * (((m : ℝ) * lam N i : ℝ) : ℂ) := by push_cast; ring
    rw [e, re_exp_mul, hc m hm.1.1 hm.1.2, hs m hm.1.1 hm.1.2]
    by_cases hny : 2 * m = N
    · rw [if_pos hny, if_pos hny, if_pos (Or.inr hny), sin_nyquist hN hny hi]; ring
    · rw [if_neg hny, if_neg hny, if_neg (by omega)]; ring

/-- Waves around a row add up to zero unless they are constant on it. -/
theorem sum_wave {N : ℕ} (hN : 1 ≤ N) (d : ℤ) :
    ∑ i ∈ Finset.Icc 1 N, exp (I * (d * (Spec.lon N i : ℝ))) = if (N : ℤ) ∣ d then (N : ℂ) else 0 := by
  have hN0 : (N : ℂ) ≠ 0 := by exact_mod_cast (by omega : N ≠ 0)
  have hp := Complex.isPrimitiveRoot_exp N (by omega)
  set ζ := exp (2 * Real.pi * I / N) with hζ
  have e : ∀ q : ℕ, exp (I * (d * (Spec.lon N (1 + q) : ℝ))) = (ζ ^ d) ^ q := by
    intro q
    rw [hζ, ← exp_int_mul, ← exp_nat_mul]
    congr 1
    unfold Spec.lon; push_cast; field_simp; ring
  rw [← Finset.Ico_add_one_right_eq_Icc, Finset.sum_Ico_eq_sum_range]
  simp only [e, Nat.add_sub_cancel]
  by_cases hd : (N : ℤ) ∣ d
  · rw [if_pos hd, (hp.zpow_eq_one_iff_dvd d).mpr hd]; simp
  · rw [if_neg hd]
    have h1 : ζ ^ d ≠ 1 := fun h => hd ((hp.zpow_eq_one_iff_dvd d).mp h)
    have hz : (ζ ^ d) ^ N = 1 := by
      rw [← zpow_natCast, ← zpow_mul, mul_comm, zpow_mul, zpow_natCast, hp.pow_eq_one, one_zpow]
    rw [geom_sum_eq h1, hz]; simp

theorem coef_wave {N : ℕ} (hN : 1 ≤ N) (m : ℕ) (d : ℤ) :
    (1 / (N : ℂ)) * ∑ i ∈ Finset.Icc 1 N, exp (I * (d * (Spec.lon N i : ℝ))) * exp (-(I * (m * (Spec.lon N i : ℝ)))) = if (N : ℤ) ∣ d - m then 1 else 0 := by
  have hN0 : (N : ℂ) ≠ 0 := by exact_mod_cast (by omega : N ≠ 0)
  have := sum_wave hN (d - m)
  have e : ∀ i ∈ Finset.Icc 1 N, exp (I * (d * (Spec.lon N i : ℝ))) * exp (-(I * (m * (Spec.lon N i : ℝ)))) = exp (I * ((d - m : ℤ) * (Spec.lon N i : ℝ))) := by
    intro i _
    rw [← exp_add]; congr 1; push_cast; ring
  rw [Finset.sum_congr rfl e, this]
  split_ifs
  · field_simp
  · simp

/-- **The Fourier analysis of a row gives back the coefficients the row carries.** -/
theorem circleCoef_rowField {N T m : ℕ} (hN : 1 ≤ N) (hm : m ≤ T) (h2 : 2 * m ≤ N) (A : ℕ → ℂ) :
    Spec.circleCoef N (fun i => Spec.rowField N T A (Spec.lon N i)) m = if m = 0 ∨ 2 * m = N then ((A m).re : ℂ) else A m := by
  unfold Spec.circleCoef
  have ex : ∀ i, ((Spec.rowField N T A (Spec.lon N i) : ℝ) : ℂ) = ∑ q ∈ (Finset.range (T + 1)).filter (fun m => 2 * m ≤ N),
      ((if q = 0 ∨ 2 * q = N then 1 else 2 : ℝ) : ℂ) / 2 * (A q * exp (I * ((q : ℤ) * (Spec.lon N i : ℝ))) + (starRingEnd ℂ) (A q) * exp (I * ((-q : ℤ) * (Spec.lon N i : ℝ)))) := by
    intro i
    unfold Spec.rowField
    rw [ofReal_sum]
    refine Finset.sum_congr rfl fun q _ => ?_
    rw [ofReal_mul, re_eq_add_conj, map_mul, ← exp_conj, map_mul, conj_I]
    have : (starRingEnd ℂ) ((q : ℂ) * ((Spec.lon N i : ℝ) : ℂ)) = (q : ℂ) * ((Spec.lon N i : ℝ) : ℂ) := by
      rw [map_mul, conj_ofReal, map_natCast]
    rw [this]
    push_cast
    rw [show -I * ((q : ℂ) * ((Spec.lon N i : ℝ) : ℂ)) = I * (-(q : ℂ) * ((Spec.lon N i : ℝ) : ℂ)) by ring]
    ring
  have step : (1 / (N : ℂ)) * ∑ i ∈ Finset.Icc 1 N, ((Spec.rowField N T A (Spec.lon N i) : ℝ) : ℂ) * exp (-(I * (m * (Spec.lon N i : ℝ)))) =
      ∑ q ∈ (Finset.range (T + 1)).filter (fun m => 2 * m ≤ N), ((if q = 0 ∨ 2 * q = N then 1 else 2 : ℝ) : ℂ) / 2 *
        (A q * (if (N : ℤ) ∣ (q : ℤ) - m then 1 else 0) + (starRingEnd ℂ) (A q) * (if (N : ℤ) ∣ (-q : ℤ) - m then 1 else 0)) := by
    simp only [ex, ← coef_wave hN m, Finset.sum_mul, Finset.mul_sum]
    rw [Finset.sum_comm]
    refine Finset.sum_congr rfl fun q _ => ?_
    rw [← Finset.sum_add_distrib, Finset.mul_sum]
    refine Finset.sum_congr rfl fun i _ => ?_
    ring
  refine step.trans ?_
  rw [Finset.sum_eq_single m]
  · rw [if_pos (show (N : ℤ) ∣ (m : ℤ) - m by simp)]
    by_cases h0 : m = 0 ∨ 2 * m = N
    · rw [if_pos h0, if_pos h0, if_pos]
      · rw [re_eq_add_conj]; push_cast; ring
      · rcases h0 with h0 | h0
        · simp [h0]
        · exact ⟨-1, by omega⟩
    · rw [if_neg h0, if_neg h0, if_neg]
      · push_cast; ring
      · intro hd
        have := Int.le_of_dvd (by omega) (show (N : ℤ) ∣ (2 * m : ℤ) by have := (Int.dvd_neg.mpr hd); convert this using 1; ring)
        omega
  · intro q hq hne
    rw [Finset.mem_filter, Finset.mem_range] at hq
    have a1 : ¬ (N : ℤ) ∣ (q : ℤ) - m := by
      intro hd
      by_cases hlt : m < q
      · have := Int.le_of_dvd (by omega) hd; omega
      · have := Int.le_of_dvd (by omega) (show (N : ℤ) ∣ (m - q : ℤ) by have := (Int.dvd_neg.mpr hd); convert this using 1; ring); omega
    have a2 : ¬ (N : ℤ) ∣ (-q : ℤ) - m := by
      intro hd
      have hd' : (N : ℤ) ∣ (q + m : ℤ) := by have := (Int.dvd_neg.mpr hd); convert this using 1; ring
      have := Int.le_of_dvd (by omega) hd'; omega
    rw [if_neg a1, if_neg a2]; simp
  · intro hm'
    exact (hm' (Finset.mem_filter.mpr ⟨Finset.mem_range.mpr (by omega), h2⟩)).elim

end Skyborn.RedGauss
