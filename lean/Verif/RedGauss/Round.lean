/-
What the kernels compute, in terms of the sphere: truncated series, their gradients, Gaussian analysis; and the round
trips these formulas make under exact Gaussian quadrature.
-/
import Verif.RedGauss.Circle
import Verif.RedGauss.Grad
import Verif.RedGauss.Vec
import Verif.RedGauss.Tables
import Verif.Sphere.Ortho

namespace Skyborn.RedGauss.Spec

open Complex

/-- Fourier coefficient `m` of the derivative of the series with respect to colatitude. -/
noncomputable def dorder (T : ℕ) (a : ℕ → ℕ → ℂ) (θ : ℝ) (m : ℕ) : ℂ := ∑ n ∈ Finset.Icc m T, a m n * (Sphere.dpbar m n θ : ℂ)

/-- Eastward component of the gradient of a series on a sphere of radius `r`, on a row of `N` points. -/
noncomputable def east (N T : ℕ) (r : ℝ) (a : ℕ → ℕ → ℂ) (θ l : ℝ) : ℝ := rowField N T (fun m => I * ((m / (r * Real.sin θ) : ℝ) : ℂ) * order T a θ m) l

/-- Northward component. -/
noncomputable def north (N T : ℕ) (r : ℝ) (a : ℕ → ℕ → ℂ) (θ l : ℝ) : ℝ := rowField N T (fun m => -((1 / r : ℝ) : ℂ) * dorder T a θ m) l

/-- Analysis of a field `f j i` (row, point) on a reduced grid: Fourier analysis of the rows that carry the wave, then
Gaussian quadrature over the rows. -/
noncomputable def analysis (nlat : ℕ) (pl : ℕ → ℕ) (θ w : ℕ → ℝ) (f : ℕ → ℕ → ℝ) (m n : ℕ) : ℂ :=
  ∑ j ∈ (Finset.Icc 1 nlat).filter (fun j => 2 * m ≤ pl j), ((w j * Sphere.pbar m n (θ j) : ℝ) : ℂ) * circleCoef (pl j) (f j) m

/-- Divergence analysis of an eastward and a northward component: minus the quadrature of the wind against the gradient of
the conjugate harmonic. -/
noncomputable def divergence (nlat : ℕ) (pl : ℕ → ℕ) (θ w : ℕ → ℝ) (r : ℝ) (u v : ℕ → ℕ → ℝ) (m n : ℕ) : ℂ :=
  ∑ j ∈ (Finset.Icc 1 nlat).filter (fun j => 2 * m ≤ pl j), ((w j / r : ℝ) : ℂ) *
    (I * ((m / Real.sin (θ j) * Sphere.pbar m n (θ j) : ℝ) : ℂ) * circleCoef (pl j) (u j) m + (Sphere.dpbar m n (θ j) : ℂ) * circleCoef (pl j) (v j) m)

/-- Vorticity analysis. -/
noncomputable def vorticity (nlat : ℕ) (pl : ℕ → ℕ) (θ w : ℕ → ℝ) (r : ℝ) (u v : ℕ → ℕ → ℝ) (m n : ℕ) : ℂ :=
  ∑ j ∈ (Finset.Icc 1 nlat).filter (fun j => 2 * m ≤ pl j), ((w j / r : ℝ) : ℂ) *
    (I * ((m / Real.sin (θ j) * Sphere.pbar m n (θ j) : ℝ) : ℂ) * circleCoef (pl j) (v j) m - (Sphere.dpbar m n (θ j) : ℂ) * circleCoef (pl j) (u j) m)

end Skyborn.RedGauss.Spec

namespace Skyborn.RedGauss

open Complex Sphere

/-! ### The kernels' formulas -/

theorem cosC_order {T : ℕ} {spec : ℕ → ℂ} {b : ℕ → ℝ} {θ : ℝ} (hb : ∀ m n, m ≤ n → n ≤ T → b (nmOf T m n) = pbar m n θ) (m : ℕ) :
    cosC T spec b m = 2 * (Spec.order T (fun m n => spec (nmOf T m n)) θ m).re ∧ sinC T spec b m = 2 * (Spec.order T (fun m n => spec (nmOf T m n)) θ m).im := by
  unfold cosC sinC Spec.order
  rw [re_sum, im_sum]
  constructor <;> congr 1 <;> refine Finset.sum_congr rfl fun n hn => ?_ <;> rw [Finset.mem_Icc] at hn <;> rw [hb m n hn.1 hn.2]
  · rw [re_mul_ofReal]
  · rw [im_mul_ofReal]

theorem cosC_dorder {T : ℕ} {spec : ℕ → ℂ} {b : ℕ → ℝ} {θ : ℝ} (hb : ∀ m n, m ≤ n → n ≤ T → b (nmOf T m n) = dpbar m n θ) (m : ℕ) :
    cosC T spec b m = 2 * (Spec.dorder T (fun m n => spec (nmOf T m n)) θ m).re ∧ sinC T spec b m = 2 * (Spec.dorder T (fun m n => spec (nmOf T m n)) θ m).im := by
  unfold cosC sinC Spec.dorder
  rw [re_sum, im_sum]
  constructor <;> congr 1 <;> refine Finset.sum_congr rfl fun n hn => ?_ <;> rw [Finset.mem_Icc] at hn <;> rw [hb m n hn.1 hn.2]
  · rw [re_mul_ofReal]
  · rw [im_mul_ofReal]

theorem synth_row {N T i : ℕ} (hN : 1 ≤ N) (hi : 1 ≤ i) {spec : ℕ → ℂ} {b : ℕ → ℝ} {θ : ℝ} (hb : ∀ m n, m ≤ n → n ≤ T → b (nmOf T m n) = pbar m n θ) :
    fourSeries N T (cosC T spec b) (sinC T spec b) (lam N i) = Spec.rowField N T (Spec.order T (fun m n => spec (Spec.pos T m n)) θ) (Spec.lon N i) :=
  fourSeries_row hN hi _ _ _ (cosC_order hb 0).1 (fun m _ _ => (cosC_order hb m).1) (fun m _ _ => (cosC_order hb m).2)

theorem gradU_row {N T i : ℕ} (hN : 1 ≤ N) (hi : 1 ≤ i) {spec : ℕ → ℂ} {b : ℕ → ℝ} {θ r : ℝ} (hb : ∀ m n, m ≤ n → n ≤ T → b (nmOf T m n) = pbar m n θ) :
    gradU N T (1 / r / Real.sin θ) spec b (lam N i) = Spec.east N T r (fun m n => spec (Spec.pos T m n)) θ (Spec.lon N i) := by
  have e : ∀ m : ℕ, (m : ℝ) / (r * Real.sin θ) = m * (1 / r / Real.sin θ) := fun m => by rw [div_div, one_div, div_eq_mul_inv]
  have h1 : ∀ (x : ℝ) (z : ℂ), (I * (x : ℂ) * z).re = -(x * z.im) := fun x z => by simp
  have h2 : ∀ (x : ℝ) (z : ℂ), (I * (x : ℂ) * z).im = x * z.re := fun x z => by simp
  refine fourSeries_row hN hi _ _ _ ?_ ?_ ?_
  · simp
  · intro m _ _; rw [h1, e, (cosC_order hb m).2]; rw [nmOf_pos]; ring
  · intro m _ _; rw [h2, e, (cosC_order hb m).1]; rw [nmOf_pos]; ring

theorem gradV_row {N T i : ℕ} (hN : 1 ≤ N) (hi : 1 ≤ i) {spec : ℕ → ℂ} {b : ℕ → ℝ} {θ r : ℝ} (hb : ∀ m n, m ≤ n → n ≤ T → b (nmOf T m n) = dpbar m n θ) :
    gradV N T (1 / r) spec b (lam N i) = Spec.north N T r (fun m n => spec (Spec.pos T m n)) θ (Spec.lon N i) := by
  have h1 : ∀ (x : ℝ) (z : ℂ), (-(x : ℂ) * z).re = -(x * z.re) := fun x z => by simp
  have h2 : ∀ (x : ℝ) (z : ℂ), (-(x : ℂ) * z).im = -(x * z.im) := fun x z => by simp
  refine fourSeries_row hN hi _ _ _ ?_ ?_ ?_
  · rw [h1, (cosC_dorder hb 0).1, nmOf_pos]; ring
  · intro m _ _; rw [h1, (cosC_dorder hb m).1, nmOf_pos]; ring
  · intro m _ _; rw [h2, (cosC_dorder hb m).2, nmOf_pos]; ring

/-! ### Derivatives -/

theorem hasDerivAt_rowField (N T : ℕ) (A : ℕ → ℂ) (l : ℝ) :
    HasDerivAt (Spec.rowField N T A) (Spec.rowField N T (fun m => I * (m : ℂ) * A m) l) l := by
  unfold Spec.rowField
  refine HasDerivAt.fun_sum fun m _ => ?_
  refine HasDerivAt.const_mul _ ?_
  have e : ∀ x : ℝ, (A m * exp (I * (m * (x : ℂ)))).re = (A m).re * Real.cos (m * x) - (A m).im * Real.sin (m * x) := fun x => by
    rw [show I * ((m : ℂ) * (x : ℂ)) = I * (((m : ℝ) * x : ℝ) : ℂ) by push_cast; ring, re_exp_mul]
  have e2 : (I * (m : ℂ) * A m * exp (I * (m * (l : ℂ)))).re = (A m).re * (-Real.sin (m * l) * m) - (A m).im * (Real.cos (m * l) * m) := by
    rw [show I * ((m : ℂ) * (l : ℂ)) = I * (((m : ℝ) * l : ℝ) : ℂ) by push_cast; ring, re_exp_mul]
    have h1 : (I * (m : ℂ) * A m).re = -((m : ℝ) * (A m).im) := by simp
    have h2 : (I * (m : ℂ) * A m).im = (m : ℝ) * (A m).re := by simp
    rw [h1, h2]; ring
  rw [e2]
  simp only [e]
  have hm : HasDerivAt (fun x : ℝ => (m : ℝ) * x) m l := by simpa using (hasDerivAt_id l).const_mul (m : ℝ)
  exact ((Real.hasDerivAt_cos _).comp l hm).const_mul _ |>.sub (((Real.hasDerivAt_sin _).comp l hm).const_mul _)

/-- **The eastward component** times the distance to the axis is the derivative along the row. -/
theorem east_deriv (N T : ℕ) {r θ : ℝ} (hr : 0 < r) (hs : 0 < Real.sin θ) (a : ℕ → ℕ → ℂ) (l : ℝ) :
    HasDerivAt (Spec.rowField N T (Spec.order T a θ)) (r * Real.sin θ * Spec.east N T r a θ l) l := by
  have := hasDerivAt_rowField N T (Spec.order T a θ) l
  refine this.congr_deriv ?_
  unfold Spec.east Spec.rowField
  rw [Finset.mul_sum]
  refine Finset.sum_congr rfl fun m _ => ?_
  beta_reduce
  have key : ∀ (x : ℝ) (z y : ℂ), (I * (x : ℂ) * z * y).re = x * (I * z * y).re := fun x z y => by
    rw [← re_ofReal_mul]; congr 1; ring
  have h1 := key m (Spec.order T a θ m) (exp (I * (m * (l : ℂ))))
  rw [ofReal_natCast] at h1
  rw [key, h1]
  field_simp

/-- **The northward component** times the radius is minus the derivative with respect to colatitude. -/
theorem north_deriv (N T : ℕ) {r : ℝ} (hr : 0 < r) (a : ℕ → ℕ → ℂ) (θ l : ℝ) :
    HasDerivAt (fun t => Spec.rowField N T (Spec.order T a t) l) (-(r * Spec.north N T r a θ l)) θ := by
  have hd : HasDerivAt (fun t => Spec.rowField N T (Spec.order T a t) l) (Spec.rowField N T (Spec.dorder T a θ) l) θ := by
    unfold Spec.rowField
    refine HasDerivAt.fun_sum fun m _ => ?_
    refine HasDerivAt.const_mul _ ?_
    have e : ∀ t : ℝ, (Spec.order T a t m * exp (I * (m * (l : ℂ)))).re = ∑ n ∈ Finset.Icc m T, (a m n * exp (I * (m * (l : ℂ)))).re * pbar m n t := fun t => by
      unfold Spec.order
      rw [Finset.sum_mul, re_sum]
      refine Finset.sum_congr rfl fun n _ => ?_
      rw [mul_right_comm, re_mul_ofReal]
    have e2 : (Spec.dorder T a θ m * exp (I * (m * (l : ℂ)))).re = ∑ n ∈ Finset.Icc m T, (a m n * exp (I * (m * (l : ℂ)))).re * dpbar m n θ := by
      unfold Spec.dorder
      rw [Finset.sum_mul, re_sum]
      refine Finset.sum_congr rfl fun n _ => ?_
      rw [mul_right_comm, re_mul_ofReal]
    rw [e2]; simp only [e]
    exact HasDerivAt.fun_sum fun n _ => (hasDerivAt_pbar m n θ).const_mul _
  refine hd.congr_deriv ?_
  unfold Spec.north Spec.rowField
  rw [Finset.mul_sum, ← Finset.sum_neg_distrib]
  refine Finset.sum_congr rfl fun m _ => ?_
  beta_reduce
  rw [neg_mul, neg_mul, neg_re, mul_assoc, re_ofReal_mul]
  field_simp

/-! ### Round trips -/

theorem analysis_synthesis {nlat T : ℕ} {pl : ℕ → ℕ} {θ w : ℕ → ℝ} (hG : Sphere.Spec.Gauss nlat θ w) (hT : T < nlat) (a : ℕ → ℕ → ℂ)
    {m n : ℕ} (hmn : m ≤ n) (hn : n ≤ T) (hpl : ∀ j, 1 ≤ j → j ≤ nlat → 1 ≤ pl j) (hm : ∀ j, 1 ≤ j → j ≤ nlat → 2 * m < pl j) (h0 : ∀ k, (a 0 k).im = 0) :
    Spec.analysis nlat pl θ w (fun j i => Spec.rowField (pl j) T (Spec.order T a (θ j)) (Spec.lon (pl j) i)) m n = a m n := by
  unfold Spec.analysis
  rw [Finset.filter_true_of_mem fun j hj => by rw [Finset.mem_Icc] at hj; exact (hm j hj.1 hj.2).le]
  have hre : m = 0 → ∀ j, ((Spec.order T a (θ j) m).re : ℂ) = Spec.order T a (θ j) m := by
    rintro rfl j
    refine Complex.ext (by simp) ?_
    unfold Spec.order
    rw [im_sum, ofReal_im]
    exact (Finset.sum_eq_zero fun k _ => by rw [im_mul_ofReal, h0]; simp).symm
  have e : ∀ j ∈ Finset.Icc 1 nlat, ((w j * pbar m n (θ j) : ℝ) : ℂ) * Spec.circleCoef (pl j) (fun i => Spec.rowField (pl j) T (Spec.order T a (θ j)) (Spec.lon (pl j) i)) m
      = ∑ k ∈ Finset.Icc m T, a m k * ((w j * (pbar m n (θ j) * pbar m k (θ j)) : ℝ) : ℂ) := by
    intro j hj
    rw [Finset.mem_Icc] at hj
    have hlt := hm j hj.1 hj.2
    rw [circleCoef_rowField (hpl j hj.1 hj.2) (by omega) hlt.le]
    have : (if m = 0 ∨ 2 * m = pl j then ((Spec.order T a (θ j) m).re : ℂ) else Spec.order T a (θ j) m) = Spec.order T a (θ j) m := by
      split_ifs with h
      · exact hre (by omega) j
      · rfl
    rw [this]
    unfold Spec.order
    rw [Finset.mul_sum]
    refine Finset.sum_congr rfl fun k _ => ?_
    push_cast; ring
  rw [Finset.sum_congr rfl e, Finset.sum_comm]
  have e3 : ∀ k ∈ Finset.Icc m T, ∑ j ∈ Finset.Icc 1 nlat, a m k * ((w j * (pbar m n (θ j) * pbar m k (θ j)) : ℝ) : ℂ) = if n = k then a m k else 0 := by
    intro k hk
    rw [Finset.mem_Icc] at hk
    rw [← Finset.mul_sum, ← ofReal_sum, gauss_orth hG (by omega) (by omega) hmn hk.1]
    split_ifs <;> simp
  rw [Finset.sum_congr rfl e3, Finset.sum_ite_eq, if_pos (Finset.mem_Icc.mpr ⟨hmn, hn⟩)]

theorem rowField_add (N T : ℕ) (A B : ℕ → ℂ) (l : ℝ) : Spec.rowField N T (fun m => A m + B m) l = Spec.rowField N T A l + Spec.rowField N T B l := by
  unfold Spec.rowField
  rw [← Finset.sum_add_distrib]
  refine Finset.sum_congr rfl fun m _ => ?_
  rw [add_mul, add_re, mul_add]

theorem rowField_neg (N T : ℕ) (A : ℕ → ℂ) (l : ℝ) : Spec.rowField N T (fun m => -A m) l = -Spec.rowField N T A l := by
  unfold Spec.rowField
  rw [← Finset.sum_neg_distrib]
  refine Finset.sum_congr rfl fun m _ => ?_
  rw [neg_mul, neg_re, mul_neg]

/-- The analysis of a row on which the wave is resolved. -/
theorem coef_resolved {N T m : ℕ} (hN : 1 ≤ N) (hm : m ≤ T) (h2 : 2 * m < N) (A : ℕ → ℂ) (h0 : (A 0).im = 0) :
    Spec.circleCoef N (fun i => Spec.rowField N T A (Spec.lon N i)) m = A m := by
  rw [circleCoef_rowField hN hm h2.le]
  split_ifs with h
  · have : m = 0 := by omega
    subst this
    exact Complex.ext (by simp) (by simp [h0])
  · rfl

/-- The winds of a velocity potential `χ` and a stream function `ψ`. -/
noncomputable def Spec.windU (N T : ℕ) (r : ℝ) (ψ χ : ℕ → ℕ → ℂ) (θ l : ℝ) : ℝ := Spec.east N T r χ θ l - Spec.north N T r ψ θ l

/-- The northward component. -/
noncomputable def Spec.windV (N T : ℕ) (r : ℝ) (ψ χ : ℕ → ℕ → ℂ) (θ l : ℝ) : ℝ := Spec.north N T r χ θ l + Spec.east N T r ψ θ l

theorem dorder_real {T : ℕ} {a : ℕ → ℕ → ℂ} (h0 : ∀ k, (a 0 k).im = 0) (θ : ℝ) : (Spec.dorder T a θ 0).im = 0 := by
  unfold Spec.dorder
  rw [im_sum]
  exact Finset.sum_eq_zero fun k _ => by rw [im_mul_ofReal, h0]; simp

theorem windU_coef {N T m : ℕ} {r θ : ℝ} {ψ χ : ℕ → ℕ → ℂ} (hN : 1 ≤ N) (hm : m ≤ T) (h2 : 2 * m < N) (h0 : ∀ k, (ψ 0 k).im = 0) :
    Spec.circleCoef N (fun i => Spec.windU N T r ψ χ θ (Spec.lon N i)) m =
      I * ((m / (r * Real.sin θ) : ℝ) : ℂ) * Spec.order T χ θ m + ((1 / r : ℝ) : ℂ) * Spec.dorder T ψ θ m := by
  have e : ∀ l, Spec.windU N T r ψ χ θ l = Spec.rowField N T (fun m => I * ((m / (r * Real.sin θ) : ℝ) : ℂ) * Spec.order T χ θ m + ((1 / r : ℝ) : ℂ) * Spec.dorder T ψ θ m) l := by
    intro l
    unfold Spec.windU Spec.east Spec.north
    rw [sub_eq_add_neg, ← rowField_neg, ← rowField_add]
    simp only [neg_mul, neg_neg]
  simp only [e]
  refine coef_resolved hN hm h2 _ ?_
  have := dorder_real h0 (T := T) θ
  simp [this]

theorem windV_coef {N T m : ℕ} {r θ : ℝ} {ψ χ : ℕ → ℕ → ℂ} (hN : 1 ≤ N) (hm : m ≤ T) (h2 : 2 * m < N) (h0 : ∀ k, (χ 0 k).im = 0) :
    Spec.circleCoef N (fun i => Spec.windV N T r ψ χ θ (Spec.lon N i)) m =
      -((1 / r : ℝ) : ℂ) * Spec.dorder T χ θ m + I * ((m / (r * Real.sin θ) : ℝ) : ℂ) * Spec.order T ψ θ m := by
  have e : ∀ l, Spec.windV N T r ψ χ θ l = Spec.rowField N T (fun m => -((1 / r : ℝ) : ℂ) * Spec.dorder T χ θ m + I * ((m / (r * Real.sin θ) : ℝ) : ℂ) * Spec.order T ψ θ m) l := by
    intro l
    unfold Spec.windV Spec.east Spec.north
    rw [← rowField_add]
  simp only [e]
  refine coef_resolved hN hm h2 _ ?_
  have := dorder_real h0 (T := T) θ
  simp [this]

/-- Gram matrices of the vector harmonics against a series. -/
theorem gram_sum {nlat T : ℕ} {m n : ℕ} (hmn : m ≤ n) (hn : n ≤ T) (a : ℕ → ℕ → ℂ) (K : ℕ → ℕ → ℝ) (c : ℝ)
    (hK : ∀ k, m ≤ k → k ≤ T → ∑ j ∈ Finset.Icc 1 nlat, K k j = if n = k then c else 0) :
    ∑ j ∈ Finset.Icc 1 nlat, ∑ k ∈ Finset.Icc m T, a m k * (K k j : ℂ) = c * a m n := by
  rw [Finset.sum_comm]
  have : ∀ k ∈ Finset.Icc m T, ∑ j ∈ Finset.Icc 1 nlat, a m k * (K k j : ℂ) = if n = k then c * a m k else 0 := by
    intro k hk
    rw [Finset.mem_Icc] at hk
    rw [← Finset.mul_sum, ← ofReal_sum, hK k hk.1 hk.2]
    split_ifs
    · ring
    · simp
  rw [Finset.sum_congr rfl this, Finset.sum_ite_eq, if_pos (Finset.mem_Icc.mpr ⟨hmn, hn⟩)]

section Vector

variable {nlat T : ℕ} {pl : ℕ → ℕ} {θ w : ℕ → ℝ} {r : ℝ} {ψ χ : ℕ → ℕ → ℂ} {m n : ℕ}

theorem wind_analysis (hG : Sphere.Spec.Gauss nlat θ w) (hs : ∀ j, 1 ≤ j → j ≤ nlat → Real.sin (θ j) ≠ 0) (hr : r ≠ 0) (hT : T < nlat)
    (hmn : m ≤ n) (hn : n ≤ T) (hpl : ∀ j, 1 ≤ j → j ≤ nlat → 1 ≤ pl j) (hm : ∀ j, 1 ≤ j → j ≤ nlat → 2 * m < pl j)
    (h0 : ∀ k, (ψ 0 k).im = 0 ∧ (χ 0 k).im = 0) :
    Spec.divergence nlat pl θ w r (fun j i => Spec.windU (pl j) T r ψ χ (θ j) (Spec.lon (pl j) i)) (fun j i => Spec.windV (pl j) T r ψ χ (θ j) (Spec.lon (pl j) i)) m n =
      ((-((n : ℝ) * (n + 1)) / r ^ 2 : ℝ) : ℂ) * χ m n ∧
    Spec.vorticity nlat pl θ w r (fun j i => Spec.windU (pl j) T r ψ χ (θ j) (Spec.lon (pl j) i)) (fun j i => Spec.windV (pl j) T r ψ χ (θ j) (Spec.lon (pl j) i)) m n =
      ((-((n : ℝ) * (n + 1)) / r ^ 2 : ℝ) : ℂ) * ψ m n := by
  have hr' : (r : ℂ) ≠ 0 := by exact_mod_cast hr
  -- the two Gram matrices
  have G1 : ∀ k, m ≤ k → k ≤ T → ∑ j ∈ Finset.Icc 1 nlat, w j * (m / Real.sin (θ j) * pbar m n (θ j) * (m / Real.sin (θ j) * pbar m k (θ j)) + dpbar m n (θ j) * dpbar m k (θ j)) =
      if n = k then (n : ℝ) * (n + 1) else 0 := fun k h1 h2 => gauss_vec hG hs (by omega) (by omega) hmn h1
  have G2 : ∀ k, m ≤ k → k ≤ T → ∑ j ∈ Finset.Icc 1 nlat, w j * (m / Real.sin (θ j) * pbar m n (θ j) * dpbar m k (θ j) + dpbar m n (θ j) * (m / Real.sin (θ j) * pbar m k (θ j))) =
      if n = k then 0 else 0 := fun k h1 h2 => by rw [gauss_cross hG hs (by omega) (by omega) hmn h1]; simp
  have S1 := fun a => gram_sum (nlat := nlat) hmn hn a (fun k j => w j * (m / Real.sin (θ j) * pbar m n (θ j) * (m / Real.sin (θ j) * pbar m k (θ j)) + dpbar m n (θ j) * dpbar m k (θ j))) _ G1
  have S2 := fun a => gram_sum (nlat := nlat) hmn hn a (fun k j => w j * (m / Real.sin (θ j) * pbar m n (θ j) * dpbar m k (θ j) + dpbar m n (θ j) * (m / Real.sin (θ j) * pbar m k (θ j)))) _ G2
  have hfil : (Finset.Icc 1 nlat).filter (fun j => 2 * m ≤ pl j) = Finset.Icc 1 nlat :=
    Finset.filter_true_of_mem fun j hj => by rw [Finset.mem_Icc] at hj; exact (hm j hj.1 hj.2).le
  have cf : ∀ j ∈ Finset.Icc 1 nlat, (Real.sin (θ j) : ℂ) ≠ 0 := fun j hj => by
    rw [Finset.mem_Icc] at hj; exact_mod_cast hs j hj.1 hj.2
  constructor
  · unfold Spec.divergence
    rw [hfil]
    have e : ∀ j ∈ Finset.Icc 1 nlat, ((w j / r : ℝ) : ℂ) *
        (I * ((m / Real.sin (θ j) * pbar m n (θ j) : ℝ) : ℂ) * Spec.circleCoef (pl j) (fun i => Spec.windU (pl j) T r ψ χ (θ j) (Spec.lon (pl j) i)) m +
          (dpbar m n (θ j) : ℂ) * Spec.circleCoef (pl j) (fun i => Spec.windV (pl j) T r ψ χ (θ j) (Spec.lon (pl j) i)) m) =
        -(1 / (r : ℂ) ^ 2) * (∑ k ∈ Finset.Icc m T, χ m k * ((w j * (m / Real.sin (θ j) * pbar m n (θ j) * (m / Real.sin (θ j) * pbar m k (θ j)) + dpbar m n (θ j) * dpbar m k (θ j)) : ℝ) : ℂ))
        + I / (r : ℂ) ^ 2 * (∑ k ∈ Finset.Icc m T, ψ m k * ((w j * (m / Real.sin (θ j) * pbar m n (θ j) * dpbar m k (θ j) + dpbar m n (θ j) * (m / Real.sin (θ j) * pbar m k (θ j))) : ℝ) : ℂ)) := by
      intro j hj
      have hsj := cf j hj
      rw [Finset.mem_Icc] at hj
      have hlt := hm j hj.1 hj.2
      rw [windU_coef (hpl j hj.1 hj.2) (by omega) hlt fun k => (h0 k).1, windV_coef (hpl j hj.1 hj.2) (by omega) hlt fun k => (h0 k).2]
      have c1 : ∑ k ∈ Finset.Icc m T, χ m k * ((w j * (m / Real.sin (θ j) * pbar m n (θ j) * (m / Real.sin (θ j) * pbar m k (θ j)) + dpbar m n (θ j) * dpbar m k (θ j)) : ℝ) : ℂ) =
          w j * (m / Real.sin (θ j) * pbar m n (θ j) * (m / Real.sin (θ j)) * Spec.order T χ (θ j) m + dpbar m n (θ j) * Spec.dorder T χ (θ j) m) := by
        unfold Spec.order Spec.dorder
        rw [Finset.mul_sum, Finset.mul_sum, ← Finset.sum_add_distrib, Finset.mul_sum]
        refine Finset.sum_congr rfl fun k _ => ?_
        push_cast; ring
      have c2 : ∑ k ∈ Finset.Icc m T, ψ m k * ((w j * (m / Real.sin (θ j) * pbar m n (θ j) * dpbar m k (θ j) + dpbar m n (θ j) * (m / Real.sin (θ j) * pbar m k (θ j))) : ℝ) : ℂ) =
          w j * (m / Real.sin (θ j) * pbar m n (θ j) * Spec.dorder T ψ (θ j) m + dpbar m n (θ j) * (m / Real.sin (θ j)) * Spec.order T ψ (θ j) m) := by
        unfold Spec.order Spec.dorder
        rw [Finset.mul_sum, Finset.mul_sum, ← Finset.sum_add_distrib, Finset.mul_sum]
        refine Finset.sum_congr rfl fun k _ => ?_
        push_cast; ring
      rw [c1, c2]
      push_cast
      field_simp
      ring_nf
      simp only [I_sq]
      ring
    rw [Finset.sum_congr rfl e, Finset.sum_add_distrib, ← Finset.mul_sum, ← Finset.mul_sum, S1, S2]
    push_cast; ring
  · unfold Spec.vorticity
    rw [hfil]
    have e : ∀ j ∈ Finset.Icc 1 nlat, ((w j / r : ℝ) : ℂ) *
        (I * ((m / Real.sin (θ j) * pbar m n (θ j) : ℝ) : ℂ) * Spec.circleCoef (pl j) (fun i => Spec.windV (pl j) T r ψ χ (θ j) (Spec.lon (pl j) i)) m -
          (dpbar m n (θ j) : ℂ) * Spec.circleCoef (pl j) (fun i => Spec.windU (pl j) T r ψ χ (θ j) (Spec.lon (pl j) i)) m) =
        -(1 / (r : ℂ) ^ 2) * (∑ k ∈ Finset.Icc m T, ψ m k * ((w j * (m / Real.sin (θ j) * pbar m n (θ j) * (m / Real.sin (θ j) * pbar m k (θ j)) + dpbar m n (θ j) * dpbar m k (θ j)) : ℝ) : ℂ))
        - I / (r : ℂ) ^ 2 * (∑ k ∈ Finset.Icc m T, χ m k * ((w j * (m / Real.sin (θ j) * pbar m n (θ j) * dpbar m k (θ j) + dpbar m n (θ j) * (m / Real.sin (θ j) * pbar m k (θ j))) : ℝ) : ℂ)) := by
      intro j hj
      have hsj := cf j hj
      rw [Finset.mem_Icc] at hj
      have hlt := hm j hj.1 hj.2
      rw [windU_coef (hpl j hj.1 hj.2) (by omega) hlt fun k => (h0 k).1, windV_coef (hpl j hj.1 hj.2) (by omega) hlt fun k => (h0 k).2]
      have c1 : ∑ k ∈ Finset.Icc m T, ψ m k * ((w j * (m / Real.sin (θ j) * pbar m n (θ j) * (m / Real.sin (θ j) * pbar m k (θ j)) + dpbar m n (θ j) * dpbar m k (θ j)) : ℝ) : ℂ) =
          w j * (m / Real.sin (θ j) * pbar m n (θ j) * (m / Real.sin (θ j)) * Spec.order T ψ (θ j) m + dpbar m n (θ j) * Spec.dorder T ψ (θ j) m) := by
        unfold Spec.order Spec.dorder
        rw [Finset.mul_sum, Finset.mul_sum, ← Finset.sum_add_distrib, Finset.mul_sum]
        refine Finset.sum_congr rfl fun k _ => ?_
        push_cast; ring
      have c2 : ∑ k ∈ Finset.Icc m T, χ m k * ((w j * (m / Real.sin (θ j) * pbar m n (θ j) * dpbar m k (θ j) + dpbar m n (θ j) * (m / Real.sin (θ j) * pbar m k (θ j))) : ℝ) : ℂ) =
          w j * (m / Real.sin (θ j) * pbar m n (θ j) * Spec.dorder T χ (θ j) m + dpbar m n (θ j) * (m / Real.sin (θ j)) * Spec.order T χ (θ j) m) := by
        unfold Spec.order Spec.dorder
        rw [Finset.mul_sum, Finset.mul_sum, ← Finset.sum_add_distrib, Finset.mul_sum]
        refine Finset.sum_congr rfl fun k _ => ?_
        push_cast; ring
      rw [c1, c2]
      push_cast
      field_simp
      ring_nf
      simp only [I_sq]
      ring
    rw [Finset.sum_congr rfl e, Finset.sum_sub_distrib, ← Finset.mul_sum, ← Finset.mul_sum, S1, S2]
    push_cast; ring

end Vector

end Skyborn.RedGauss
