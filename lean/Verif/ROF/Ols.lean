import Verif.ROF.Spec
import Mathlib.Analysis.SpecialFunctions.Trigonometric.Arctan

/-! C125-C127: `AttributionModel.ols`. -/

namespace Skyborn.ROF
open Matrix Spec

/-- The generalised squared residual of the fit `y ≈ X b` when the noise has covariance `C`. -/
noncomputable def Spec.misfit {nt nf : ℕ} (C : Mat nt nt) (X : Mat nt nf) (y : Vec nt) (b : Vec nf) : ℝ :=
  (y - X *ᵥ b) ⬝ᵥ (C⁻¹ *ᵥ (y - X *ᵥ b))

/-- The forcings are linearly independent. -/
def Spec.Indep {nt nf : ℕ} (X : Mat nt nf) : Prop := ∀ b, X *ᵥ b = 0 → b = 0

theorem gram_pd {nt nf : ℕ} {X : Mat nt nf} {C : Mat nt nt} (hC : PD C) (hX : Indep X) : PD (Xᵀ * C⁻¹ * X) := hC.inv.congr X hX

theorem fingerprint_ok {nt nf : ℕ} {X : Mat nt nf} {C : Mat nt nt} (hC : PD C) (hX : Indep X) :
    fingerprint X C = .ok (((Xᵀ * C⁻¹ * X)⁻¹ * Xᵀ * C⁻¹)ᵀ) := by
  unfold fingerprint
  simp only [bind, Except.bind]
  rw [inv_ok hC.det_ne]
  dsimp only
  rw [inv_ok (gram_pd hC hX).det_ne]

/-- The estimator as a linear map. -/
noncomputable def estimator {nt nf : ℕ} (X : Mat nt nf) (C : Mat nt nt) : Mat nf nt := (Xᵀ * C⁻¹ * X)⁻¹ * Xᵀ * C⁻¹

theorem hat_eq {nt nf : ℕ} (F : Mat nf nt) (P : Mat nf nf) (y : Vec nt) (j : Fin nf) :
    ((col y)ᵀ * Fᵀ * Pᵀ) 0 j = (P *ᵥ (F *ᵥ y)) j := by
  rw [Matrix.mulVec_mulVec]
  have : (col y)ᵀ * Fᵀ * Pᵀ = (P * F * col y)ᵀ := by
    rw [Matrix.transpose_mul, Matrix.transpose_mul, Matrix.mul_assoc]
  rw [this, Matrix.transpose_apply, Matrix.mul_apply, Matrix.mulVec, dotProduct]
  rfl

/-- The variance of the estimate over the control segments. -/
theorem var_eq {nt nf nz2 : ℕ} (F : Mat nf nt) (P : Mat nf nf) (Z : Mat nt nz2) (j : Fin nf) :
    (P * (Fᵀ)ᵀ * ((1 / (nz2 : ℝ)) • (Zᵀᵀ * Zᵀ)) * Fᵀ * Pᵀ) j j = (∑ k, (P *ᵥ (F *ᵥ fun t => Z t k)) j ^ 2) / nz2 := by
  have : P * (Fᵀ)ᵀ * ((1 / (nz2 : ℝ)) • (Zᵀᵀ * Zᵀ)) * Fᵀ * Pᵀ = (1 / (nz2 : ℝ)) • ((P * F * Z) * (P * F * Z)ᵀ) := by
    rw [Matrix.transpose_transpose, Matrix.transpose_transpose, Matrix.mul_smul, Matrix.smul_mul, Matrix.smul_mul]
    congr 1
    rw [Matrix.transpose_mul, Matrix.transpose_mul]
    simp only [Matrix.mul_assoc]
  rw [this, Matrix.smul_apply, Matrix.mul_apply, smul_eq_mul, one_div, inv_mul_eq_div]
  congr 1
  refine Finset.sum_congr rfl fun k _ => ?_
  rw [Matrix.transpose_apply, ← sq]
  congr 1
  rw [Matrix.mulVec_mulVec, Matrix.mul_apply, Matrix.mulVec, dotProduct]

/-- What `ols` returns for admissible arguments. -/
theorem ols_run (tcdf : ℕ → ℝ → ℝ) {nt nf nz2 : ℕ} {X : Mat nt nf} (y : Vec nt) {C : Mat nt nt} {P : Mat nf nf} (Z2 : Mat nt nz2)
    (hC : PD C) (hX : Indep X) (hP : P.det ≠ 0) :
    ∃ B, ols tcdf X y C P Z2 = .ok B ∧ B.hat = P *ᵥ (estimator X C *ᵥ y) ∧
      (∀ j, B.lo j = B.hat j - 2 * tcdf nz2 (95 / 100) * Real.sqrt ((∑ k, (P *ᵥ (estimator X C *ᵥ fun t => Z2 t k)) j ^ 2) / nz2)) ∧
      (∀ j, B.hi j = B.hat j + 2 * tcdf nz2 (95 / 100) * Real.sqrt ((∑ k, (P *ᵥ (estimator X C *ᵥ fun t => Z2 t k)) j ^ 2) / nz2)) := by
  unfold ols
  simp only [bind, Except.bind]
  rw [fingerprint_ok hC hX]
  dsimp only
  rw [inv_ok hP]
  refine ⟨_, rfl, ?_, fun j => ?_, fun j => ?_⟩
  · funext j
    exact hat_eq _ _ _ _
  · dsimp only
    rw [var_eq]; rfl
  · dsimp only
    rw [var_eq]; rfl

/-- The normal equations. -/
theorem estimator_normal {nt nf : ℕ} {X : Mat nt nf} {C : Mat nt nt} (hC : PD C) (hX : Indep X) (y : Vec nt) :
    Xᵀ *ᵥ (C⁻¹ *ᵥ (y - X *ᵥ (estimator X C *ᵥ y))) = 0 := by
  have hu := (gram_pd hC hX).unit
  rw [Matrix.mulVec_sub, Matrix.mulVec_sub, sub_eq_zero]
  simp only [Matrix.mulVec_mulVec]
  congr 1
  unfold estimator
  calc Xᵀ * C⁻¹ = 1 * (Xᵀ * C⁻¹) := (Matrix.one_mul _).symm
    _ = ((Xᵀ * C⁻¹ * X) * (Xᵀ * C⁻¹ * X)⁻¹) * (Xᵀ * C⁻¹) := by rw [Matrix.mul_nonsing_inv _ hu]
    _ = Xᵀ * (C⁻¹ * (X * ((Xᵀ * C⁻¹ * X)⁻¹ * Xᵀ * C⁻¹))) := by simp only [Matrix.mul_assoc]

/-- The misfit splits. -/
theorem misfit_split {nt nf : ℕ} {X : Mat nt nf} {C : Mat nt nt} (hC : PD C) (hX : Indep X) (y : Vec nt) (b : Vec nf) :
    misfit C X y b = misfit C X y (estimator X C *ᵥ y) +
      (X *ᵥ (estimator X C *ᵥ y - b)) ⬝ᵥ (C⁻¹ *ᵥ (X *ᵥ (estimator X C *ᵥ y - b))) := by
  set b0 := estimator X C *ᵥ y with hb0
  have hn := estimator_normal hC hX y
  rw [← hb0] at hn
  set r := y - X *ᵥ b0 with hr
  set d := X *ᵥ (b0 - b) with hd
  have e : y - X *ᵥ b = r + d := by
    rw [hr, hd, Matrix.mulVec_sub]; abel
  have c1 : d ⬝ᵥ (C⁻¹ *ᵥ r) = 0 := by
    rw [hd, dotProduct_comm, Matrix.dotProduct_mulVec, ← Matrix.mulVec_transpose, hn, zero_dotProduct]
  have c2 : r ⬝ᵥ (C⁻¹ *ᵥ d) = 0 := by
    rw [Matrix.dotProduct_mulVec, ← Matrix.mulVec_transpose, hC.inv.1, dotProduct_comm]
    exact c1
  unfold Spec.misfit
  rw [e, ← hr, Matrix.mulVec_add, add_dotProduct, dotProduct_add, dotProduct_add, c1, c2]
  ring

/-- **C125.** With a positive definite noise covariance, independent forcings and an invertible `Proj`, `ols` succeeds, and the scaling
factors it returns are `Proj` applied to the unique minimiser of the generalised misfit. -/
theorem C125_optimal (tcdf : ℕ → ℝ → ℝ) {nt nf nz2 : ℕ} {X : Mat nt nf} (y : Vec nt) {C : Mat nt nt} {P : Mat nf nf} (Z2 : Mat nt nz2)
    (hC : PD C) (hX : Indep X) (hP : P.det ≠ 0) :
    ∃ B b, ols tcdf X y C P Z2 = .ok B ∧ B.hat = P *ᵥ b ∧ (∀ b', misfit C X y b ≤ misfit C X y b') ∧
      (∀ b', misfit C X y b' ≤ misfit C X y b → b' = b) := by
  obtain ⟨B, h1, h2, -⟩ := ols_run tcdf y Z2 hC hX hP
  refine ⟨B, estimator X C *ᵥ y, h1, h2, fun b' => ?_, fun b' hb' => ?_⟩
  · rw [misfit_split hC hX y b']
    have := hC.inv.psd.2 (X *ᵥ (estimator X C *ᵥ y - b'))
    linarith
  · rw [misfit_split hC hX y b'] at hb'
    by_contra hne
    have hd : estimator X C *ᵥ y - b' ≠ 0 := fun h0 => hne (sub_eq_zero.mp h0).symm
    have := hC.inv.2 (X *ᵥ (estimator X C *ᵥ y - b')) fun h0 => hd (hX _ h0)
    linarith

/-- **C125 (exact fit).** If the observations are a combination of the forcings, `ols` returns its coefficients (through `Proj`). -/
theorem C125_exact (tcdf : ℕ → ℝ → ℝ) {nt nf nz2 : ℕ} {X : Mat nt nf} (b : Vec nf) {C : Mat nt nt} {P : Mat nf nf} (Z2 : Mat nt nz2)
    (hC : PD C) (hX : Indep X) (hP : P.det ≠ 0) : ∃ B, ols tcdf X (X *ᵥ b) C P Z2 = .ok B ∧ B.hat = P *ᵥ b := by
  obtain ⟨B, b0, h1, h2, h3, -⟩ := C125_optimal tcdf (X *ᵥ b) Z2 hC hX hP
  refine ⟨B, h1, ?_⟩
  obtain ⟨B', b1, h1', h2', -, h4'⟩ := C125_optimal tcdf (X *ᵥ b) Z2 hC hX hP
  rw [h1] at h1'
  obtain rfl := Except.ok.inj h1'
  rw [h2', h4' b]
  unfold Spec.misfit
  rw [sub_self, Matrix.mulVec_zero, zero_dotProduct]
  exact hC.inv.psd.2 _

/-- **C125 (errors).** A singular covariance matrix or a singular `Proj` raises, and dependent forcings raise. -/
theorem C125_errors (tcdf : ℕ → ℝ → ℝ) {nt nf nz2 : ℕ} (X : Mat nt nf) (y : Vec nt) (C : Mat nt nt) (P : Mat nf nf) (Z2 : Mat nt nz2)
    (h : C.det = 0 ∨ P.det = 0 ∨ ¬ Indep X) : ols tcdf X y C P Z2 = .error .singular := by
  unfold ols fingerprint
  simp only [bind, Except.bind]
  by_cases hc : C.det = 0
  · rw [inv_err hc]
  rw [inv_ok hc]
  dsimp only
  by_cases hg : (Xᵀ * C⁻¹ * X).det = 0
  · rw [inv_err hg]
  rw [inv_ok hg]
  dsimp only
  have hi : Indep X := by
    intro b hb
    by_contra hne
    apply hg
    rw [← Matrix.exists_mulVec_eq_zero_iff]
    exact ⟨b, hne, by rw [← Matrix.mulVec_mulVec, hb, Matrix.mulVec_zero]⟩
  rcases h with h | h | h
  · exact absurd h hc
  · rw [inv_err h]
  · exact absurd hi h

/-- **C126.** The result of `ols` does not depend on the coordinates in which the data are expressed: any invertible linear change of
coordinates applied to observations, forcings, noise covariance and control segments (in particular another projection basis) gives
the same factors and intervals. -/
theorem C126_coordinates (tcdf : ℕ → ℝ → ℝ) {nt nf nz2 : ℕ} (X : Mat nt nf) (y : Vec nt) (C : Mat nt nt) (P : Mat nf nf) (Z2 : Mat nt nz2)
    (T : Mat nt nt) (hT : T.det ≠ 0) : ols tcdf (T * X) (T *ᵥ y) (T * C * Tᵀ) P (T * Z2) = ols tcdf X y C P Z2 := by
  have hu := det_unit hT
  have huT : IsUnit (Tᵀ).det := by rw [det_transpose]; exact hu
  have hdet : (T * C * Tᵀ).det = T.det * C.det * T.det := by rw [det_mul, det_mul, det_transpose]
  have hcol : col (T *ᵥ y) = T * col y := by
    ext i j; rw [Matrix.mul_apply]; rfl
  unfold ols fingerprint
  simp only [bind, Except.bind]
  by_cases hc : C.det = 0
  · rw [inv_err hc, inv_err (by rw [hdet, hc]; ring)]
  rw [inv_ok hc, inv_ok (by rw [hdet]; exact mul_ne_zero (mul_ne_zero hT hc) hT)]
  dsimp only
  have hinv : (T * C * Tᵀ)⁻¹ = (Tᵀ)⁻¹ * (C⁻¹ * T⁻¹) := by rw [Matrix.mul_inv_rev, Matrix.mul_inv_rev]
  have hTt : Tᵀ * (Tᵀ)⁻¹ = 1 := Matrix.mul_nonsing_inv _ huT
  have hTi : T⁻¹ * T = 1 := Matrix.nonsing_inv_mul _ hu
  have e1 : (T * X)ᵀ * (T * C * Tᵀ)⁻¹ = Xᵀ * C⁻¹ * T⁻¹ := by
    rw [hinv, Matrix.transpose_mul]
    calc Xᵀ * Tᵀ * ((Tᵀ)⁻¹ * (C⁻¹ * T⁻¹)) = Xᵀ * (Tᵀ * (Tᵀ)⁻¹) * (C⁻¹ * T⁻¹) := by simp only [Matrix.mul_assoc]
      _ = Xᵀ * C⁻¹ * T⁻¹ := by rw [hTt, Matrix.mul_one, Matrix.mul_assoc]
  have e2 : (T * X)ᵀ * (T * C * Tᵀ)⁻¹ * (T * X) = Xᵀ * C⁻¹ * X := by
    rw [e1]
    calc Xᵀ * C⁻¹ * T⁻¹ * (T * X) = Xᵀ * C⁻¹ * (T⁻¹ * T) * X := by simp only [Matrix.mul_assoc]
      _ = Xᵀ * C⁻¹ * X := by rw [hTi, Matrix.mul_one]
  rw [e2]
  cases hg : inv (Xᵀ * C⁻¹ * X) with
  | error e => rfl
  | ok G =>
    dsimp only
    have e3 : G * (T * X)ᵀ * (T * C * Tᵀ)⁻¹ = G * Xᵀ * C⁻¹ * T⁻¹ := by
      rw [Matrix.mul_assoc, e1]; simp only [Matrix.mul_assoc]
    rw [e3, hcol]
    have e4 : (T * col y)ᵀ * (G * Xᵀ * C⁻¹ * T⁻¹)ᵀ = (col y)ᵀ * (G * Xᵀ * C⁻¹)ᵀ := by
      rw [← Matrix.transpose_mul, ← Matrix.transpose_mul]
      congr 1
      calc G * Xᵀ * C⁻¹ * T⁻¹ * (T * col y) = G * Xᵀ * C⁻¹ * (T⁻¹ * T) * col y := by simp only [Matrix.mul_assoc]
        _ = G * Xᵀ * C⁻¹ * col y := by rw [hTi, Matrix.mul_one]
    rw [e4]
    have e5 : P * (G * Xᵀ * C⁻¹ * T⁻¹)ᵀᵀ * ((1 / (nz2 : ℝ)) • ((T * Z2)ᵀᵀ * (T * Z2)ᵀ)) * (G * Xᵀ * C⁻¹ * T⁻¹)ᵀ * Pᵀ =
        P * (G * Xᵀ * C⁻¹)ᵀᵀ * ((1 / (nz2 : ℝ)) • (Z2ᵀᵀ * Z2ᵀ)) * (G * Xᵀ * C⁻¹)ᵀ * Pᵀ := by
      simp only [Matrix.transpose_transpose, Matrix.mul_smul, Matrix.smul_mul]
      congr 1
      have f1 : P * (G * Xᵀ * C⁻¹ * T⁻¹) * (T * Z2 * (T * Z2)ᵀ) * (G * Xᵀ * C⁻¹ * T⁻¹)ᵀ * Pᵀ =
          (P * (G * Xᵀ * C⁻¹ * T⁻¹) * (T * Z2)) * (P * (G * Xᵀ * C⁻¹ * T⁻¹) * (T * Z2))ᵀ := by
        rw [Matrix.transpose_mul (P * _), Matrix.transpose_mul P]; simp only [Matrix.mul_assoc]
      have f2 : P * (G * Xᵀ * C⁻¹ * T⁻¹) * (T * Z2) = P * (G * Xᵀ * C⁻¹) * Z2 := by
        calc P * (G * Xᵀ * C⁻¹ * T⁻¹) * (T * Z2) = P * (G * Xᵀ * C⁻¹) * (T⁻¹ * T) * Z2 := by simp only [Matrix.mul_assoc]
          _ = P * (G * Xᵀ * C⁻¹) * Z2 := by rw [hTi, Matrix.mul_one]
      rw [f1, f2, Matrix.transpose_mul (P * _), Matrix.transpose_mul P]; simp only [Matrix.mul_assoc]
    rw [e5]

/-- **C126 (scale).** Multiplying the noise covariance by a positive constant changes nothing. -/
theorem C126_scale (tcdf : ℕ → ℝ → ℝ) {nt nf nz2 : ℕ} (X : Mat nt nf) (y : Vec nt) (C : Mat nt nt) (P : Mat nf nf) (Z2 : Mat nt nz2)
    {c : ℝ} (hc : c ≠ 0) (hX : Indep X) (hC : PD C) (hC' : PD (c • C)) : ols tcdf X y (c • C) P Z2 = ols tcdf X y C P Z2 := by
  have hi : (c • C)⁻¹ = c⁻¹ • C⁻¹ := by
    have hcu : IsUnit c := isUnit_iff_ne_zero.mpr hc
    apply Matrix.inv_eq_right_inv
    rw [Matrix.smul_mul, Matrix.mul_smul, smul_smul, mul_inv_cancel₀ hc, one_smul, Matrix.mul_nonsing_inv _ hC.unit]
  have hg : (c⁻¹ • (Xᵀ * C⁻¹ * X))⁻¹ = c • (Xᵀ * C⁻¹ * X)⁻¹ := by
    apply Matrix.inv_eq_right_inv
    rw [Matrix.smul_mul, Matrix.mul_smul, smul_smul, inv_mul_cancel₀ hc, one_smul, Matrix.mul_nonsing_inv _ (gram_pd hC hX).unit]
  have hf : fingerprint X (c • C) = fingerprint X C := by
    rw [fingerprint_ok hC' hX, fingerprint_ok hC hX, hi]
    have : Xᵀ * c⁻¹ • C⁻¹ * X = c⁻¹ • (Xᵀ * C⁻¹ * X) := by rw [Matrix.mul_smul, Matrix.smul_mul]
    rw [this, hg, Matrix.smul_mul, Matrix.smul_mul, Matrix.mul_smul, smul_smul, mul_inv_cancel₀ hc, one_smul]
  unfold ols
  rw [hf]

/-! ### C127: the intervals -/

/-- **C127 (what the interval is).** The interval is centred at the estimate; its half-width is `2 · t.cdf(0.95, nz2)` times the root mean
square of the factors that `ols` itself returns when each control segment is taken as the observations. -/
theorem C127_interval_partial (tcdf : ℕ → ℝ → ℝ) (ht : ∀ df x, 0 ≤ tcdf df x) {nt nf nz2 : ℕ} {X : Mat nt nf} (y : Vec nt)
    {C : Mat nt nt} {P : Mat nf nf} (Z2 : Mat nt nz2) (hC : PD C) (hX : Indep X) (hP : P.det ≠ 0) :
    ∃ (B : Beta nf) (ctl : Fin nz2 → Beta nf), ols tcdf X y C P Z2 = .ok B ∧
      (∀ k, ols tcdf X (fun t => Z2 t k) C P Z2 = .ok (ctl k)) ∧
      (∀ j, B.lo j ≤ B.hat j ∧ B.hat j ≤ B.hi j ∧ B.hi j - B.hat j = B.hat j - B.lo j ∧
        B.hi j - B.hat j = 2 * tcdf nz2 (95 / 100) * Real.sqrt ((∑ k, (ctl k).hat j ^ 2) / nz2)) := by
  obtain ⟨B, h1, h2, h3, h4⟩ := ols_run tcdf y Z2 hC hX hP
  have hz : ∀ k, ∃ Bk, ols tcdf X (fun t => Z2 t k) C P Z2 = .ok Bk ∧ Bk.hat = P *ᵥ (estimator X C *ᵥ fun t => Z2 t k) := fun k => by
    obtain ⟨Bk, e1, e2, -⟩ := ols_run tcdf (fun t => Z2 t k) Z2 hC hX hP
    exact ⟨Bk, e1, e2⟩
  choose ctl hc1 hc2 using hz
  refine ⟨B, ctl, h1, hc1, fun j => ?_⟩
  have hw : 0 ≤ 2 * tcdf nz2 (95 / 100) * Real.sqrt ((∑ k, (P *ᵥ (estimator X C *ᵥ fun t => Z2 t k)) j ^ 2) / nz2) :=
    mul_nonneg (mul_nonneg (by norm_num) (ht _ _)) (Real.sqrt_nonneg _)
  rw [h3 j, h4 j]
  simp_rw [hc2]
  refine ⟨by linarith, by linarith, by ring, by ring⟩

/-- The claim of a confidence interval: its half-width, in units of the standard error, is at least the 95 % quantile of Student's t
(so that it is at least a two-sided 90 % interval). `tcdf` is any cumulative distribution that for one degree of freedom is Cauchy's. -/
def NominalCoverage : Prop :=
  ∀ tcdf : ℕ → ℝ → ℝ, (∀ df x, 0 ≤ tcdf df x ∧ tcdf df x ≤ 1) → (∀ x, tcdf 1 x = 1 / 2 + Real.arctan x / Real.pi) →
    ∀ (nt nf nz2 : ℕ) (X : Mat nt nf) (y : Vec nt) (C : Mat nt nt) (P : Mat nf nf) (Z2 : Mat nt nz2) (B : Beta nf) (ctl : Fin nz2 → Beta nf),
      0 < nz2 → ols tcdf X y C P Z2 = .ok B → (∀ k, ols tcdf X (fun t => Z2 t k) C P Z2 = .ok (ctl k)) →
      ∀ (j : Fin nf) (q : ℝ), tcdf nz2 q = 95 / 100 → q * Real.sqrt ((∑ k, (ctl k).hat j ^ 2) / nz2) ≤ B.hi j - B.hat j

theorem arctan_half : Real.pi / 20 < Real.arctan (1 / 2) := by
  have h := Real.arctan_add (x := 1 / 2) (y := 1 / 3) (by norm_num)
  rw [show ((1 : ℝ) / 2 + 1 / 3) / (1 - 1 / 2 * (1 / 3)) = 1 by norm_num, Real.arctan_one] at h
  have h2 : Real.arctan (1 / 3) < Real.arctan (1 / 2) := Real.arctan_strictMono (by norm_num)
  have := Real.pi_pos
  linarith

theorem one_pd : PD (1 : Mat 1 1) := PD.one

/-- **C127 is false**: `t.cdf` (a probability) is used where the quantile `t.ppf` is needed. With one control segment the interval should
be more than 6 standard errors wide on each side, and is less than 2. -/
theorem C127_false : ¬ NominalCoverage := by
  intro h
  set F : ℕ → ℝ → ℝ := fun _ x => 1 / 2 + Real.arctan x / Real.pi with hF
  have hpi := Real.pi_pos
  have hb : ∀ (df : ℕ) x, 0 ≤ F df x ∧ F df x ≤ 1 := fun df x => by
    have h1 := Real.neg_pi_div_two_lt_arctan x
    have h2 := Real.arctan_lt_pi_div_two x
    simp only [hF]
    constructor
    · have : -(1 / 2) ≤ Real.arctan x / Real.pi := by rw [le_div_iff₀ hpi]; linarith
      linarith
    · have : Real.arctan x / Real.pi ≤ 1 / 2 := by rw [div_le_iff₀ hpi]; linarith
      linarith
  have hX : Indep (1 : Mat 1 1) := fun b hb => by rwa [Matrix.one_mulVec] at hb
  obtain ⟨B, ctl, h1, h2, h3⟩ := C127_interval_partial F (fun df x => (hb df x).1) (X := (1 : Mat 1 1)) (fun _ => 0) (P := 1) (1 : Mat 1 1) one_pd hX
    (by simp)
  have hctl : (ctl 0).hat = fun _ => 1 := by
    obtain ⟨Bk, e1, e2⟩ := C125_exact F (X := (1 : Mat 1 1)) (fun _ => 1) (C := 1) (P := 1) (1 : Mat 1 1) one_pd hX (by simp)
    have hy : (fun t => (1 : Mat 1 1) t 0) = (1 : Mat 1 1) *ᵥ fun _ => (1 : ℝ) := by
      rw [Matrix.one_mulVec]
      funext t
      rw [Subsingleton.elim t 0]; simp
    have := h2 0
    rw [hy, e1] at this
    rw [← Except.ok.inj this, e2, Matrix.one_mulVec]
  -- the quantile: F 1 q = 0.95 for q = tan(0.45 π) = 1 / tan(π/20)
  have hq : F 1 (Real.tan (Real.pi * 9 / 20)) = 95 / 100 := by
    simp only [hF]
    rw [Real.arctan_tan (by linarith) (by linarith)]
    field_simp
    norm_num
  have hq2 : 2 < Real.tan (Real.pi * 9 / 20) := by
    have e : Real.arctan 2 < Real.pi * 9 / 20 := by
      have := Real.arctan_inv_of_pos (x := 2) (by norm_num)
      have h4 := arctan_half
      rw [show (1 : ℝ) / 2 = 2⁻¹ by norm_num, this] at h4
      linarith
    have := Real.tan_lt_tan_of_lt_of_lt_pi_div_two (Real.neg_pi_div_two_lt_arctan 2) (by linarith) e
    rwa [Real.tan_arctan] at this
  have hfin := h F hb (fun x => rfl) 1 1 1 1 (fun _ => 0) 1 1 1 B ctl (by norm_num) h1 h2 0 _ hq
  rw [(h3 0).2.2.2] at hfin
  have hs : Real.sqrt ((∑ k : Fin 1, (ctl k).hat 0 ^ 2) / (1 : ℕ)) = 1 := by
    rw [Fin.sum_univ_one, hctl]; simp
  rw [hs, mul_one, mul_one] at hfin
  have := (hb 1 (95 / 100)).2
  linarith

/-- The hypotheses of C125 are met by two independent forcings over three time steps. -/
example : PD (1 : Mat 3 3) ∧ Indep (!![1, 0; 0, 1; 1, 1] : Mat 3 2) := by
  refine ⟨PD.one, fun b hb => ?_⟩
  have h0 := congrFun hb 0
  have h1 := congrFun hb 1
  simp [Matrix.mulVec, dotProduct, Fin.sum_univ_two] at h0 h1
  funext i
  fin_cases i
  · exact h0
  · exact h1

end Skyborn.ROF
