import Verif.ROF.Model
import Mathlib.Analysis.Matrix.Spectrum
import Mathlib.LinearAlgebra.Matrix.PosDef
import Mathlib.LinearAlgebra.Eigenspace.Triangularizable
import Mathlib.Analysis.Complex.Polynomial.Basic

/-! Consequences of the contract of `np.linalg.eig`, and C120 (`speco`). -/

namespace Skyborn.ROF
open Matrix

theorem inv_ok {n : ℕ} {A : Mat n n} (h : A.det ≠ 0) : inv A = .ok A⁻¹ := by
  unfold inv; rw [if_neg h]

theorem inv_err {n : ℕ} {A : Mat n n} (h : A.det = 0) : inv A = .error .singular := by
  unfold inv; rw [if_pos h]

theorem inv_eq_ok {n : ℕ} {A B : Mat n n} (h : inv A = .ok B) : A.det ≠ 0 ∧ B = A⁻¹ := by
  unfold inv at h
  split at h
  · cases h
  · next hd => exact ⟨hd, (Except.ok.inj h).symm⟩

theorem det_unit {n : ℕ} {A : Mat n n} (h : A.det ≠ 0) : IsUnit A.det := isUnit_iff_ne_zero.mpr h

/-- A column of eigenvectors: `A v = w v`, entry by entry. -/
theorem eig_col {eig : Eig} (he : EigSpec eig) {n : ℕ} (A : Mat n n) (i j : Fin n) :
    ∑ k, (A i k : ℂ) * (eig n A).2 k j = (eig n A).2 i j * (eig n A).1 j := by
  have := congrFun (congrFun (he.vec n A) i) j
  rw [mul_diagonal] at this
  rw [← this, Matrix.mul_apply]
  rfl

/-- The eigenvalues of a symmetric matrix are real. -/
theorem eig_real {eig : Eig} (he : EigSpec eig) {n : ℕ} {A : Mat n n} (hA : Aᵀ = A) (j : Fin n) : ((eig n A).1 j).im = 0 := by
  set w := (eig n A).1 j with hw
  set v : Fin n → ℂ := fun i => (eig n A).2 i j with hv
  have hcol : ∀ i, ∑ k, (A i k : ℂ) * v k = v i * w := fun i => eig_col he A i j
  have hone : ∑ i, (starRingEnd ℂ) (v i) * v i = 1 := by
    have := he.unit n A j
    have h2 : ∀ i, (starRingEnd ℂ) (v i) * v i = ((‖v i‖ ^ 2 : ℝ) : ℂ) := fun i => by
      rw [mul_comm, Complex.mul_conj, Complex.normSq_eq_norm_sq]
    simp_rw [h2]
    rw [← Complex.ofReal_sum, this, Complex.ofReal_one]
  have hq : ∑ i, (starRingEnd ℂ) (v i) * ∑ k, (A i k : ℂ) * v k = w := by
    simp_rw [hcol, ← mul_assoc]
    rw [← Finset.sum_mul, hone, one_mul]
  have hc : (starRingEnd ℂ) w = w := by
    rw [← hq, map_sum]
    simp_rw [Finset.mul_sum, map_sum, map_mul, Complex.conj_conj, Complex.conj_ofReal]
    rw [Finset.sum_comm]
    refine Finset.sum_congr rfl fun k _ => Finset.sum_congr rfl fun i _ => ?_
    have : A i k = A k i := congrFun (congrFun hA.symm i) k
    rw [this]; ring
  exact Complex.conj_eq_iff_im.mp hc

/-- The real eigen-decomposition of a symmetric matrix read off `np.linalg.eig`. -/
theorem eig_symm {eig : Eig} (he : EigSpec eig) {n : ℕ} {A : Mat n n} (hA : Aᵀ = A) :
    let V : Mat n n := of fun i j => ((eig n A).2 i j).re
    A * V = V * diagonal (fun i => ((eig n A).1 i).re) ∧ V.det ≠ 0 ∧ ∀ j, ∑ i, V i j ^ 2 = 1 := by
  intro V
  have hre : ∀ i j, (eig n A).2 i j = ((V i j : ℝ) : ℂ) := fun i j => by
    apply Complex.ext
    · rfl
    · rw [he.real n A j (eig_real he hA j) i, Complex.ofReal_im]
  have hwr : ∀ j, (eig n A).1 j = ((((eig n A).1 j).re : ℝ) : ℂ) := fun j => by
    apply Complex.ext
    · rfl
    · rw [eig_real he hA j, Complex.ofReal_im]
  refine ⟨?_, ?_, fun j => ?_⟩
  · ext i j
    rw [mul_diagonal, Matrix.mul_apply]
    have := eig_col he A i j
    rw [hwr j, hre i j] at this
    simp_rw [hre] at this
    rw [← Complex.ofReal_mul] at this
    apply Complex.ofReal_injective
    rw [← this, Complex.ofReal_sum]
    simp_rw [Complex.ofReal_mul]
  · have h1 := he.indep n A hA
    have h2 : (eig n A).2 = V.map (fun x : ℝ => (x : ℂ)) := by
      ext i j; rw [hre]; rfl
    rw [h2] at h1
    have h3 : (V.map (fun x : ℝ => (x : ℂ))).det = ((V.det : ℝ) : ℂ) := by
      have := RingHom.map_det Complex.ofRealHom V
      rw [show Complex.ofRealHom V.det = ((V.det : ℝ) : ℂ) from rfl] at this
      rw [this]; rfl
    rw [h3, isUnit_iff_ne_zero] at h1
    intro h0; apply h1; rw [h0]; rfl
  · have := he.unit n A j
    simp_rw [hre, Complex.norm_real, Real.norm_eq_abs, sq_abs] at this
    exact this

theorem maxOf_const {n : ℕ} {w : Fin (n + 1) → ℝ} {c : ℝ} (h : ∀ i, w i = c) : maxOf w = c := by
  unfold maxOf
  rw [show w = fun _ => c from funext h]
  exact Finset.sup'_const _ c

/-- **C120.** For a symmetric matrix `speco` does not raise; the columns of its first result are independent eigenvectors, of unit
length, paired with the eigenvalues on the diagonal of the second, which are in descending order. -/
theorem C120_speco {eig : Eig} (he : EigSpec eig) {argsort : Argsort} (ha : ArgsortSpec argsort) {n : ℕ} (A : Mat (n + 1) (n + 1))
    (hA : Aᵀ = A) :
    ∃ V D, speco eig argsort (n + 1) A = .ok (V, D) ∧ A * V = V * D ∧ V.det ≠ 0 ∧ (∀ j, ∑ i, V i j ^ 2 = 1) ∧
      (∀ i j, i ≠ j → D i j = 0) ∧ (∀ i j, i ≤ j → D j j ≤ D i i) := by
  obtain ⟨h1, h2, h3⟩ := eig_symm he hA
  set V0 : Mat (n + 1) (n + 1) := of fun i j => ((eig (n + 1) A).2 i j).re with hV0
  set w : Vec (n + 1) := fun i => ((eig (n + 1) A).1 i).re with hw
  set σ := argsort (n + 1) w with hσ
  have hs : (fun i : Fin (n + 1) => w (Tuple.sort w i.rev)) = fun i => w (σ i.rev) := by
    have := Tuple.unique_monotone (Tuple.monotone_sort w) (ha (n + 1) w)
    funext i
    exact congrFun this i.rev
  have hnc : ¬ looksComplex (eig (n + 1) A).1 := by
    unfold looksComplex
    dsimp only
    rw [maxOf_const (c := 0) (fun i => eig_real he hA i)]
    split
    · exact lt_irrefl _
    · rw [zero_div]; norm_num
  refine ⟨of fun i j => V0 i (σ j.rev), diagonal fun i => w (σ i.rev), ?_, ?_, ?_, fun j => h3 _, fun i j hij => diagonal_apply_ne _ hij, ?_⟩
  · unfold speco
    dsimp only
    rw [if_neg hnc, ← hs]
  · ext i j
    rw [mul_diagonal]
    have := congrFun (congrFun h1 i) (σ j.rev)
    rw [mul_diagonal] at this
    rw [Matrix.mul_apply]
    rw [Matrix.mul_apply] at this
    exact this
  · have : (of fun i j => V0 i (σ j.rev) : Mat (n + 1) (n + 1)) = V0.submatrix id (Fin.revPerm.trans σ) := rfl
    rw [this, Matrix.det_permute']
    refine mul_ne_zero ?_ h2
    exact_mod_cast (Int.cast_ne_zero (α := ℝ)).mpr (Units.ne_zero (Equiv.Perm.sign (Fin.revPerm.trans σ)))
  · intro i j hij
    rw [diagonal_apply_eq, diagonal_apply_eq]
    exact ha (n + 1) w (Fin.rev_le_rev.mpr hij)

/-! ### The contracts can be met -/

/-- Some eigenvector, normalised, and real when its eigenvalue is. -/
theorem exists_pair {n : ℕ} (A : Mat (n + 1) (n + 1)) : ∃ (w : ℂ) (v : Fin (n + 1) → ℂ),
    (A.map (fun x : ℝ => (x : ℂ))) *ᵥ v = w • v ∧ ∑ i, ‖v i‖ ^ 2 = 1 ∧ (w.im = 0 → ∀ i, (v i).im = 0) := by
  obtain ⟨w, hw⟩ := Module.End.exists_eigenvalue (Matrix.toLin' (A.map (fun x : ℝ => (x : ℂ))))
  obtain ⟨u, hu, hu0⟩ := hw.exists_hasEigenvector
  rw [Module.End.mem_eigenspace_iff, Matrix.toLin'_apply] at hu
  -- a non-zero eigenvector that is real when `w` is
  obtain ⟨u, hu, hu0, hr⟩ : ∃ u : Fin (n + 1) → ℂ, (A.map (fun x : ℝ => (x : ℂ))) *ᵥ u = w • u ∧ u ≠ 0 ∧ (w.im = 0 → ∀ i, (u i).im = 0) := by
    by_cases him : w.im = 0
    · have hw' : w = ((w.re : ℝ) : ℂ) := by
        apply Complex.ext
        · rfl
        · rw [him, Complex.ofReal_im]
      have hrow : ∀ i, ∑ k, (A i k : ℂ) * u k = ((w.re : ℝ) : ℂ) * u i := fun i => by
        have := congrFun hu i
        rw [← hw']
        exact this
      have hre : ∀ i, ∑ k, A i k * (u k).re = w.re * (u i).re := fun i => by
        have := congrArg Complex.re (hrow i)
        rw [Complex.re_sum, Complex.re_ofReal_mul] at this
        simp_rw [Complex.re_ofReal_mul] at this
        exact this
      have himg : ∀ i, ∑ k, A i k * (u k).im = w.re * (u i).im := fun i => by
        have := congrArg Complex.im (hrow i)
        rw [Complex.im_sum, Complex.im_ofReal_mul] at this
        simp_rw [Complex.im_ofReal_mul] at this
        exact this
      by_cases h0 : ∀ i, (u i).re = 0
      · refine ⟨fun i => (((u i).im : ℝ) : ℂ), ?_, ?_, fun _ i => Complex.ofReal_im _⟩
        · funext i
          rw [hw']
          simp only [Pi.smul_apply, smul_eq_mul]
          rw [← Complex.ofReal_mul, ← himg i, Complex.ofReal_sum]
          simp_rw [Complex.ofReal_mul]
          rfl
        · intro hz
          apply hu0
          funext i
          have := congrFun hz i
          apply Complex.ext
          · exact h0 i
          · exact Complex.ofReal_injective this
      · refine ⟨fun i => (((u i).re : ℝ) : ℂ), ?_, ?_, fun _ i => Complex.ofReal_im _⟩
        · funext i
          rw [hw']
          simp only [Pi.smul_apply, smul_eq_mul]
          rw [← Complex.ofReal_mul, ← hre i, Complex.ofReal_sum]
          simp_rw [Complex.ofReal_mul]
          rfl
        · intro hz
          apply h0
          intro i
          exact Complex.ofReal_injective (congrFun hz i)
    · exact ⟨u, hu, hu0, fun h => absurd h him⟩
  have hs0 : 0 < ∑ i, ‖u i‖ ^ 2 := by
    obtain ⟨i, hi⟩ := Function.ne_iff.mp hu0
    refine Finset.sum_pos' (fun i _ => sq_nonneg _) ⟨i, Finset.mem_univ _, ?_⟩
    exact pow_pos (norm_pos_iff.mpr hi) 2
  set s := Real.sqrt (∑ i, ‖u i‖ ^ 2) with hs
  have hspos : 0 < s := Real.sqrt_pos.mpr hs0
  refine ⟨w, ((s⁻¹ : ℝ) : ℂ) • u, ?_, ?_, ?_⟩
  · rw [Matrix.mulVec_smul, hu, smul_comm]
  · have h1 : ∀ i, ‖(((s⁻¹ : ℝ) : ℂ) • u) i‖ ^ 2 = (s⁻¹) ^ 2 * ‖u i‖ ^ 2 := fun i => by
      rw [Pi.smul_apply, norm_smul, mul_pow, Complex.norm_real, Real.norm_eq_abs, sq_abs]
    simp_rw [h1]
    rw [← Finset.mul_sum, ← Real.sq_sqrt hs0.le, ← hs]
    field_simp
  · intro him i
    rw [Pi.smul_apply, smul_eq_mul, Complex.im_ofReal_mul, hr him i, mul_zero]

/-- For a symmetric matrix: an orthonormal basis of real eigenvectors. -/
theorem exists_symm {n : ℕ} {A : Mat n n} (hA : Aᵀ = A) : ∃ (w : Vec n) (V : Mat n n), A * V = V * diagonal w ∧ Vᵀ * V = 1 := by
  have hH : A.IsHermitian := by
    rw [Matrix.IsHermitian, Matrix.conjTranspose_eq_transpose_of_trivial, hA]
  have hU := hH.eigenvectorUnitary.2
  rw [Matrix.mem_unitaryGroup_iff', Matrix.star_eq_conjTranspose, Matrix.conjTranspose_eq_transpose_of_trivial] at hU
  refine ⟨hH.eigenvalues, (hH.eigenvectorUnitary : Mat n n), ?_, hU⟩
  ext i j
  rw [mul_diagonal]
  have := congrFun (hH.mulVec_eigenvectorBasis j) i
  rw [mul_comm]
  exact this

/-- The contract of `np.linalg.eig` is satisfiable. -/
theorem exists_eig : ∃ eig : Eig, EigSpec eig := by
  have h : ∀ (n : ℕ) (A : Mat n n), ∃ r : (Fin n → ℂ) × Matrix (Fin n) (Fin n) ℂ,
      A.map (fun x : ℝ => (x : ℂ)) * r.2 = r.2 * diagonal r.1 ∧ (∀ j, ∑ i, ‖r.2 i j‖ ^ 2 = 1) ∧
      (∀ j, (r.1 j).im = 0 → ∀ i, (r.2 i j).im = 0) ∧ (Aᵀ = A → IsUnit r.2.det) := by
    intro n A
    by_cases hA : Aᵀ = A
    · obtain ⟨w, V, h1, h2⟩ := exists_symm hA
      have hm : ∀ B C : Mat n n, (B * C).map (fun x : ℝ => (x : ℂ)) = B.map (fun x : ℝ => (x : ℂ)) * C.map (fun x : ℝ => (x : ℂ)) := fun B C => by
        ext i j
        rw [Matrix.mul_apply, Matrix.map_apply, Matrix.mul_apply, Complex.ofReal_sum]
        simp_rw [Complex.ofReal_mul]
        rfl
      refine ⟨(fun i => (w i : ℂ), V.map (fun x : ℝ => (x : ℂ))), ?_, fun j => ?_, fun j _ i => Complex.ofReal_im _, fun _ => ?_⟩
      · dsimp only
        rw [← hm, h1, hm]
        congr 1
        ext i j
        rw [Matrix.map_apply, diagonal_apply, diagonal_apply]
        split
        · rfl
        · rfl
      · have := congrFun (congrFun h2 j) j
        rw [Matrix.mul_apply, Matrix.one_apply_eq] at this
        rw [← this]
        refine Finset.sum_congr rfl fun i _ => ?_
        dsimp only
        rw [Matrix.map_apply, Complex.norm_real, Real.norm_eq_abs, sq_abs, Matrix.transpose_apply, sq]
      · have h3 := congrArg (fun M => Matrix.map M (fun x : ℝ => (x : ℂ))) h2
        rw [hm] at h3
        have h4 := congrArg Matrix.det h3
        rw [Matrix.det_mul] at h4
        have h5 : ((1 : Mat n n).map (fun x : ℝ => (x : ℂ))).det = 1 := by
          rw [Matrix.map_one _ Complex.ofReal_zero Complex.ofReal_one, Matrix.det_one]
        rw [h5] at h4
        exact IsUnit.of_mul_eq_one_right _ h4
    · cases n with
      | zero => exact absurd (Subsingleton.elim _ _) hA
      | succ n =>
        obtain ⟨w, v, h1, h2, h3⟩ := exists_pair A
        refine ⟨(fun _ => w, of fun i _ => v i), ?_, fun j => h2, fun j hj => h3 hj, fun h => absurd h hA⟩
        ext i j
        rw [mul_diagonal]
        have := congrFun h1 i
        rw [Matrix.mul_apply]
        rw [Pi.smul_apply, smul_eq_mul, mul_comm] at this
        exact this
  choose f hf using h
  exact ⟨f, fun n A => (hf n A).1, fun n A => (hf n A).2.1, fun n A => (hf n A).2.2.1, fun n A => (hf n A).2.2.2⟩

/-- The contract of `np.argsort` is satisfiable. -/
theorem exists_argsort : ∃ a : Argsort, ArgsortSpec a := ⟨fun _ key => Tuple.sort key, fun _ key => Tuple.monotone_sort key⟩

/-- `C120_speco` applies to a concrete matrix. -/
example : ∃ (eig : Eig) (argsort : Argsort) (V D : Mat 2 2), speco eig argsort 2 !![2, 1; 1, 2] = .ok (V, D) := by
  obtain ⟨eig, he⟩ := exists_eig
  obtain ⟨a, ha⟩ := exists_argsort
  obtain ⟨V, D, h, -⟩ := C120_speco he ha (n := 1) !![2, 1; 1, 2] (by ext i j; fin_cases i <;> fin_cases j <;> rfl)
  exact ⟨eig, a, V, D, h⟩

/-- The claim of the error message: a matrix that is not symmetric is refused. -/
def RefusesAsymmetric : Prop :=
  ∀ (eig : Eig), EigSpec eig → ∀ (argsort : Argsort), ArgsortSpec argsort → ∀ (n : ℕ) (A : Mat (n + 1) (n + 1)), Aᵀ ≠ A →
    ∃ e, speco eig argsort (n + 1) A = .error e

/-- An eigenvalue of a triangular 2 × 2 matrix is one of its diagonal elements. -/
theorem tri_eig {w a b : ℂ} (h1 : a + b = a * w) (h2 : 2 * b = b * w) (h0 : ‖a‖ ^ 2 + ‖b‖ ^ 2 = 1) : w.im = 0 := by
  by_cases hb : b = 0
  · subst hb
    have ha : a ≠ 0 := by rintro rfl; simp at h0
    have : w = 1 := by
      apply mul_left_cancel₀ ha
      rw [← h1]; ring
    rw [this]; rfl
  · have : w = 2 := by
      apply mul_left_cancel₀ hb
      rw [← h2]; ring
    rw [this]; rfl

/-- **C120 is false for asymmetric input**: `[[1, 1], [0, 2]]` passes the symmetry test of `speco`. -/
theorem C120_false : ¬ RefusesAsymmetric := by
  intro h
  obtain ⟨eig, he⟩ := exists_eig
  obtain ⟨argsort, ha⟩ := exists_argsort
  obtain ⟨e, hr⟩ := h eig he argsort ha 1 !![1, 1; 0, 2] (by
    intro hc
    have := congrFun (congrFun hc 0) 1
    norm_num [Matrix.transpose_apply] at this)
  have him : ∀ j, ((eig 2 !![1, 1; 0, 2]).1 j).im = 0 := by
    intro j
    have e0 := eig_col he !![1, 1; 0, 2] 0 j
    have e1 := eig_col he !![1, 1; 0, 2] 1 j
    have eu := he.unit 2 !![1, 1; 0, 2] j
    rw [Fin.sum_univ_two] at e0 e1 eu
    refine tri_eig (a := (eig 2 !![1, 1; 0, 2]).2 0 j) (b := (eig 2 !![1, 1; 0, 2]).2 1 j) ?_ ?_ eu
    · rw [← e0]; simp
    · rw [← e1]; simp
  have hnc : ¬ looksComplex (eig 2 !![1, 1; 0, 2]).1 := by
    unfold looksComplex
    dsimp only
    rw [maxOf_const (c := 0) him]
    split
    · exact lt_irrefl _
    · rw [zero_div]; norm_num
  unfold speco at hr
  dsimp only at hr
  rw [if_neg hnc] at hr
  cases hr

end Skyborn.ROF
