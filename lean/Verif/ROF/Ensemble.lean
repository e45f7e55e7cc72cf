import Verif.ROF.Project
import Verif.ROF.Spec
import Mathlib.Analysis.SpecialFunctions.Sqrt

/-! C131 (`Cm_estimate`), C132 (`SSM`), C133 (`Cv_estimate`). -/

namespace Skyborn.ROF
open Matrix Spec

/-! ### Functions of a diagonalised symmetric matrix -/

/-- In a basis of eigenvectors of a symmetric matrix, eigenvectors of different eigenvalues are orthogonal. -/
theorem gram_comm {n : ℕ} {A V : Mat n n} {d : Vec n} (hA : Aᵀ = A) (h : A * V = V * diagonal d) (f : ℝ → ℝ) :
    diagonal (fun i => f (d i)) * (Vᵀ * V) = (Vᵀ * V) * diagonal (fun i => f (d i)) := by
  have e1 : Vᵀ * (A * V) = (Vᵀ * V) * diagonal d := by rw [h, Matrix.mul_assoc]
  have e2 : Vᵀ * (A * V) = diagonal d * (Vᵀ * V) := by
    have := congrArg Matrix.transpose h
    rw [Matrix.transpose_mul, Matrix.transpose_mul, hA, diagonal_transpose] at this
    rw [← Matrix.mul_assoc, this, Matrix.mul_assoc]
  have e := e1.symm.trans e2
  ext i j
  have hij := congrFun (congrFun e i) j
  rw [mul_diagonal, diagonal_mul] at hij
  rw [mul_diagonal, diagonal_mul]
  by_cases hd : d i = d j
  · rw [hd, mul_comm]
  · have : (Vᵀ * V) i j = 0 := by
      have h0 : (Vᵀ * V) i j * (d j - d i) = 0 := by linear_combination hij
      rcases mul_eq_zero.mp h0 with h | h
      · exact h
      · exact absurd (by linarith) hd
    rw [this]; ring

/-- `V f(D) V⁻¹` is symmetric. -/
theorem fun_symm {n : ℕ} {A V : Mat n n} {d : Vec n} (hA : Aᵀ = A) (hV : V.det ≠ 0) (h : A * V = V * diagonal d) (f : ℝ → ℝ) :
    (V * diagonal (fun i => f (d i)) * V⁻¹)ᵀ = V * diagonal (fun i => f (d i)) * V⁻¹ := by
  have hu := det_unit hV
  have huT : IsUnit (Vᵀ).det := by rw [det_transpose]; exact hu
  set F := diagonal (fun i => f (d i)) with hF
  have hFt : Fᵀ = F := by rw [hF, diagonal_transpose]
  have hc : F * (Vᵀ * V) = (Vᵀ * V) * F := gram_comm hA h f
  rw [Matrix.transpose_mul, Matrix.transpose_mul, hFt, Matrix.transpose_nonsing_inv]
  calc (Vᵀ)⁻¹ * (F * Vᵀ) = (Vᵀ)⁻¹ * ((F * (Vᵀ * V)) * V⁻¹) := by
        rw [← Matrix.mul_assoc F, Matrix.mul_assoc (F * Vᵀ), Matrix.mul_nonsing_inv _ hu, Matrix.mul_one]
    _ = (Vᵀ)⁻¹ * Vᵀ * (V * F * V⁻¹) := by rw [hc]; simp only [Matrix.mul_assoc]
    _ = V * F * V⁻¹ := by rw [Matrix.nonsing_inv_mul _ huT, Matrix.one_mul]

/-- Products of such matrices. -/
theorem fun_mul {n : ℕ} {V : Mat n n} (hV : V.det ≠ 0) (a b : Vec n) :
    (V * diagonal a * V⁻¹) * (V * diagonal b * V⁻¹) = V * diagonal (fun i => a i * b i) * V⁻¹ := by
  have hu := det_unit hV
  rw [← diagonal_mul_diagonal]
  calc (V * diagonal a * V⁻¹) * (V * diagonal b * V⁻¹) = V * diagonal a * (V⁻¹ * V) * diagonal b * V⁻¹ := by simp only [Matrix.mul_assoc]
    _ = _ := by rw [Matrix.nonsing_inv_mul _ hu, Matrix.mul_one]; simp only [Matrix.mul_assoc]

theorem fun_psd {n : ℕ} {A V : Mat n n} {d : Vec n} (hA : Aᵀ = A) (hV : V.det ≠ 0) (h : A * V = V * diagonal d) {f : ℝ → ℝ} (hf : ∀ x, 0 ≤ f x) :
    ∃ B : Mat n n, Bᵀ = B ∧ V * diagonal (fun i => f (d i)) * V⁻¹ = B * B := by
  refine ⟨V * diagonal (fun i => Real.sqrt (f (d i))) * V⁻¹, fun_symm hA hV h fun x => Real.sqrt (f x), ?_⟩
  rw [fun_mul hV]
  congr 3
  funext i
  rw [Real.mul_self_sqrt (hf _)]

theorem sq_psd {n : ℕ} {B : Mat n n} (hB : Bᵀ = B) : PSD (B * B) := by
  have := PSD.gram B
  rwa [hB] at this

/-! ### C131 -/

/-- The Frobenius distance (squared) between two matrices. -/
noncomputable def Spec.dist2 {n : ℕ} (A B : Mat n n) : ℝ := ∑ i, ∑ j, (A i j - B i j) ^ 2

/-- `C` is the covariance matrix nearest to `A`: it is one, and every other one is further away. -/
def Spec.NearestCov {n : ℕ} (A C : Mat n n) : Prop := PSD C ∧ ∀ B, PSD B → B ≠ C → dist2 A C < dist2 A B

theorem dist2_trace {n : ℕ} (A B : Mat n n) : dist2 A B = ((A - B) * (A - B)ᵀ).trace := by
  rw [trace_mul_transpose]; rfl

/-- Splitting a symmetric matrix into a positive and a negative part that annihilate each other gives the nearest covariance matrix. -/
theorem nearest_of_split {n : ℕ} {A C M : Mat n n} (hC : PSD C) (hM : Mᵀ = M) (hs : C - A = M * M) (hz : C * (M * M) = 0) : NearestCov A C := by
  refine ⟨hC, fun B hB hne => ?_⟩
  have hNt : (M * M)ᵀ = M * M := (sq_psd hM).1
  have e1 : A - C = -(M * M) := by rw [← hs]; abel
  have e2 : A - B = (C - B) - M * M := by rw [← hs]; abel
  have hCB : (C - B)ᵀ = C - B := by rw [Matrix.transpose_sub, hC.1, hB.1]
  have hBM : 0 ≤ (B * (M * M)).trace := by
    rw [← Matrix.mul_assoc, Matrix.trace_mul_comm, ← Matrix.mul_assoc]
    have := hB.congr M
    rw [hM] at this
    exact Finset.sum_nonneg fun i _ => this.diag_nonneg i
  have hpos : 0 < ((C - B) * (C - B)ᵀ).trace := by
    refine lt_of_le_of_ne (trace_mul_transpose_nonneg _) fun h0 => hne ?_
    have := trace_mul_transpose_eq_zero.mp h0.symm
    exact (sub_eq_zero.mp this).symm
  have key : dist2 A B = dist2 A C + ((C - B) * (C - B)ᵀ).trace + 2 * (B * (M * M)).trace := by
    rw [dist2_trace, dist2_trace, e1, e2, Matrix.transpose_sub, hNt, Matrix.transpose_neg, hNt, hCB]
    have t1 : (M * M * (C - B)).trace = ((C - B) * (M * M)).trace := Matrix.trace_mul_comm _ _
    have t2 : ((C - B) * (M * M)).trace = -(B * (M * M)).trace := by
      rw [Matrix.sub_mul, hz, zero_sub, Matrix.trace_neg]
    generalize C - B = E at t1 t2 ⊢
    rw [Matrix.mul_sub, Matrix.sub_mul, Matrix.sub_mul, neg_mul_neg, Matrix.trace_sub, Matrix.trace_sub, Matrix.trace_sub, t1, t2]
    ring
  rw [key]
  linarith

theorem nearest_unique {n : ℕ} {A C C' : Mat n n} (h : NearestCov A C) (h' : NearestCov A C') : C = C' := by
  by_contra hne
  exact lt_asymm (h.2 C' h'.1 (Ne.symm hne)) (h'.2 C h.1 hne)

theorem nearest_self {n : ℕ} {A : Mat n n} (h : PSD A) : NearestCov A A := by
  refine nearest_of_split (M := 0) h (by simp) (by simp) (by simp)

/-- Setting the negative eigenvalues of a symmetric matrix to zero gives the nearest covariance matrix, whatever eigenbasis is used. -/
theorem clip_nearest {eig : Eig} (he : EigSpec eig) {p : ℕ} {A : Mat p p} (hA : Aᵀ = A) : ∃ C, clipEig eig A = .ok C ∧ NearestCov A C := by
  obtain ⟨h1, h2, -⟩ := eig_symm he hA
  set V : Mat p p := of fun i j => ((eig p A).2 i j).re with hV
  set d : Vec p := fun i => ((eig p A).1 i).re with hd
  have hu := det_unit h2
  refine ⟨V * diagonal (fun i => if d i < 0 then 0 else d i) * V⁻¹, ?_, ?_⟩
  · unfold clipEig
    simp only [bind, Except.bind]
    rw [inv_ok h2]
  · have hA' : A = V * diagonal d * V⁻¹ := by rw [← h1, Matrix.mul_assoc, Matrix.mul_nonsing_inv _ hu, Matrix.mul_one]
    obtain ⟨B, hB1, hB2⟩ := fun_psd (f := fun x => if x < 0 then 0 else x) hA h2 h1 (fun x => by
      split <;> linarith)
    obtain ⟨M, hM1, hM2⟩ := fun_psd (f := fun x => if x < 0 then -x else 0) hA h2 h1 (fun x => by
      split <;> linarith)
    refine nearest_of_split (M := M) ?_ hM1 ?_ ?_
    · rw [hB2]; exact sq_psd hB1
    · rw [← hM2]
      conv_lhs => rw [hA']
      rw [← Matrix.sub_mul, ← Matrix.mul_sub, diagonal_sub]
      congr 3
      funext i
      split <;> ring
    · rw [← hM2, fun_mul h2]
      have : (fun i => (if d i < 0 then 0 else d i) * (if d i < 0 then -d i else 0)) = fun _ => 0 := by
        funext i
        split <;> ring
      rw [this, diagonal_zero, Matrix.mul_zero, Matrix.zero_mul]

/-- The accumulated internal variability. -/
theorem cvAll_eq {p : ℕ} (Cv : Mat p p) (l : List ℕ) (acc : Mat p p) : cvAll Cv l acc = acc + (l.map fun nr : ℕ => 1 / (nr : ℝ)).sum • Cv := by
  induction l generalizing acc with
  | nil => simp [cvAll]
  | cons nr l ih =>
    rw [cvAll, ih, List.map_cons, List.sum_cons, add_smul, add_assoc]

theorem ssm_ok {eig : Eig} (he : EigSpec eig) {argsort : Argsort} (ha : ArgsortSpec argsort) {nt : ℕ} (hnt : 0 < nt) (X : List (Exp nt))
    (hX : X ≠ []) (Xmm : Vec nt) :
    ∃ (U : Mat (nt - 1) nt), projMatrix eig argsort nt = .ok U ∧
      ssm eig argsort X Xmm = .ok (diagonal fun k => ∑ i : Fin X.length, (U *ᵥ (expMean (X.get i) - Xmm)) k ^ 2) := by
  obtain ⟨m, rfl⟩ : ∃ m, nt = m + 1 := ⟨nt - 1, by omega⟩
  obtain ⟨U, W, -, -, -, h0, h3, -⟩ := projection_pair he ha m
  refine ⟨U, h0, ?_⟩
  have hl : X.length ≠ 0 := by simpa using hX
  unfold ssm
  rw [if_neg hl]
  simp only [bind, Except.bind, pure, Except.pure]
  rw [h3]
  dsimp only
  rw [h3]
  dsimp only
  congr 2
  funext k
  refine Finset.sum_congr rfl fun i _ => ?_
  rw [Matrix.mulVec_sub]
  rfl

/-- The first estimate of the model error covariance: the spread of the models minus what internal variability explains of it. -/
noncomputable def Spec.firstEstimate {p : ℕ} (S Cv : Mat p p) (members : List ℕ) : Mat p p :=
  (1 / ((members.length : ℝ) - 1)) • (S - ((((members.length : ℝ) - 1) / members.length) * (members.map fun k : ℕ => 1 / (k : ℝ)).sum) • Cv)

/-- **C131.** For two or more experiments and a symmetric internal variability, `Cm_estimate` succeeds, and its result is `1 + 1/nm` times
the covariance matrix nearest to the first estimate - in particular symmetric, positive semidefinite and independent of the eigenbasis
chosen by the eigenvalue routine. -/
theorem C131_nearest {eig : Eig} (he : EigSpec eig) {argsort : Argsort} (ha : ArgsortSpec argsort) {nt : ℕ} (hnt : 0 < nt) (X : List (Exp nt))
    (hX : 2 ≤ X.length) (Cv : Mat (nt - 1) (nt - 1)) (hCv : Cvᵀ = Cv) (Xmm : Vec nt) :
    ∃ S C R, ssm eig argsort X Xmm = .ok S ∧ cmEstimate eig argsort X Cv Xmm = .ok R ∧
      NearestCov (firstEstimate S Cv (X.map Exp.members)) C ∧ R = (1 + 1 / (X.length : ℝ)) • C ∧ PSD R := by
  have hX0 : X ≠ [] := by rintro rfl; simp at hX
  obtain ⟨U, -, hS⟩ := ssm_ok he ha hnt X hX0 Xmm
  set S := diagonal fun k => ∑ i : Fin X.length, (U *ᵥ (expMean (X.get i) - Xmm)) k ^ 2 with hSd
  have hlen : (getNruns X).length = X.length := by unfold getNruns; rw [List.length_map]
  have hH : cmHat S Cv (getNruns X) = firstEstimate S Cv (X.map Exp.members) := by
    unfold cmHat Spec.firstEstimate
    dsimp only
    rw [cvAll_eq, zero_add, smul_smul]
    rfl
  have hsym : (cmHat S Cv (getNruns X))ᵀ = cmHat S Cv (getNruns X) := by
    rw [hH]
    unfold Spec.firstEstimate
    rw [Matrix.transpose_smul, Matrix.transpose_sub, Matrix.transpose_smul, hCv, hSd, diagonal_transpose]
  obtain ⟨C, hC1, hC2⟩ := clip_nearest he hsym
  refine ⟨S, C, (1 + 1 / (X.length : ℝ)) • C, hS, ?_, hH ▸ hC2, rfl, hC2.1.smul (by positivity)⟩
  unfold cmEstimate
  rw [hS]
  simp only [bind, Except.bind]
  rw [hlen, if_neg (by omega), hC1]

/-- When the spread of the models exceeds what internal variability explains, nothing is cut off. -/
theorem C131_exact {eig : Eig} (he : EigSpec eig) {argsort : Argsort} (ha : ArgsortSpec argsort) {nt : ℕ} (hnt : 0 < nt) (X : List (Exp nt))
    (hX : 2 ≤ X.length) (Cv : Mat (nt - 1) (nt - 1)) (hCv : Cvᵀ = Cv) (Xmm : Vec nt) (S : Mat (nt - 1) (nt - 1))
    (hS : ssm eig argsort X Xmm = .ok S) (hp : PSD (firstEstimate S Cv (X.map Exp.members))) :
    cmEstimate eig argsort X Cv Xmm = .ok ((1 + 1 / (X.length : ℝ)) • firstEstimate S Cv (X.map Exp.members)) := by
  obtain ⟨S', C, R, h1, h2, h3, h4, -⟩ := C131_nearest he ha hnt X hX Cv hCv Xmm
  rw [hS] at h1
  obtain rfl : S = S' := Except.ok.inj h1
  rw [h2, h4, nearest_unique h3 (nearest_self hp)]

/-- A single experiment gives no estimate: the call raises. -/
theorem C131_single {eig : Eig} (he : EigSpec eig) {argsort : Argsort} (ha : ArgsortSpec argsort) {nt : ℕ} (hnt : 0 < nt) (e : Exp nt)
    (Cv : Mat (nt - 1) (nt - 1)) (Xmm : Vec nt) : cmEstimate eig argsort [e] Cv Xmm = .error .zeroDiv := by
  obtain ⟨U, -, hS⟩ := ssm_ok he ha hnt [e] (by simp) Xmm
  unfold cmEstimate
  rw [hS]
  rfl

/-! ### C132 -/

/-- The mean over the members of an experiment. -/
noncomputable def Spec.memberMean {nt : ℕ} (e : Exp nt) (t : Fin nt) : ℝ := (e.members : ℝ)⁻¹ * ∑ k, e.data k t

theorem expMean_eq {nt : ℕ} (e : Exp nt) : expMean e = memberMean e := by
  funext t
  unfold expMean Spec.memberMean
  rw [div_eq_mul_inv, mul_comm]

/-- Sum over the models of the squared distance of the ensemble mean from the multi-model mean, time means removed. -/
noncomputable def Spec.spread {nt : ℕ} (X : List (Exp nt)) (Xmm : Vec nt) : ℝ :=
  ∑ i : Fin X.length, ∑ t, ((memberMean (X.get i) t - Xmm t) - (∑ s, (memberMean (X.get i) s - Xmm s)) / nt) ^ 2

/-- The claim of the docstring: `SSM` holds the squared differences (its trace is their sum). -/
def MeasuresSpread (eig : Eig) (argsort : Argsort) : Prop :=
  ∀ (nt : ℕ), 0 < nt → ∀ (X : List (Exp nt)), X ≠ [] → ∀ (Xmm : Vec nt), ∃ S, ssm eig argsort X Xmm = .ok S ∧ S.trace = spread X Xmm

/-- The eigenvectors of symmetric matrices are orthonormal - which `np.linalg.eig` does not promise. -/
def Orthonormal (eig : Eig) : Prop :=
  ∀ (n : ℕ) (A : Mat n n), Aᵀ = A → ∀ i j, i ≠ j → ∑ k, ((eig n A).2 k i).re * ((eig n A).2 k j).re = 0

/-- `speco` only permutes the columns. -/
theorem speco_perm {eig : Eig} {argsort : Argsort} {n : ℕ} {A V D : Mat (n + 1) (n + 1)} (h : speco eig argsort (n + 1) A = .ok (V, D)) :
    ∃ σ : Equiv.Perm (Fin (n + 1)), ∀ i j, V i j = ((eig (n + 1) A).2 i (σ j)).re := by
  unfold speco at h
  dsimp only at h
  split at h
  · cases h
  · have := (Prod.mk.inj (Except.ok.inj h)).1
    exact ⟨Fin.revPerm.trans (argsort (n + 1) fun i => ((eig (n + 1) A).1 i).re), fun i j => by rw [← this]; rfl⟩

/-- **C132 (partial: for an eigenvalue routine returning orthonormal eigenvectors).** The trace of `SSM` is the sum over the models of the
squared differences between ensemble mean and multi-model mean. -/
theorem C132_spread_partial {eig : Eig} (he : EigSpec eig) (ho : Orthonormal eig) {argsort : Argsort} (ha : ArgsortSpec argsort) :
    MeasuresSpread eig argsort := by
  intro nt hnt X hX Xmm
  obtain ⟨U, hU, hS⟩ := ssm_ok he ha hnt X hX Xmm
  refine ⟨_, hS, ?_⟩
  obtain ⟨m, rfl⟩ : ∃ m, nt = m + 1 := ⟨nt - 1, by omega⟩
  obtain ⟨V, D, h1, h2, h3, h4, h5⟩ := speco_centering he ha m
  obtain ⟨σ, hσ⟩ := speco_perm h1
  have hVV : Vᵀ * V = 1 := by
    ext i j
    rw [Matrix.mul_apply]
    by_cases hij : i = j
    · subst hij
      rw [Matrix.one_apply_eq, ← h3 i]
      exact Finset.sum_congr rfl fun k _ => by rw [Matrix.transpose_apply, sq]
    · rw [Matrix.one_apply_ne hij]
      have := ho (m + 1) _ (centering_symm _) (σ i) (σ j) fun h => hij (σ.injective h)
      rw [← this]
      exact Finset.sum_congr rfl fun k _ => by rw [Matrix.transpose_apply, hσ, hσ]
  have hUe : U = of fun k i => V i (Fin.castSucc k) := by
    unfold projMatrix at hU
    rw [h1] at hU
    exact (Except.ok.inj hU).symm
  have hUU : Uᵀ * U = centering (m + 1) := by
    have hVi : V⁻¹ = Vᵀ := Matrix.inv_eq_left_inv hVV
    have e : centering (m + 1) = V * D * Vᵀ := by
      rw [← h4, Matrix.mul_assoc, ← hVi, Matrix.mul_nonsing_inv _ (det_unit h2), Matrix.mul_one]
    rw [e]
    ext i j
    rw [Matrix.mul_apply, Matrix.mul_apply, Fin.sum_univ_castSucc (n := m), h5]
    simp only [mul_diagonal, Fin.lastCases_last, Fin.lastCases_castSucc, mul_zero, zero_mul, add_zero, mul_one]
    rw [hUe]
    rfl
  rw [Matrix.trace_diagonal, Finset.sum_comm]
  unfold Spec.spread
  simp only [← expMean_eq]
  refine Finset.sum_congr rfl fun i _ => ?_
  set x : Vec (m + 1) := expMean (X.get i) - Xmm with hx
  have e1 : ∑ k, (U *ᵥ x) k ^ 2 = x ⬝ᵥ (centering (m + 1) *ᵥ x) := by
    rw [← hUU, ← Matrix.mulVec_mulVec, Matrix.dotProduct_mulVec, Matrix.vecMul_transpose]
    exact Finset.sum_congr rfl fun k _ => sq _
  have e2 : x ⬝ᵥ (centering (m + 1) *ᵥ x) = (centering (m + 1) *ᵥ x) ⬝ᵥ (centering (m + 1) *ᵥ x) := by
    conv_lhs => rw [← centering_idem, ← Matrix.mulVec_mulVec, Matrix.dotProduct_mulVec]
    congr 1
    conv_rhs => rw [← centering_symm, Matrix.mulVec_transpose]
  have e3 : ∀ t, (centering (m + 1) *ᵥ x) t = x t - (∑ s, x s) / ((m + 1 : ℕ) : ℝ) := fun t => by
    have := centering_mul (col x) t 0
    simpa [col, Matrix.mul_apply, Matrix.mulVec, dotProduct] using this
  rw [show (∑ k : Fin (m + 1 - 1), (U *ᵥ x) k ^ 2) = x ⬝ᵥ (centering (m + 1) *ᵥ x) from e1, e2]
  refine Finset.sum_congr rfl fun t _ => ?_
  rw [e3, ← sq]
  simp only [hx, Pi.sub_apply]

/-- An eigenvalue routine that satisfies the contract but returns, for the centring matrix of three time steps, the independent unit
eigenvectors `(1,1,1)/√3`, `(1,0,-1)/√2`, `(1,-1,0)/√2`, the last two not orthogonal. -/
theorem exists_skew : ∃ (eig : Eig) (V : Mat 3 3), EigSpec eig ∧ eig 3 (centering 3) = (![0, 1, 1], V.map (fun x : ℝ => (x : ℂ))) ∧
    V = !![1 / Real.sqrt 3, 1 / Real.sqrt 2, 1 / Real.sqrt 2; 1 / Real.sqrt 3, 0, -(1 / Real.sqrt 2); 1 / Real.sqrt 3, -(1 / Real.sqrt 2), 0] := by
  classical
  obtain ⟨eig, he⟩ := exists_eig
  set a := 1 / Real.sqrt 3 with ha
  set b := 1 / Real.sqrt 2 with hb
  have ha2 : a ^ 2 = 1 / 3 := by rw [ha, div_pow, Real.sq_sqrt (by norm_num), one_pow]
  have hb2 : b ^ 2 = 1 / 2 := by rw [hb, div_pow, Real.sq_sqrt (by norm_num), one_pow]
  have ha0 : a ≠ 0 := by rw [ha]; positivity
  set V : Mat 3 3 := !![a, b, b; a, 0, -b; a, -b, 0] with hV
  set w : Fin 3 → ℂ := ![0, 1, 1] with hw
  set eig' : Eig := fun n A => if h : ∃ e : n = 3, e ▸ A = centering 3 then h.1 ▸ (w, V.map (fun x : ℝ => (x : ℂ))) else eig n A with he'
  have h3 : eig' 3 (centering 3) = (w, V.map (fun x : ℝ => (x : ℂ))) := by
    rw [he']
    dsimp only
    rw [dif_pos ⟨rfl, rfl⟩]
  have hcase : ∀ (n : ℕ) (A : Mat n n) (P : (n : ℕ) → Mat n n → (Fin n → ℂ) × Matrix (Fin n) (Fin n) ℂ → Prop),
      P n A (eig n A) → P 3 (centering 3) (w, V.map (fun x : ℝ => (x : ℂ))) → P n A (eig' n A) := by
    intro n A P h1 h2
    by_cases h : ∃ e : n = 3, e ▸ A = centering 3
    · obtain ⟨rfl, hA⟩ := h
      dsimp only at hA
      subst hA
      rw [h3]
      exact h2
    · have : eig' n A = eig n A := by
        rw [he']
        dsimp only
        rw [dif_neg h]
      rw [this]
      exact h1
  refine ⟨eig', V, ⟨fun n A => ?_, fun n A => ?_, fun n A => ?_, fun n A => ?_⟩, h3, rfl⟩
  · refine hcase n A (fun n A r => A.map (fun x : ℝ => (x : ℂ)) * r.2 = r.2 * diagonal r.1) (he.vec n A) ?_
    dsimp only
    ext i j
    rw [mul_diagonal, Matrix.mul_apply, Fin.sum_univ_three]
    fin_cases i <;> fin_cases j <;> simp [centering, hV, hw, Matrix.one_apply] <;> ring
  · refine hcase n A (fun n A r => ∀ j, ∑ i, ‖r.2 i j‖ ^ 2 = 1) (he.unit n A) ?_
    dsimp only
    intro j
    rw [Fin.sum_univ_three]
    fin_cases j <;> simp [hV, ha2, hb2] <;> norm_num
  · refine hcase n A (fun n A r => ∀ j, (r.1 j).im = 0 → ∀ i, (r.2 i j).im = 0) (he.real n A) ?_
    intro j _ i
    exact Complex.ofReal_im _
  · refine hcase n A (fun n A r => Aᵀ = A → IsUnit r.2.det) (he.indep n A) ?_
    intro _
    dsimp only
    rw [isUnit_iff_ne_zero]
    have hd : (V.map (fun x : ℝ => (x : ℂ))).det = ((V.det : ℝ) : ℂ) := by
      have := RingHom.map_det Complex.ofRealHom V
      rw [show Complex.ofRealHom V.det = ((V.det : ℝ) : ℂ) from rfl] at this
      rw [this]; rfl
    rw [hd]
    have : V.det = -(3 / 2) * a := by
      rw [hV, Matrix.det_fin_three]
      simp
      linear_combination (-3 * a) * hb2
    rw [this]
    intro h0
    have := Complex.ofReal_eq_zero.mp h0
    exact ha0 (by linarith)

open Classical in
/-- **C132 is false for an arbitrary admissible eigenvalue routine**: with non-orthogonal eigenvectors of the repeated eigenvalue, one
model at `(1, -1, 0)` and a zero multi-model mean, the trace is 5/2 instead of 2. -/
theorem C132_false : ¬ ∀ (eig : Eig), EigSpec eig → ∀ (argsort : Argsort), ArgsortSpec argsort → MeasuresSpread eig argsort := by
  intro h
  obtain ⟨eig, V, he, h3, hV⟩ := exists_skew
  set argsort : Argsort := fun n key => if Monotone key then 1 else Tuple.sort key with hargs
  have ha : ArgsortSpec argsort := by
    intro n key
    rw [hargs]
    dsimp only
    split
    · next hm => exact hm
    · exact Tuple.monotone_sort key
  set e : Exp 3 := ⟨1, of fun _ => ![1, -1, 0]⟩ with hedef
  have hmean : expMean e = ![1, -1, 0] := by
    funext t
    have : expMean e t = (∑ k : Fin 1, (of fun _ => ![1, -1, 0] : Mat 1 3) k t) / ((1 : ℕ) : ℝ) := rfl
    rw [this]
    simp
  obtain ⟨S, hS, ht⟩ := h eig he argsort ha 3 (by norm_num) [e] (by simp) 0
  obtain ⟨U, hU, hS'⟩ := ssm_ok he ha (nt := 3) (by norm_num) [e] (by simp) 0
  rw [hS] at hS'
  rw [Except.ok.inj hS', Matrix.trace_diagonal] at ht
  have hmono : Monotone fun i => ((eig 3 (centering 3)).1 i).re := by
    rw [h3]
    intro i j hij
    fin_cases i <;> fin_cases j <;> simp_all
  have hUe : ∀ k i, U k i = V i (Fin.castLE (Nat.sub_le 3 1) k).rev := by
    obtain ⟨V', D', hs, -⟩ := C120_speco he ha (n := 2) (centering 3) (centering_symm _)
    unfold projMatrix at hU
    rw [hs] at hU
    have hU' := Except.ok.inj hU
    unfold speco at hs
    dsimp only at hs
    split at hs
    · cases hs
    · have hV' := (Prod.mk.inj (Except.ok.inj hs)).1
      intro k i
      have hk : U k i = V' i (Fin.castLE (Nat.sub_le 3 1) k) := by rw [← hU']; rfl
      rw [hk, ← hV', of_apply, of_apply]
      have : argsort (2 + 1) (fun i => ((eig (2 + 1) (centering 3)).1 i).re) = 1 := by
        rw [hargs]
        exact if_pos hmono
      rw [this, show eig (2 + 1) (centering 3) = eig 3 (centering 3) from rfl, h3]
      exact Complex.ofReal_re _
  have hb2 : (1 / Real.sqrt 2) ^ 2 = 1 / 2 := by rw [div_pow, Real.sq_sqrt (by norm_num), one_pow]
  have hUx : ∀ k, (U *ᵥ (expMean e - 0)) k = V 0 (Fin.castLE (Nat.sub_le 3 1) k).rev - V 1 (Fin.castLE (Nat.sub_le 3 1) k).rev := by
    intro k
    rw [hmean, sub_zero, Matrix.mulVec, dotProduct, Fin.sum_univ_three, hUe, hUe, hUe]
    simp
    ring
  have hsum : ∑ k : Fin (3 - 1), ∑ i : Fin [e].length, (U *ᵥ (expMean ([e].get i) - 0)) k ^ 2 = 5 / 2 := by
    have e1 : ∀ k : Fin (3 - 1), ∑ i : Fin [e].length, (U *ᵥ (expMean ([e].get i) - 0)) k ^ 2 = (U *ᵥ (expMean e - 0)) k ^ 2 := fun k => by
      rw [show (Finset.univ : Finset (Fin [e].length)) = {0} from rfl, Finset.sum_singleton]
      rfl
    rw [Finset.sum_congr rfl fun k _ => e1 k, show (∑ k : Fin (3 - 1), (U *ᵥ (expMean e - 0)) k ^ 2) = (U *ᵥ (expMean e - 0)) 0 ^ 2 + (U *ᵥ (expMean e - 0)) 1 ^ 2
      from Fin.sum_univ_two (f := fun k : Fin 2 => (U *ᵥ (expMean e - 0)) k ^ 2), hUx, hUx, hV]
    have r0 : (Fin.castLE (Nat.sub_le 3 1) (0 : Fin 2)).rev = 2 := rfl
    have r1 : (Fin.castLE (Nat.sub_le 3 1) (1 : Fin 2)).rev = 1 := rfl
    rw [r0, r1]
    simp only [of_apply, cons_val]
    linear_combination 5 * hb2
  rw [hsum] at ht
  have hsp : spread [e] 0 = 2 := by
    unfold Spec.spread
    simp only [← expMean_eq]
    rw [show (Finset.univ : Finset (Fin [e].length)) = {0} from rfl, Finset.sum_singleton, show [e].get 0 = e from rfl, hmean]
    rw [Fin.sum_univ_three, Fin.sum_univ_three]
    simp
    norm_num
  rw [hsp] at ht
  norm_num at ht

/-! ### C133 -/

/-- **C133.** `Cv_estimate` is the mean internal variability of the multi-model mean, `(1/nm²) Σ Cv / members`, for one or more experiments. -/
theorem C133_value {nt p : ℕ} (X : List (Exp nt)) (hX : X ≠ []) (Cv : Mat p p) :
    cvEstimate X Cv = .ok (((1 / (X.length : ℝ) ^ 2) * (X.map fun e => 1 / (e.members : ℝ)).sum) • Cv) := by
  have hlen : (getNruns X).length = X.length := by unfold getNruns; rw [List.length_map]
  have hl : X.length ≠ 0 := by simpa using hX
  unfold cvEstimate
  dsimp only
  rw [hlen, if_neg hl, cvAll_eq, zero_add, smul_smul]
  unfold getNruns
  rw [List.map_map]
  rfl

/-- It is a covariance matrix whenever `Cv` is. -/
theorem C133_psd {nt p : ℕ} (X : List (Exp nt)) (hX : X ≠ []) (Cv : Mat p p) (hp : PSD Cv) : ∃ R, cvEstimate X Cv = .ok R ∧ PSD R := by
  refine ⟨_, C133_value X hX Cv, hp.smul ?_⟩
  refine mul_nonneg (by positivity) (List.sum_nonneg ?_)
  intro x hx
  obtain ⟨e, -, rfl⟩ := List.mem_map.mp hx
  positivity

/-- `k` experiments with `r` members each: `Cv / (k r)`, the variance of a mean of `k r` independent runs. -/
theorem C133_balanced {nt p : ℕ} (X : List (Exp nt)) (hX : X ≠ []) (r : ℕ) (hr : ∀ e ∈ X, e.members = r) (Cv : Mat p p) :
    cvEstimate X Cv = .ok ((1 / ((X.length : ℝ) * r)) • Cv) := by
  rw [C133_value X hX]
  have hl : (X.length : ℝ) ≠ 0 := by simpa using hX
  have : (X.map fun e => 1 / (e.members : ℝ)) = List.replicate X.length (1 / (r : ℝ)) := by
    rw [List.eq_replicate_iff]
    refine ⟨List.length_map _, fun b hb => ?_⟩
    obtain ⟨e, he, rfl⟩ := List.mem_map.mp hb
    rw [hr e he]
  rw [this, List.sum_replicate, nsmul_eq_mul]
  congr 2
  by_cases hr0 : (r : ℝ) = 0
  · rw [hr0]; simp
  · field_simp

/-- No experiment: the call raises. -/
theorem C133_empty {nt p : ℕ} (Cv : Mat p p) : cvEstimate ([] : List (Exp nt)) Cv = .error .zeroDiv := rfl

/-- Concrete data for the theorems of this file: two experiments with 2 and 3 members of four years. -/
example : ∃ (eig : Eig) (argsort : Argsort) (S C R : Mat 3 3),
    ssm eig argsort [⟨2, of fun k t => (k.val : ℝ) + t.val⟩, ⟨3, of fun k t => (k.val : ℝ) * t.val⟩] (![1, 2, 4, 8] : Vec 4) = .ok S ∧
    cmEstimate eig argsort [⟨2, of fun k t => (k.val : ℝ) + t.val⟩, ⟨3, of fun k t => (k.val : ℝ) * t.val⟩] 1 (![1, 2, 4, 8] : Vec 4) = .ok R ∧
    NearestCov (firstEstimate S 1 [2, 3]) C ∧ R = (1 + 1 / (2 : ℝ)) • C := by
  obtain ⟨eig, he⟩ := exists_eig
  obtain ⟨a, ha⟩ := exists_argsort
  obtain ⟨S, C, R, h1, h2, h3, h4, -⟩ := C131_nearest he ha (nt := 4) (by norm_num)
    [⟨2, of fun k t => (k.val : ℝ) + t.val⟩, ⟨3, of fun k t => (k.val : ℝ) * t.val⟩] (by simp) 1 (Matrix.transpose_one) ![1, 2, 4, 8]
  exact ⟨eig, a, S, C, R, h1, h2, h3, by rw [h4]; norm_num⟩

/-- Orthonormal eigenvalue routines exist, so that `C132_spread_partial` is not empty. -/
theorem exists_orthonormal : ∃ eig : Eig, EigSpec eig ∧ Orthonormal eig := by
  classical
  obtain ⟨eig, he⟩ := exists_eig
  have hm : ∀ (n : ℕ) (B C : Mat n n), (B * C).map (fun x : ℝ => (x : ℂ)) = B.map (fun x : ℝ => (x : ℂ)) * C.map (fun x : ℝ => (x : ℂ)) := fun n B C => by
    ext i j
    rw [Matrix.mul_apply, Matrix.map_apply, Matrix.mul_apply, Complex.ofReal_sum]
    simp_rw [Complex.ofReal_mul]
    rfl
  have h : ∀ (n : ℕ) (A : Mat n n), ∃ r : (Fin n → ℂ) × Matrix (Fin n) (Fin n) ℂ,
      (A.map (fun x : ℝ => (x : ℂ)) * r.2 = r.2 * diagonal r.1 ∧ (∀ j, ∑ i, ‖r.2 i j‖ ^ 2 = 1) ∧
      (∀ j, (r.1 j).im = 0 → ∀ i, (r.2 i j).im = 0) ∧ (Aᵀ = A → IsUnit r.2.det)) ∧
      (Aᵀ = A → ∀ i j, i ≠ j → ∑ k, (r.2 k i).re * (r.2 k j).re = 0) := by
    intro n A
    by_cases hA : Aᵀ = A
    · obtain ⟨w, V, h1, h2⟩ := exists_symm hA
      refine ⟨(fun i => (w i : ℂ), V.map (fun x : ℝ => (x : ℂ))), ⟨?_, fun j => ?_, fun j _ i => Complex.ofReal_im _, fun _ => ?_⟩, fun _ i j hij => ?_⟩
      · dsimp only
        rw [← hm, h1, hm]
        congr 1
        ext i j
        rw [Matrix.map_apply, diagonal_apply, diagonal_apply]
        split <;> rfl
      · have := congrFun (congrFun h2 j) j
        rw [Matrix.mul_apply, Matrix.one_apply_eq] at this
        rw [← this]
        refine Finset.sum_congr rfl fun i _ => ?_
        dsimp only
        rw [Matrix.map_apply, Complex.norm_real, Real.norm_eq_abs, sq_abs, Matrix.transpose_apply, sq]
      · have h4 := congrArg Matrix.det (congrArg (fun M => Matrix.map M (fun x : ℝ => (x : ℂ))) h2)
        rw [hm, Matrix.det_mul, Matrix.map_one _ Complex.ofReal_zero Complex.ofReal_one, Matrix.det_one] at h4
        exact IsUnit.of_mul_eq_one_right _ h4
      · have := congrFun (congrFun h2 i) j
        rw [Matrix.mul_apply, Matrix.one_apply_ne hij] at this
        exact this
    · exact ⟨eig n A, ⟨he.vec n A, he.unit n A, he.real n A, he.indep n A⟩, fun h => absurd h hA⟩
  choose f hf using h
  exact ⟨f, ⟨fun n A => (hf n A).1.1, fun n A => (hf n A).1.2.1, fun n A => (hf n A).1.2.2.1, fun n A => (hf n A).1.2.2.2⟩, fun n A => (hf n A).2⟩

end Skyborn.ROF
