import Verif.ROF.Eigen
import Mathlib.LinearAlgebra.Matrix.ToLinearEquiv
import Mathlib.LinearAlgebra.Matrix.DotProduct
import Mathlib.Algebra.Order.Star.Real

/-! C118 (projection and its inverse) and C119 (`calculate_trend`). -/

namespace Skyborn.ROF
open Matrix

theorem centering_symm (nt : ℕ) : (centering nt)ᵀ = centering nt := by
  unfold centering
  ext i j
  by_cases h : i = j
  · subst h; simp
  · simp [Matrix.one_apply, h, Ne.symm h]

/-- The centring matrix removes the mean of each column. -/
theorem centering_mul {nt nf : ℕ} (X : Mat nt nf) (t : Fin nt) (f : Fin nf) :
    (centering nt * X) t f = X t f - (∑ s, X s f) / nt := by
  unfold centering
  rw [Matrix.sub_mul, Matrix.one_mul, Matrix.sub_apply, Matrix.mul_apply]
  congr 1
  rw [Finset.sum_div]
  refine Finset.sum_congr rfl fun s _ => ?_
  rw [of_apply]; ring

theorem centering_idem (m : ℕ) : centering (m + 1) * centering (m + 1) = centering (m + 1) := by
  ext i j
  rw [centering_mul]
  have : ∑ s, centering (m + 1) s j = 0 := by
    unfold centering
    simp only [Matrix.sub_apply, of_apply, Matrix.one_apply]
    rw [Finset.sum_sub_distrib, Finset.sum_ite_eq', Finset.sum_const, Finset.card_univ, Fintype.card_fin, nsmul_eq_mul]
    have : ((m + 1 : ℕ) : ℝ) ≠ 0 := by positivity
    field_simp
    simp
  rw [this, zero_div, sub_zero]

theorem centering_trace (m : ℕ) : (centering (m + 1)).trace = m := by
  unfold centering
  rw [Matrix.trace_sub, Matrix.trace_one, Matrix.trace]
  simp only [Matrix.diag_apply, of_apply, Finset.sum_const, Finset.card_univ, Fintype.card_fin, nsmul_eq_mul]
  have : ((m + 1 : ℕ) : ℝ) ≠ 0 := by positivity
  field_simp
  push_cast
  ring

/-- Numbers in descending order, each 0 or 1, summing to `m`: all are 1 but the last. -/
theorem zero_one_desc {m : ℕ} {d : Fin (m + 1) → ℝ} (hd : ∀ i j, i ≤ j → d j ≤ d i) (h01 : ∀ i, d i = 0 ∨ d i = 1) (hs : ∑ i, d i = m) :
    d (Fin.last m) = 0 ∧ ∀ i : Fin m, d i.castSucc = 1 := by
  rw [Fin.sum_univ_castSucc] at hs
  have hle : ∀ i, d i ≤ 1 := fun i => by rcases h01 i with h | h <;> rw [h] <;> norm_num
  have hl : d (Fin.last m) = 0 := by
    rcases h01 (Fin.last m) with h | h
    · exact h
    · exfalso
      have hall : ∀ i : Fin m, d i.castSucc = 1 := fun i => le_antisymm (hle _) (h ▸ hd _ _ (Fin.le_last _))
      rw [h, Finset.sum_congr rfl fun i _ => hall i, Finset.sum_const, Finset.card_univ, Fintype.card_fin, nsmul_eq_mul] at hs
      linarith
  refine ⟨hl, fun i => ?_⟩
  rcases h01 i.castSucc with h | h
  · exfalso
    rw [hl, add_zero] at hs
    have : ∑ k : Fin m, d k.castSucc < ∑ _k : Fin m, (1 : ℝ) :=
      Finset.sum_lt_sum (fun k _ => hle _) ⟨i, Finset.mem_univ _, by rw [h]; norm_num⟩
    rw [hs, Finset.sum_const, Finset.card_univ, Fintype.card_fin, nsmul_eq_mul, mul_one] at this
    exact lt_irrefl _ this
  · exact h

/-- What `speco` gives on the centring matrix. -/
theorem speco_centering {eig : Eig} (he : EigSpec eig) {argsort : Argsort} (ha : ArgsortSpec argsort) (m : ℕ) :
    ∃ V D, speco eig argsort (m + 1) (centering (m + 1)) = .ok (V, D) ∧ V.det ≠ 0 ∧ (∀ j, ∑ i, V i j ^ 2 = 1) ∧
      centering (m + 1) * V = V * D ∧
      D = diagonal (Fin.lastCases (motive := fun _ => ℝ) 0 (fun _ => 1)) := by
  obtain ⟨V, D, h1, h2, h3, h4, h5, h6⟩ := C120_speco he ha (centering (m + 1)) (centering_symm _)
  have hu := det_unit h3
  have hD : D = V⁻¹ * centering (m + 1) * V := by
    rw [Matrix.mul_assoc, h2, ← Matrix.mul_assoc, Matrix.nonsing_inv_mul _ hu, Matrix.one_mul]
  have hDD : D * D = D := by
    have : D * D = V⁻¹ * (centering (m + 1) * (V * D)) := by
      rw [hD]
      simp only [Matrix.mul_assoc]
    rw [this, ← h2, ← Matrix.mul_assoc (centering (m + 1)), centering_idem, h2, ← Matrix.mul_assoc, Matrix.nonsing_inv_mul _ hu, Matrix.one_mul]
  have hdiag : D = diagonal fun i => D i i := by
    ext i j
    by_cases hij : i = j
    · subst hij; rw [diagonal_apply_eq]
    · rw [diagonal_apply_ne _ hij, h5 i j hij]
  have htr : ∑ i, D i i = m := by
    have : D.trace = m := by
      rw [hD, Matrix.trace_mul_comm, ← Matrix.mul_assoc, Matrix.mul_nonsing_inv _ hu, Matrix.one_mul, centering_trace]
    exact this
  have h01 : ∀ i, D i i = 0 ∨ D i i = 1 := by
    intro i
    have := congrFun (congrFun hDD i) i
    rw [hdiag, diagonal_mul_diagonal, diagonal_apply_eq, diagonal_apply_eq] at this
    have h0 : D i i * (D i i - 1) = 0 := by rw [mul_sub, this]; ring
    rcases mul_eq_zero.mp h0 with h | h
    · exact Or.inl h
    · exact Or.inr (by linarith)
  obtain ⟨z1, z2⟩ := zero_one_desc (d := fun i => D i i) h6 h01 htr
  refine ⟨V, D, h1, h3, h4, h2, ?_⟩
  rw [hdiag]
  congr 1
  funext i
  induction i using Fin.lastCases with
  | last => rw [Fin.lastCases_last]; exact z1
  | cast i => rw [Fin.lastCases_castSucc]; exact z2 i

/-- The projection `U` and the unprojection `W` used by the code. -/
theorem projection_pair {eig : Eig} (he : EigSpec eig) {argsort : Argsort} (ha : ArgsortSpec argsort) (m : ℕ) :
    ∃ (U : Mat m (m + 1)) (W : Mat (m + 1) m), U * W = 1 ∧ W * U = centering (m + 1) ∧ (∀ k, ∑ i, U k i ^ 2 = 1) ∧
      (projMatrix eig argsort (m + 1) = .ok U) ∧
      (∀ (nf : ℕ) (X : Mat (m + 1) nf), projectVectors eig argsort (m + 1) X = .ok (U * X)) ∧
      (∀ (nf : ℕ) (Xc : Mat m nf), unprojectVectors eig argsort (m + 1) Xc = .ok (W * Xc)) := by
  obtain ⟨V, D, h1, h2, h3, h4, h5⟩ := speco_centering he ha m
  have hu := det_unit h2
  have huT : IsUnit (Vᵀ).det := by rw [det_transpose]; exact hu
  have huT0 : (Vᵀ).det ≠ 0 := huT.ne_zero
  refine ⟨of fun k i => V i k.castSucc, of fun i k => (Vᵀ)⁻¹ i k.castSucc, ?_, ?_, fun k => h3 _, ?_, ?_, ?_⟩
  · ext k l
    have := congrFun (congrFun (Matrix.mul_nonsing_inv _ huT) k.castSucc) l.castSucc
    rw [Matrix.mul_apply] at this ⊢
    rw [show (∑ j, (of fun k i => V i k.castSucc : Mat m (m + 1)) k j * (of fun i k => (Vᵀ)⁻¹ i k.castSucc : Mat (m + 1) m) j l) =
      ∑ j, Vᵀ k.castSucc j * (Vᵀ)⁻¹ j l.castSucc from rfl, this]
    by_cases hkl : k = l
    · subst hkl; simp
    · rw [Matrix.one_apply_ne hkl, Matrix.one_apply_ne (by simpa using hkl)]
  · -- the centring matrix is `V D V⁻¹`, hence its own transpose `(Vᵀ)⁻¹ D Vᵀ`
    have hM : centering (m + 1) = (Vᵀ)⁻¹ * D * Vᵀ := by
      have e : centering (m + 1) = V * D * V⁻¹ := by
        rw [← h4, Matrix.mul_assoc, Matrix.mul_nonsing_inv _ hu, Matrix.mul_one]
      have hDt : Dᵀ = D := by rw [h5, diagonal_transpose]
      rw [← centering_symm, e, Matrix.transpose_mul, Matrix.transpose_mul, hDt, Matrix.transpose_nonsing_inv, Matrix.mul_assoc]
    rw [hM]
    ext i j
    rw [Matrix.mul_apply, Matrix.mul_apply, Fin.sum_univ_castSucc (n := m)]
    rw [h5]
    simp only [mul_diagonal, Fin.lastCases_last, Fin.lastCases_castSucc, mul_zero, zero_mul, add_zero, mul_one]
    rfl
  · unfold projMatrix
    rw [h1]; rfl
  · intro nf X
    unfold projectVectors projMatrix
    rw [h1]; rfl
  · intro nf Xc
    unfold unprojectVectors
    rw [h1]
    simp only [bind, Except.bind]
    rw [inv_ok huT0]
    rfl

/-- **C118 (there and back).** Projecting a set of series and unprojecting the result gives the series minus their time means, for every
number of time steps and every admissible eigenbasis. -/
theorem C118_unproject_project {eig : Eig} (he : EigSpec eig) {argsort : Argsort} (ha : ArgsortSpec argsort) {nt nf : ℕ} (hnt : 0 < nt)
    (X : Mat nt nf) :
    ∃ Xc Y, projectVectors eig argsort nt X = .ok Xc ∧ unprojectVectors eig argsort nt Xc = .ok Y ∧
      ∀ t f, Y t f = X t f - (∑ s, X s f) / nt := by
  obtain ⟨m, rfl⟩ : ∃ m, nt = m + 1 := ⟨nt - 1, by omega⟩
  obtain ⟨U, W, -, h2, -, -, h3, h4⟩ := projection_pair he ha m
  refine ⟨U * X, W * (U * X), h3 nf X, h4 nf _, fun t f => ?_⟩
  rw [← Matrix.mul_assoc, h2, centering_mul]

/-- **C118 (back and there).** Unprojecting gives series with zero mean whose projection is the data again. -/
theorem C118_project_unproject {eig : Eig} (he : EigSpec eig) {argsort : Argsort} (ha : ArgsortSpec argsort) {nt nf : ℕ} (hnt : 0 < nt)
    (Xc : Mat (nt - 1) nf) :
    ∃ Y, unprojectVectors eig argsort nt Xc = .ok Y ∧ (∀ f, ∑ t, Y t f = 0) ∧ projectVectors eig argsort nt Y = .ok Xc := by
  obtain ⟨m, rfl⟩ : ∃ m, nt = m + 1 := ⟨nt - 1, by omega⟩
  obtain ⟨U, W, h1, h2, -, -, h3, h4⟩ := projection_pair he ha m
  revert Xc
  suffices key : ∀ Xc : Mat m nf, ∃ Y, unprojectVectors eig argsort (m + 1) Xc = .ok Y ∧ (∀ f, ∑ t, Y t f = 0) ∧
      projectVectors eig argsort (m + 1) Y = .ok Xc from key
  intro Xc
  refine ⟨W * Xc, h4 nf Xc, fun f => ?_, ?_⟩
  · have e : centering (m + 1) * (W * Xc) = W * Xc := by
      rw [← h2, Matrix.mul_assoc, ← Matrix.mul_assoc U, h1, Matrix.one_mul]
    have hsum : ∑ t, (centering (m + 1) * (W * Xc)) t f = 0 := by
      simp_rw [centering_mul]
      rw [Finset.sum_sub_distrib, Finset.sum_const, Finset.card_univ, Fintype.card_fin, nsmul_eq_mul]
      have : ((m + 1 : ℕ) : ℝ) ≠ 0 := by positivity
      field_simp
      ring
    rwa [e] at hsum
  · rw [h3, ← Matrix.mul_assoc, h1, Matrix.one_mul]

/-- Adding a constant to a series does not change its projection. -/
theorem C118_constant {eig : Eig} (he : EigSpec eig) {argsort : Argsort} (ha : ArgsortSpec argsort) {nt nf : ℕ} (hnt : 0 < nt)
    (X : Mat nt nf) (c : Vec nf) :
    projectVectors eig argsort nt (of fun t f => X t f + c f) = projectVectors eig argsort nt X := by
  obtain ⟨m, rfl⟩ : ∃ m, nt = m + 1 := ⟨nt - 1, by omega⟩
  obtain ⟨U, W, h1, h2, -, -, h3, h4⟩ := projection_pair he ha m
  rw [h3, h3]
  have hU : U = U * centering (m + 1) := by rw [← h2, ← Matrix.mul_assoc, h1, Matrix.one_mul]
  have : ∀ Y : Mat (m + 1) nf, U * Y = U * (centering (m + 1) * Y) := fun Y => by rw [← Matrix.mul_assoc, ← hU]
  rw [this, this X]
  congr 2
  ext t f
  rw [centering_mul, centering_mul]
  simp only [of_apply]
  rw [Finset.sum_add_distrib, Finset.sum_const, Finset.card_univ, Fintype.card_fin, nsmul_eq_mul]
  have : ((m + 1 : ℕ) : ℝ) ≠ 0 := by positivity
  field_simp
  ring

/-! ### C119 -/

/-- `s` is the least-squares trend of the series `y` (per time step): some intercept with slope `s` minimises the squared error over all
straight lines. -/
def Spec.IsTrend {nt : ℕ} (y : Vec nt) (s : ℝ) : Prop :=
  ∃ a, ∀ a' b', ∑ t, (y t - (a + s * (t.val : ℝ))) ^ 2 ≤ ∑ t, (y t - (a' + b' * (t.val : ℝ))) ^ 2

/-- Orthogonality to the regressors is minimality. -/
theorem trend_of_orth {nt : ℕ} {y : Vec nt} {a b : ℝ} (h0 : ∑ t, (y t - (a + b * (t.val : ℝ))) = 0)
    (h1 : ∑ t, (y t - (a + b * (t.val : ℝ))) * (t.val : ℝ) = 0) : Spec.IsTrend y b := by
  refine ⟨a, fun a' b' => ?_⟩
  have : ∑ t, (y t - (a' + b' * (t.val : ℝ))) ^ 2 = ∑ t, (y t - (a + b * (t.val : ℝ))) ^ 2 +
      2 * (a - a') * ∑ t, (y t - (a + b * (t.val : ℝ))) + 2 * (b - b') * ∑ t, (y t - (a + b * (t.val : ℝ))) * (t.val : ℝ) +
      ∑ t : Fin nt, ((a - a') + (b - b') * (t.val : ℝ)) ^ 2 := by
    rw [Finset.mul_sum, Finset.mul_sum, ← Finset.sum_add_distrib, ← Finset.sum_add_distrib, ← Finset.sum_add_distrib]
    refine Finset.sum_congr rfl fun t _ => ?_
    ring
  rw [this, h0, h1]
  have := Finset.sum_nonneg (s := Finset.univ) (fun (t : Fin nt) _ => sq_nonneg ((a - a') + (b - b') * (t.val : ℝ)))
  linarith

/-- The trend is unique when there are at least two time steps. -/
theorem trend_unique {nt : ℕ} (hnt : 2 ≤ nt) {y : Vec nt} {s s' : ℝ} (h : Spec.IsTrend y s) (h' : Spec.IsTrend y s') : s = s' := by
  obtain ⟨a, ha⟩ := h
  obtain ⟨a', ha'⟩ := h'
  have e : ∑ t, (y t - (a + s * (t.val : ℝ))) ^ 2 = ∑ t, (y t - (a' + s' * (t.val : ℝ))) ^ 2 := le_antisymm (ha _ _) (ha' _ _)
  have hm := ha ((a + a') / 2) ((s + s') / 2)
  have hid : ∑ t, (y t - ((a + a') / 2 + (s + s') / 2 * (t.val : ℝ))) ^ 2 =
      1 / 2 * ∑ t, (y t - (a + s * (t.val : ℝ))) ^ 2 + 1 / 2 * ∑ t, (y t - (a' + s' * (t.val : ℝ))) ^ 2 -
      1 / 4 * ∑ t : Fin nt, ((a - a') + (s - s') * (t.val : ℝ)) ^ 2 := by
    rw [Finset.mul_sum, Finset.mul_sum, Finset.mul_sum, ← Finset.sum_add_distrib, ← Finset.sum_sub_distrib]
    refine Finset.sum_congr rfl fun t _ => ?_
    ring
  have hz : ∑ t : Fin nt, ((a - a') + (s - s') * (t.val : ℝ)) ^ 2 ≤ 0 := by linarith
  have hz0 := (Finset.sum_eq_zero_iff_of_nonneg (fun (t : Fin nt) _ => sq_nonneg ((a - a') + (s - s') * (t.val : ℝ)))).mp
    (le_antisymm hz (Finset.sum_nonneg fun t _ => sq_nonneg _))
  have z0 := hz0 ⟨0, by omega⟩ (Finset.mem_univ _)
  have z1 := hz0 ⟨1, by omega⟩ (Finset.mem_univ _)
  have z0 := pow_eq_zero_iff (two_ne_zero) |>.mp z0
  have z1 := pow_eq_zero_iff (two_ne_zero) |>.mp z1
  simp only [Nat.cast_zero, Nat.cast_one] at z0 z1
  linarith

theorem timeDesign_det {nt : ℕ} (hnt : 2 ≤ nt) : ((timeDesign nt)ᵀ * timeDesign nt).det ≠ 0 := by
  intro h0
  obtain ⟨v, hv, hz⟩ := Matrix.exists_mulVec_eq_zero_iff.mpr h0
  have h1 : timeDesign nt *ᵥ v = 0 := by
    rw [← Matrix.conjTranspose_eq_transpose_of_trivial] at hz
    exact (Matrix.conjTranspose_mul_self_mulVec_eq_zero _ _).mp hz
  have e0 := congrFun h1 ⟨0, by omega⟩
  have e1 := congrFun h1 ⟨1, by omega⟩
  simp only [timeDesign, Matrix.mulVec, dotProduct, Fin.sum_univ_two, of_apply, Pi.zero_apply, if_true, one_mul, Nat.cast_zero, Nat.cast_one] at e0 e1
  norm_num at e0 e1
  apply hv
  funext i
  fin_cases i
  · exact e0
  · simpa [e0] using e1

/-- **C119.** The trend computed from the projected series is the least-squares trend of the original series, whatever eigenbasis the
projection uses. -/
theorem C119_trend {eig : Eig} (he : EigSpec eig) {argsort : Argsort} (ha : ArgsortSpec argsort) {m : ℕ} (hm : 1 ≤ m) (y : Vec (m + 1)) :
    ∃ yc s, projectVectors eig argsort (m + 1) (col y) = .ok (col yc) ∧ calculateTrend eig argsort yc = .ok s ∧ Spec.IsTrend y s ∧
      ∀ s', Spec.IsTrend y s' → s' = s := by
  obtain ⟨U, W, h1, h2, -, -, h3, h4⟩ := projection_pair he ha m
  set X := timeDesign (m + 1) with hX
  have hdet : (Xᵀ * X).det ≠ 0 := timeDesign_det (by omega)
  obtain ⟨yc, hcol⟩ : ∃ yc : Vec m, col yc = U * col y := by
    refine ⟨fun k => (U * col y) k 0, ?_⟩
    ext k f
    rw [Subsingleton.elim f 0]; rfl
  have hyun : W * (U * col y) = centering (m + 1) * col y := by rw [← Matrix.mul_assoc, h2]
  set b := (Xᵀ * X)⁻¹ * Xᵀ * (centering (m + 1) * col y) with hb
  have h5 : unprojectVectors eig argsort (m + 1) (col yc) = .ok (centering (m + 1) * col y) := by
    have := h4 1 (col yc)
    rw [hcol, hyun] at this
    rw [← hcol] at this
    exact this
  have hrun : calculateTrend eig argsort yc = .ok (b 1 0) := by
    unfold calculateTrend
    simp only [bind, Except.bind]
    rw [h5]
    dsimp only
    rw [inv_ok hdet]
  have hne : Xᵀ * (X * b) = Xᵀ * (centering (m + 1) * col y) := by
    rw [← Matrix.mul_assoc, hb, Matrix.mul_assoc _⁻¹, ← Matrix.mul_assoc (Xᵀ * X), Matrix.mul_nonsing_inv _ (det_unit hdet), Matrix.one_mul]
  have hXb : ∀ t, (X * b) t 0 = b 0 0 + b 1 0 * (t.val : ℝ) := fun t => by
    rw [Matrix.mul_apply, Fin.sum_univ_two, hX]
    simp [timeDesign]
    ring
  have hc : ∀ t, (centering (m + 1) * col y) t 0 = y t - (∑ s, y s) / (m + 1 : ℕ) := fun t => centering_mul _ t 0
  have hX0 : ∀ t, Xᵀ 0 t = 1 := fun t => by simp [hX, timeDesign]
  have hX1 : ∀ t : Fin (m + 1), Xᵀ 1 t = (t.val : ℝ) := fun t => by simp [hX, timeDesign]
  set ybar := (∑ s, y s) / (m + 1 : ℕ)
  have o0 : ∑ t, (y t - ((b 0 0 + ybar) + b 1 0 * (t.val : ℝ))) = 0 := by
    have := congrFun (congrFun hne 0) 0
    rw [Matrix.mul_apply, Matrix.mul_apply] at this
    simp only [hXb, hc, hX0, one_mul] at this
    rw [← sub_eq_zero, ← neg_eq_zero, neg_sub, ← Finset.sum_sub_distrib] at this
    rw [← this]
    refine Finset.sum_congr rfl fun t _ => ?_
    ring
  have o1 : ∑ t, (y t - ((b 0 0 + ybar) + b 1 0 * (t.val : ℝ))) * (t.val : ℝ) = 0 := by
    have := congrFun (congrFun hne 1) 0
    rw [Matrix.mul_apply, Matrix.mul_apply] at this
    simp only [hXb, hc, hX1] at this
    rw [← sub_eq_zero, ← neg_eq_zero, neg_sub, ← Finset.sum_sub_distrib] at this
    rw [← this]
    refine Finset.sum_congr rfl fun t _ => ?_
    ring
  have ht := trend_of_orth o0 o1
  exact ⟨yc, b 1 0, (h3 1 _).trans (congrArg _ hcol.symm), hrun, ht, fun s' hs' => trend_unique (by omega) hs' ht⟩

/-- A single time step has no trend: `calculate_trend` raises on an empty projected series. -/
theorem C119_single {eig : Eig} (he : EigSpec eig) {argsort : Argsort} (ha : ArgsortSpec argsort) (y : Vec 0) :
    calculateTrend eig argsort y = .error .singular := by
  obtain ⟨U, W, -, -, -, -, -, h4⟩ := projection_pair he ha 0
  unfold calculateTrend
  simp only [bind, Except.bind]
  rw [h4]
  dsimp only
  rw [inv_err]
  rw [Matrix.det_fin_two]
  simp [Matrix.mul_apply, timeDesign]

/-- The series 1, 3, 2, 6 has trend 1.4: a concrete case of C119. -/
example : Spec.IsTrend (![1, 3, 2, 6] : Vec 4) (7 / 5) :=
  trend_of_orth (a := 9 / 10) (by simp [Fin.sum_univ_succ]; norm_num) (by simp [Fin.sum_univ_succ]; norm_num)

end Skyborn.ROF
