import Verif.ROF.Spec

/-! C122-C124: the Ledoit-Wolf regularised covariance matrix. -/

namespace Skyborn.ROF
open Matrix Spec

theorem sampleCov_psd {n p : ℕ} (X : Mat n p) : PSD (sampleCov X) :=
  (PSD.gram X).smul (by positivity)

theorem lwM_eq {n p : ℕ} (X : Mat n p) : lwM X = (sampleCov X).trace / p := by
  unfold lwM; rw [Matrix.mul_one]

theorem lwD2_nonneg {n p : ℕ} (X : Mat n p) : 0 ≤ lwD2 X :=
  div_nonneg (trace_mul_transpose_nonneg _) (Nat.cast_nonneg _)

theorem lwBB2_nonneg {n p : ℕ} (X : Mat n p) : 0 ≤ lwBB2 X := by
  refine mul_nonneg (by positivity) (Finset.sum_nonneg fun i _ => ?_)
  exact div_nonneg (trace_mul_transpose_nonneg _) (Nat.cast_nonneg _)

theorem sampleCov_trace_nonneg {n p : ℕ} (X : Mat n p) : 0 ≤ (sampleCov X).trace :=
  Finset.sum_nonneg fun i _ => (sampleCov_psd X).diag_nonneg i

/-- `d2 = 0` exactly when the sample covariance is a multiple of the identity. -/
theorem lwD2_eq_zero {n p : ℕ} (X : Mat n p) : lwD2 X = 0 ↔ ∃ c : ℝ, sampleCov X = c • (1 : Mat p p) := by
  unfold lwD2
  dsimp only
  rcases Nat.eq_zero_or_pos p with rfl | hp
  · simp only [Nat.cast_zero, div_zero, true_iff]
    exact ⟨0, Subsingleton.elim _ _⟩
  have hp' : (p : ℝ) ≠ 0 := by positivity
  rw [div_eq_zero_iff, or_iff_left hp', trace_mul_transpose_eq_zero, sub_eq_zero]
  constructor
  · intro h; exact ⟨_, h⟩
  · rintro ⟨c, hc⟩
    rw [lwM_eq, hc, Matrix.trace_smul, Matrix.trace_one, Fintype.card_fin, smul_eq_mul, mul_div_assoc, div_self hp', mul_one]

/-- The result when it is defined. -/
theorem creg_run {n p : ℕ} (X : Mat n p) (hn : n ≠ 0) (hd : lwD2 X ≠ 0) :
    cregLedoit X = some ((min (lwBB2 X) (lwD2 X) / lwD2 X * lwM X) • (1 : Mat p p) + (1 - min (lwBB2 X) (lwD2 X) / lwD2 X) • sampleCov X) := by
  unfold cregLedoit cregSpecified
  rw [if_neg (by push Not; exact ⟨hn, hd⟩)]
  dsimp only
  congr 3
  · field_simp
  · field_simp

theorem shrink_range {n p : ℕ} (X : Mat n p) (hd : lwD2 X ≠ 0) :
    0 ≤ min (lwBB2 X) (lwD2 X) / lwD2 X ∧ min (lwBB2 X) (lwD2 X) / lwD2 X ≤ 1 := by
  have h0 : 0 < lwD2 X := lt_of_le_of_ne (lwD2_nonneg X) (Ne.symm hd)
  exact ⟨div_nonneg (le_min (lwBB2_nonneg X) h0.le) h0.le, by rw [div_le_one h0]; exact min_le_right _ _⟩

/-- **C122.** When the Ledoit-Wolf estimate is a number it is a convex combination of the sample covariance and of the multiple of the
identity with the same trace; so the trace (total variance) is kept and the estimate is a covariance matrix. -/
theorem C122_convex {n p : ℕ} (X : Mat n p) (C : Mat p p) (h : cregLedoit X = some C) :
    (∃ l, 0 ≤ l ∧ l ≤ 1 ∧ C = (l * ((sampleCov X).trace / p)) • (1 : Mat p p) + (1 - l) • sampleCov X) ∧
      C.trace = (sampleCov X).trace ∧ PSD C := by
  have hc : n ≠ 0 ∧ lwD2 X ≠ 0 := by
    unfold cregLedoit at h
    split at h
    · cases h
    · next hh => push Not at hh; exact hh
  rw [creg_run X hc.1 hc.2, lwM_eq] at h
  obtain ⟨h0, h1⟩ := shrink_range X hc.2
  set l := min (lwBB2 X) (lwD2 X) / lwD2 X
  have hC := (Option.some.inj h).symm
  have hp : p ≠ 0 := by
    rintro rfl
    exact hc.2 ((lwD2_eq_zero X).mpr ⟨0, Subsingleton.elim _ _⟩)
  have hp' : (p : ℝ) ≠ 0 := by exact_mod_cast hp
  refine ⟨⟨l, h0, h1, hC⟩, ?_, ?_⟩
  · rw [hC, Matrix.trace_add, Matrix.trace_smul, Matrix.trace_smul, Matrix.trace_one, Fintype.card_fin, smul_eq_mul, smul_eq_mul]
    field_simp
    ring
  · rw [hC]
    exact (PD.one.psd.smul (mul_nonneg h0 (div_nonneg (sampleCov_trace_nonneg X) (Nat.cast_nonneg _)))).add
      ((sampleCov_psd X).smul (by linarith))

/-- Equal outer products: the vectors agree up to sign. -/
theorem outer_eq {p : ℕ} {a b : Vec p} (h : ∀ k l, a k * a l = b k * b l) : a = b ∨ a = -b := by
  by_cases hb : b = 0
  · left
    subst hb
    funext k
    have := h k k
    simp only [Pi.zero_apply, mul_zero] at this
    exact mul_self_eq_zero.mp this
  · obtain ⟨k, hk⟩ := Function.ne_iff.mp hb
    have hk : b k ≠ 0 := hk
    have hkk := h k k
    rcases mul_self_eq_mul_self_iff.mp hkk with he | he
    · left
      funext l
      have := h k l
      rw [he] at this
      exact mul_left_cancel₀ hk this
    · right
      funext l
      have := h k l
      rw [he] at this
      have : b k * a l = b k * (-b l) := by linarith
      exact mul_left_cancel₀ hk this

theorem rowOuter_apply {n p : ℕ} (X : Mat n p) (i : Fin n) (k l : Fin p) :
    ((of fun _ j => X i j : Mat 1 p)ᵀ * (of fun _ j => X i j : Mat 1 p)) k l = X i k * X i l := by
  rw [Matrix.mul_apply]; simp

theorem sampleCov_apply {n p : ℕ} (X : Mat n p) (k l : Fin p) : sampleCov X k l = (1 / (n : ℝ)) * ∑ i, X i k * X i l := by
  unfold sampleCov
  rw [Matrix.smul_apply, Matrix.mul_apply, smul_eq_mul]
  rfl

/-- `bb2 = 0` only when all realisations agree up to sign. -/
theorem lwBB2_pos {n p : ℕ} (X : Mat n p) {i j : Fin n} (h1 : X i ≠ X j) (h2 : X i ≠ -X j) : 0 < lwBB2 X := by
  refine lt_of_le_of_ne (lwBB2_nonneg X) fun h0 => ?_
  have hn : 0 < n := i.pos
  have hp : 0 < p := by
    rcases Nat.eq_zero_or_pos p with rfl | hp
    · exact absurd (Subsingleton.elim _ _) h1
    · exact hp
  unfold lwBB2 at h0
  have hs := (mul_eq_zero.mp h0.symm).resolve_left (by positivity)
  have hz : ∀ k, (of fun _ j => X k j : Mat 1 p)ᵀ * (of fun _ j => X k j : Mat 1 p) = sampleCov X := fun k => by
    have := (Finset.sum_eq_zero_iff_of_nonneg fun k _ => div_nonneg (trace_mul_transpose_nonneg _) (Nat.cast_nonneg _)).mp hs k (Finset.mem_univ _)
    rw [div_eq_zero_iff, or_iff_left (by positivity), trace_mul_transpose_eq_zero, sub_eq_zero] at this
    exact this
  rcases outer_eq (a := X i) (b := X j) (fun k l => by
    rw [← rowOuter_apply X i, ← rowOuter_apply X j, hz i, hz j]) with h | h
  · exact h1 h
  · exact h2 h

/-- **C122 (invertibility).** If two realisations differ by more than a sign, the estimate, when it is a number, is positive definite:
it can be inverted, as `ols` requires, whatever the number of realisations. -/
theorem C122_invertible {n p : ℕ} (X : Mat n p) (C : Mat p p) (h : cregLedoit X = some C) {i j : Fin n} (h1 : X i ≠ X j)
    (h2 : X i ≠ -X j) : PD C ∧ inv C = .ok C⁻¹ := by
  have hc : n ≠ 0 ∧ lwD2 X ≠ 0 := by
    unfold cregLedoit at h
    split at h
    · cases h
    · next hh => push Not at hh; exact hh
  have hb := lwBB2_pos X h1 h2
  have hd : 0 < lwD2 X := lt_of_le_of_ne (lwD2_nonneg X) (Ne.symm hc.2)
  have hl : 0 < min (lwBB2 X) (lwD2 X) / lwD2 X := div_pos (lt_min hb hd) hd
  have hn : (0 : ℝ) < n := by exact_mod_cast Nat.pos_of_ne_zero hc.1
  have hp : (0 : ℝ) < p := by
    rcases Nat.eq_zero_or_pos p with rfl | hp
    · exact absurd (Subsingleton.elim _ _) h1
    · exact_mod_cast hp
  have hm : 0 < lwM X := by
    rw [lwM_eq]
    refine div_pos ?_ hp
    refine lt_of_le_of_ne (sampleCov_trace_nonneg X) fun h0 => ?_
    have hz : ∀ k, sampleCov X k k = 0 := fun k =>
      (Finset.sum_eq_zero_iff_of_nonneg fun k _ => (sampleCov_psd X).diag_nonneg k).mp h0.symm k (Finset.mem_univ _)
    have hx : ∀ r k, X r k = 0 := fun r k => by
      have := hz k
      rw [sampleCov_apply] at this
      have hs := (mul_eq_zero.mp this).resolve_left (by positivity)
      have := (Finset.sum_eq_zero_iff_of_nonneg fun r _ => mul_self_nonneg (X r k)).mp hs r (Finset.mem_univ _)
      exact mul_self_eq_zero.mp this
    exact h1 (funext fun k => by rw [hx, hx])
  rw [creg_run X hc.1 hc.2] at h
  obtain ⟨-, h1⟩ := shrink_range X hc.2
  have hC := (Option.some.inj h).symm
  have hPD : PD C := by
    rw [hC]
    exact (PD.one.smul (mul_pos hl hm)).add_psd ((sampleCov_psd X).smul (by linarith))
  exact ⟨hPD, inv_ok hPD.det_ne⟩

/-- **C122 (degenerate samples).** If all realisations agree up to sign (for instance a single one), nothing is regularised: the
estimate is the rank-one sample covariance, and for two or more variables it cannot be inverted. -/
theorem C122_degenerate {n p : ℕ} (hp : 2 ≤ p) (X : Mat n p) (x : Vec p) (hx : ∀ i, X i = x ∨ X i = -x) (C : Mat p p)
    (h : cregLedoit X = some C) : C = sampleCov X ∧ inv C = .error .singular := by
  have hc : n ≠ 0 ∧ lwD2 X ≠ 0 := by
    unfold cregLedoit at h
    split at h
    · cases h
    · next hh => push Not at hh; exact hh
  have hn : (n : ℝ) ≠ 0 := by exact_mod_cast hc.1
  have hrow : ∀ i k l, X i k * X i l = x k * x l := fun i k l => by
    rcases hx i with h | h
    · rw [h]
    · rw [h]; simp
  have hS : ∀ k l, sampleCov X k l = x k * x l := fun k l => by
    rw [sampleCov_apply, Finset.sum_congr rfl fun i _ => hrow i k l, Finset.sum_const, Finset.card_univ, Fintype.card_fin, nsmul_eq_mul]
    field_simp
  have hB : lwBB2 X = 0 := by
    unfold lwBB2
    rw [Finset.sum_eq_zero, mul_zero]
    intro i _
    have : (of fun _ j => X i j : Mat 1 p)ᵀ * (of fun _ j => X i j : Mat 1 p) - sampleCov X = 0 := by
      ext k l
      rw [Matrix.sub_apply, rowOuter_apply, hS, hrow, sub_self]; rfl
    dsimp only
    rw [this]; simp
  rw [creg_run X hc.1 hc.2, hB, min_eq_left (lwD2_nonneg X), zero_div, zero_mul, zero_smul, zero_add, sub_zero, one_smul] at h
  have hC := (Option.some.inj h).symm
  refine ⟨hC, inv_err ?_⟩
  rw [hC]
  -- a vector orthogonal to `x` is in the kernel
  rw [← Matrix.exists_mulVec_eq_zero_iff]
  by_cases hx0 : x ⟨0, by omega⟩ = 0
  · refine ⟨Pi.single ⟨0, by omega⟩ 1, ?_, ?_⟩
    · intro h0
      have := congrFun h0 ⟨0, by omega⟩
      simp at this
    · funext k
      simp [Matrix.mulVec_single, hS, hx0]
  · refine ⟨fun l => if l = ⟨0, by omega⟩ then x ⟨1, by omega⟩ else if l = ⟨1, by omega⟩ then -x ⟨0, by omega⟩ else 0, ?_, ?_⟩
    · intro h0
      have := congrFun h0 ⟨1, by omega⟩
      simp [Fin.ext_iff] at this
      exact hx0 this
    · funext k
      rw [Matrix.mulVec, dotProduct]
      simp_rw [hS]
      rw [Finset.sum_eq_add (⟨0, by omega⟩ : Fin p) ⟨1, by omega⟩ (by simp [Fin.ext_iff])]
      · simp [Fin.ext_iff]; ring
      · intro l _ hl
        rw [if_neg hl.1, if_neg hl.2, mul_zero]
      · intro h; exact absurd (Finset.mem_univ _) h
      · intro h; exact absurd (Finset.mem_univ _) h

/-! ### C123: when is the estimate a number? -/

/-- The claim: every non-empty sample has a regularised covariance matrix. -/
def AlwaysDefined : Prop := ∀ (n p : ℕ) (X : Mat (n + 1) (p + 1)), (cregLedoit X).isSome = true

/-- **C123 (exact condition).** The estimate is a number exactly when there is a realisation and the sample covariance is not a multiple
of the identity. -/
theorem C123_defined_partial {n p : ℕ} (X : Mat n p) :
    (cregLedoit X).isSome = true ↔ n ≠ 0 ∧ ¬ ∃ c : ℝ, sampleCov X = c • (1 : Mat p p) := by
  by_cases hn : n = 0
  · unfold cregLedoit
    rw [if_pos (Or.inl hn)]
    simp [hn]
  by_cases hd : lwD2 X = 0
  · unfold cregLedoit
    rw [if_pos (Or.inr hd)]
    rw [lwD2_eq_zero] at hd
    simp [hd]
  · rw [creg_run X hn hd]
    rw [lwD2_eq_zero] at hd
    simp [hn, hd]

/-- For a single variable the estimate is never a number. -/
theorem C123_univariate {n : ℕ} (X : Mat n 1) : cregLedoit X = none := by
  by_contra h
  obtain ⟨-, h2⟩ := (C123_defined_partial X).mp (Option.isSome_iff_ne_none.mpr h)
  apply h2
  refine ⟨sampleCov X 0 0, ?_⟩
  ext i j
  rw [Subsingleton.elim i 0, Subsingleton.elim j 0]
  simp

/-- **C123 is false**: for a one-variable sample every estimate is NaN (0/0). -/
theorem C123_false : ¬ AlwaysDefined := by
  intro h
  have := h 2 0 (of fun i _ => (i.val : ℝ))
  rw [C123_univariate] at this
  cases this

/-! ### C124: symmetries -/

theorem sampleCov_mul {n p : ℕ} (X : Mat n p) (Q : Mat p p) : sampleCov (X * Q) = Qᵀ * sampleCov X * Q := by
  unfold sampleCov
  rw [Matrix.mul_smul, Matrix.smul_mul, Matrix.transpose_mul]
  simp only [Matrix.mul_assoc]

/-- Change of orthonormal basis of a Frobenius norm. -/
theorem trace_conj {p : ℕ} {Q : Mat p p} (hQ : Q * Qᵀ = 1) (A : Mat p p) :
    ((Qᵀ * A * Q) * (Qᵀ * A * Q)ᵀ).trace = (A * Aᵀ).trace := by
  have : (Qᵀ * A * Q) * (Qᵀ * A * Q)ᵀ = Qᵀ * (A * Aᵀ * Q) := by
    rw [Matrix.transpose_mul, Matrix.transpose_mul, Matrix.transpose_transpose]
    calc Qᵀ * A * Q * (Qᵀ * (Aᵀ * Q)) = Qᵀ * A * (Q * Qᵀ) * (Aᵀ * Q) := by simp only [Matrix.mul_assoc]
      _ = Qᵀ * (A * Aᵀ * Q) := by rw [hQ, Matrix.mul_one]; simp only [Matrix.mul_assoc]
  rw [this, Matrix.trace_mul_comm, Matrix.mul_assoc, hQ, Matrix.mul_one]

theorem trace_conj' {p : ℕ} {Q : Mat p p} (hQ : Q * Qᵀ = 1) (A : Mat p p) : (Qᵀ * A * Q).trace = A.trace := by
  rw [Matrix.mul_assoc, Matrix.trace_mul_comm, Matrix.mul_assoc, hQ, Matrix.mul_one]

/-- **C124 (orthonormal bases).** Changing the orthonormal basis of the variables transforms the estimate accordingly: projecting with
another orthonormal basis leads to the same covariance operator. -/
theorem C124_orthogonal {n p : ℕ} (X : Mat n p) (Q : Mat p p) (hQ : Qᵀ * Q = 1) :
    cregLedoit (X * Q) = (cregLedoit X).map fun C => Qᵀ * C * Q := by
  have hQ' : Q * Qᵀ = 1 := mul_eq_one_comm.mp hQ
  have hM : lwM (X * Q) = lwM X := by rw [lwM_eq, lwM_eq, sampleCov_mul, trace_conj' hQ']
  have hI : ∀ c : ℝ, Qᵀ * (c • (1 : Mat p p)) * Q = c • 1 := fun c => by
    rw [Matrix.mul_smul, Matrix.smul_mul, Matrix.mul_one, hQ]
  have hD : lwD2 (X * Q) = lwD2 X := by
    unfold lwD2
    dsimp only
    rw [hM, sampleCov_mul]
    have : Qᵀ * sampleCov X * Q - lwM X • (1 : Mat p p) = Qᵀ * (sampleCov X - lwM X • (1 : Mat p p)) * Q := by
      rw [Matrix.mul_sub, Matrix.sub_mul, hI]
    rw [this, trace_conj hQ']
  have hB : lwBB2 (X * Q) = lwBB2 X := by
    unfold lwBB2
    congr 1
    refine Finset.sum_congr rfl fun i _ => ?_
    dsimp only
    have e : (of fun _ j => (X * Q) i j : Mat 1 p) = (of fun _ j => X i j : Mat 1 p) * Q := by
      ext a b; rw [of_apply, Matrix.mul_apply, Matrix.mul_apply]; rfl
    rw [e, sampleCov_mul, Matrix.transpose_mul]
    have : Qᵀ * (of fun _ j => X i j : Mat 1 p)ᵀ * ((of fun _ j => X i j : Mat 1 p) * Q) - Qᵀ * sampleCov X * Q =
        Qᵀ * ((of fun _ j => X i j : Mat 1 p)ᵀ * (of fun _ j => X i j : Mat 1 p) - sampleCov X) * Q := by
      rw [Matrix.mul_sub, Matrix.sub_mul]; simp only [Matrix.mul_assoc]
    rw [this, trace_conj hQ']
  unfold cregLedoit
  rw [hD, hB, hM]
  split
  · rfl
  · dsimp only [Option.map_some]
    congr 1
    unfold cregSpecified
    rw [Matrix.mul_add, Matrix.add_mul, hI, sampleCov_mul, Matrix.mul_smul, Matrix.smul_mul]

/-- **C124 (order).** The estimate does not depend on the order of the realisations. -/
theorem C124_permutation {n p : ℕ} (X : Mat n p) (σ : Equiv.Perm (Fin n)) : cregLedoit (of fun i j => X (σ i) j) = cregLedoit X := by
  have hS : sampleCov (of fun i j => X (σ i) j) = sampleCov X := by
    ext k l
    rw [sampleCov_apply, sampleCov_apply]
    congr 1
    exact Equiv.sum_comp σ fun i => X i k * X i l
  have hM : lwM (of fun i j => X (σ i) j) = lwM X := by unfold lwM; rw [hS]
  have hD : lwD2 (of fun i j => X (σ i) j) = lwD2 X := by unfold lwD2; rw [hS, hM]
  have hB : lwBB2 (of fun i j => X (σ i) j) = lwBB2 X := by
    unfold lwBB2
    rw [hS]
    congr 1
    exact Equiv.sum_comp σ fun i => (((of fun _ j => X i j : Mat 1 p)ᵀ * (of fun _ j => X i j : Mat 1 p) - sampleCov X) *
      ((of fun _ j => X i j : Mat 1 p)ᵀ * (of fun _ j => X i j : Mat 1 p) - sampleCov X)ᵀ).trace / p
  unfold cregLedoit cregSpecified
  rw [hD, hB, hM, hS]

/-- **C124 (units).** Multiplying the data by `c` multiplies the estimate by `c²`. -/
theorem C124_scaling {n p : ℕ} (X : Mat n p) {c : ℝ} (hc : c ≠ 0) : cregLedoit (c • X) = (cregLedoit X).map fun C => c ^ 2 • C := by
  have hS : sampleCov (c • X) = c ^ 2 • sampleCov X := by
    ext k l
    rw [Matrix.smul_apply, sampleCov_apply, sampleCov_apply, smul_eq_mul]
    have : ∑ i, (c • X) i k * (c • X) i l = c ^ 2 * ∑ i, X i k * X i l := by
      rw [Finset.mul_sum]
      refine Finset.sum_congr rfl fun i _ => ?_
      rw [Matrix.smul_apply, Matrix.smul_apply, smul_eq_mul, smul_eq_mul]; ring
    rw [this]; ring
  have hM : lwM (c • X) = c ^ 2 * lwM X := by rw [lwM_eq, lwM_eq, hS, Matrix.trace_smul, smul_eq_mul, mul_div_assoc]
  have hF : ∀ A : Mat p p, ((c ^ 2 • A) * (c ^ 2 • A)ᵀ).trace = c ^ 4 * (A * Aᵀ).trace := fun A => by
    rw [Matrix.transpose_smul, Matrix.smul_mul, Matrix.mul_smul, Matrix.trace_smul, Matrix.trace_smul, smul_eq_mul, smul_eq_mul]; ring
  have hD : lwD2 (c • X) = c ^ 4 * lwD2 X := by
    unfold lwD2
    dsimp only
    rw [hM, hS, mul_smul, ← smul_sub, hF, mul_div_assoc]
  have hB : lwBB2 (c • X) = c ^ 4 * lwBB2 X := by
    unfold lwBB2
    have : ∀ i, (of fun _ j => (c • X) i j : Mat 1 p)ᵀ * (of fun _ j => (c • X) i j : Mat 1 p) =
        c ^ 2 • ((of fun _ j => X i j : Mat 1 p)ᵀ * (of fun _ j => X i j : Mat 1 p)) := fun i => by
      ext k l
      rw [rowOuter_apply, Matrix.smul_apply (c ^ 2), rowOuter_apply, smul_eq_mul]
      change c * X i k * (c * X i l) = _
      ring
    simp only [this, hS, ← smul_sub, hF, mul_div_assoc]
    rw [← Finset.mul_sum]
    ring
  have hc4 : (0 : ℝ) < c ^ 4 := by positivity
  by_cases hz : n = 0 ∨ lwD2 X = 0
  · unfold cregLedoit
    rw [hD, if_pos hz, if_pos (by rcases hz with h | h <;> simp [h])]
    rfl
  · push Not at hz
    rw [creg_run X hz.1 hz.2, creg_run (c • X) hz.1 (by rw [hD]; exact mul_ne_zero hc4.ne' hz.2)]
    have hr : min (lwBB2 (c • X)) (lwD2 (c • X)) / lwD2 (c • X) = min (lwBB2 X) (lwD2 X) / lwD2 X := by
      rw [hB, hD, ← mul_min_of_nonneg _ _ hc4.le, mul_div_mul_left _ _ hc4.ne']
    rw [hr, hM, hS]
    simp only [Option.map_some]
    congr 1
    rw [smul_add, smul_smul, smul_smul, smul_smul]
    congr 2 <;> ring

/-- A concrete sample (three realisations of two variables) whose estimate is a number and is invertible. -/
example : ∃ C, cregLedoit (!![1, 0; 0, 2; 1, 1] : Mat 3 2) = some C ∧ PD C := by
  have hdef : (cregLedoit (!![1, 0; 0, 2; 1, 1] : Mat 3 2)).isSome = true := by
    rw [C123_defined_partial]
    refine ⟨by norm_num, ?_⟩
    rintro ⟨c, hc⟩
    have h1 := congrFun (congrFun hc 0) 1
    rw [sampleCov_apply] at h1
    simp [Fin.sum_univ_succ] at h1
  obtain ⟨C, hC⟩ := Option.isSome_iff_exists.mp hdef
  refine ⟨C, hC, (C122_invertible _ C hC (i := 0) (j := 1) ?_ ?_).1⟩
  · intro h
    have := congrFun h 0
    simp at this
  · intro h
    have := congrFun h 0
    simp at this

end Skyborn.ROF
