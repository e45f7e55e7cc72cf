/-
The contract of the generalized eigenvalue solver, a solver that meets it, and what `generalized_eig_max_imag` then returns.
-/
import Verif.Growth.Model
import Mathlib.LinearAlgebra.Eigenspace.Triangularizable
import Mathlib.LinearAlgebra.Eigenspace.Minpoly
import Mathlib.LinearAlgebra.Matrix.ToLin
import Mathlib.LinearAlgebra.Matrix.Nondegenerate
import Mathlib.LinearAlgebra.Matrix.NonsingularInverse
import Mathlib.LinearAlgebra.Matrix.ToLinearEquiv
import Mathlib.LinearAlgebra.Matrix.Polynomial
import Mathlib.Analysis.Complex.Polynomial.Basic

namespace Skyborn.Growth

open Classical

/-- `lam` is an eigenvalue of `A ψ = lam B ψ` for the `n` by `n` blocks of `A` and `B`. -/
def Spec.Mode (n : ℕ) (A B : ℕ → ℕ → ℝ) (lam : ℂ) : Prop :=
  ∃ psi : ℕ → ℂ, (∃ j, 1 ≤ j ∧ j ≤ n ∧ psi j ≠ 0) ∧
    ∀ i, 1 ≤ i → i ≤ n → ∑ j ∈ Finset.Icc 1 n, (A i j : ℂ) * psi j = lam * ∑ j ∈ Finset.Icc 1 n, (B i j : ℂ) * psi j

/-- What is assumed of the QZ solver: it converges; if the pencil is regular (not every number is an eigenvalue), the triples with `beta` not
negligible are exactly the eigenvalues; if `A` is zero the imaginary parts are zero, and if moreover the first column of `B` is not zero (the first
Householder step of `qzhes` then puts its norm on the diagonal) some `beta` is not negligible. This idealizes the code: no rounding, and no underflow
of `beta` (an eigenvalue with `|beta| <= tiny` only because `A` and `B` are minute would be skipped). -/
structure Spec.Exact (qz : Solver) : Prop where
  modes : ∀ (n : ℕ) (A B : ℕ → ℕ → ℝ), ∃ l, qz n A B = some l ∧
    ((∃ mu, ¬ Mode n A B mu) → ∀ lam : ℂ, Mode n A B lam ↔ ∃ q ∈ l, tiny < |q.beta| ∧ lam = ⟨q.alfr / q.beta, q.alfi / q.beta⟩) ∧
    ((∀ i j, 1 ≤ i → i ≤ n → 1 ≤ j → j ≤ n → A i j = 0) → (∀ q ∈ l, q.alfi = 0) ∧
      ((∃ i, (1 ≤ i ∧ i ≤ n) ∧ B i 1 ≠ 0) → ∃ q ∈ l, tiny < |q.beta|))

/-! ### Matrices -/

/-- The `n` by `n` block as a complex matrix. -/
noncomputable def block (n : ℕ) (A : ℕ → ℕ → ℝ) : Matrix (Fin n) (Fin n) ℂ := fun i j => (A (i + 1) (j + 1) : ℂ)

theorem sum_Icc_fin (n : ℕ) (f : ℕ → ℂ) : ∑ j ∈ Finset.Icc 1 n, f j = ∑ j : Fin n, f (j + 1) := by
  rw [Fin.sum_univ_eq_sum_range (fun j => f (j + 1)) n, ← Finset.sum_image (f := f) (g := fun j => j + 1) (by intro a _ b _ h; simpa using h)]
  congr 1
  ext j
  simp only [Finset.mem_Icc, Finset.mem_image, Finset.mem_range]
  constructor
  · rintro ⟨h1, h2⟩; exact ⟨j - 1, by omega, by omega⟩
  · rintro ⟨k, h1, rfl⟩; omega

theorem mode_iff {n : ℕ} {A B : ℕ → ℕ → ℝ} {lam : ℂ} :
    Spec.Mode n A B lam ↔ ∃ v : Fin n → ℂ, v ≠ 0 ∧ (block n A).mulVec v = lam • (block n B).mulVec v := by
  constructor
  · rintro ⟨psi, ⟨j, h1, h2, hj⟩, h⟩
    refine ⟨fun i => psi (i + 1), ?_, ?_⟩
    · intro h0
      have := congrFun h0 ⟨j - 1, by omega⟩
      simp only [Pi.zero_apply] at this
      rw [show j - 1 + 1 = j by omega] at this
      exact hj this
    · ext i
      have := h (i + 1) (by omega) (by omega)
      rw [sum_Icc_fin, sum_Icc_fin] at this
      exact this
  · rintro ⟨v, hv, h⟩
    refine ⟨fun j => if hj : 1 ≤ j ∧ j ≤ n then v ⟨j - 1, by omega⟩ else 0, ?_, ?_⟩
    · obtain ⟨i, hi⟩ := Function.ne_iff.mp hv
      refine ⟨i + 1, by omega, by omega, ?_⟩
      show (if hj : 1 ≤ (i : ℕ) + 1 ∧ (i : ℕ) + 1 ≤ n then v ⟨i + 1 - 1, by omega⟩ else 0) ≠ 0
      rw [dif_pos (show 1 ≤ (i : ℕ) + 1 ∧ (i : ℕ) + 1 ≤ n from ⟨by omega, by omega⟩)]
      exact hi
    · intro i h1 h2
      rw [sum_Icc_fin, sum_Icc_fin]
      have hi := congrFun h ⟨i - 1, by omega⟩
      simp only [Matrix.mulVec, dotProduct, block, Pi.smul_apply, smul_eq_mul, show i - 1 + 1 = i by omega] at hi
      have e : ∀ j : Fin n, (if hj : 1 ≤ (j : ℕ) + 1 ∧ (j : ℕ) + 1 ≤ n then v ⟨j + 1 - 1, by omega⟩ else 0) = v j := fun j =>
        dif_pos (show 1 ≤ (j : ℕ) + 1 ∧ (j : ℕ) + 1 ≤ n from ⟨by omega, by omega⟩)
      simp only [e]
      exact hi

theorem mode_det {n : ℕ} {A B : ℕ → ℕ → ℝ} {lam : ℂ} : Spec.Mode n A B lam ↔ (block n A - lam • block n B).det = 0 := by
  rw [mode_iff, ← Matrix.exists_mulVec_eq_zero_iff]
  refine exists_congr fun v => and_congr_right fun _ => ?_
  rw [Matrix.sub_mulVec, Matrix.smul_mulVec, sub_eq_zero]

/-- The characteristic polynomial of the pencil. -/
noncomputable def pencil (n : ℕ) (A B : ℕ → ℕ → ℝ) : Polynomial ℂ :=
  ((block n A).map (Polynomial.C : ℂ →+* Polynomial ℂ) - (Polynomial.X : Polynomial ℂ) • (block n B).map (Polynomial.C : ℂ →+* Polynomial ℂ)).det

theorem eval_pencil {n : ℕ} {A B : ℕ → ℕ → ℝ} {lam : ℂ} : (pencil n A B).eval lam = (block n A - lam • block n B).det := by
  rw [pencil, ← Polynomial.coe_evalRingHom, RingHom.map_det]
  congr 1
  ext i j
  simp [Polynomial.coe_evalRingHom]
  ring

/-- With `B` invertible there is at least one eigenvalue, and not every number is one. -/
theorem exists_mode {n : ℕ} (hn : 1 ≤ n) {A B : ℕ → ℕ → ℝ} (hB : ∀ v : Fin n → ℂ, (block n B).mulVec v = 0 → v = 0) :
    (∃ lam, Spec.Mode n A B lam) ∧ ∃ mu, ¬ Spec.Mode n A B mu := by
  have hdet : (block n B).det ≠ 0 := by
    intro h
    obtain ⟨v, hv, h0⟩ := Matrix.exists_mulVec_eq_zero_iff.mpr h
    exact hv (hB v h0)
  have hu : IsUnit (block n B).det := isUnit_iff_ne_zero.mpr hdet
  haveI : Nonempty (Fin n) := ⟨⟨0, by omega⟩⟩
  have key : ∀ lam : ℂ, Spec.Mode n A B lam ↔ Module.End.HasEigenvalue (Matrix.toLin' ((block n B)⁻¹ * block n A)) lam := by
    intro lam
    rw [mode_iff, Module.End.hasEigenvalue_iff, Submodule.ne_bot_iff]
    refine exists_congr fun v => ?_
    rw [Module.End.mem_eigenspace_iff, Matrix.toLin'_apply, ← Matrix.mulVec_mulVec, and_comm]
    refine and_congr_left fun _ => ?_
    constructor
    · intro h
      rw [h, Matrix.mulVec_smul, Matrix.mulVec_mulVec, Matrix.nonsing_inv_mul _ hu, Matrix.one_mulVec]
    · intro h
      have := congrArg (block n B).mulVec h
      rwa [Matrix.mulVec_mulVec, Matrix.mul_nonsing_inv _ hu, Matrix.one_mulVec, Matrix.mulVec_smul] at this
  constructor
  · obtain ⟨lam, h⟩ := Module.End.exists_eigenvalue (Matrix.toLin' ((block n B)⁻¹ * block n A))
    exact ⟨lam, (key lam).mpr h⟩
  · by_contra hcon
    push Not at hcon
    have hfin := Module.End.finite_hasEigenvalue (Matrix.toLin' ((block n B)⁻¹ * block n A))
    have : {mu | Module.End.HasEigenvalue (Matrix.toLin' ((block n B)⁻¹ * block n A)) mu} = Set.univ := by
      ext mu; simp only [Set.mem_setOf_eq, Set.mem_univ, iff_true]; exact (key mu).mp (hcon mu)
    have h2 : Set.Finite {mu | Module.End.HasEigenvalue (Matrix.toLin' ((block n B)⁻¹ * block n A)) mu} := hfin
    rw [this] at h2
    exact Set.infinite_univ h2

/-! ### A solver that meets the contract -/

theorem tiny_lt_one : tiny < 1 := by
  rw [tiny, div_lt_one (by positivity)]
  exact one_lt_pow₀ (by norm_num) (by norm_num)

theorem tiny_pos : 0 < tiny := by rw [tiny]; positivity

/-- The roots of the characteristic polynomial, each with `beta = 1`. -/
noncomputable def rootSolver : Solver := fun n A B =>
  some (if pencil n A B = 0 then
      (if ∀ i j, 1 ≤ i → i ≤ n → 1 ≤ j → j ≤ n → A i j = 0 then [⟨0, 0, 1⟩] else [])
    else (pencil n A B).roots.toList.map fun r => ⟨r.re, r.im, 1⟩)

/-- The contract can be met. -/
theorem rootSolver_exact : Spec.Exact rootSolver where
  modes n A B := by
    refine ⟨_, rfl, ?_, ?_⟩
    · rintro ⟨mu, hmu⟩ lam
      have hp : pencil n A B ≠ 0 := by
        intro h
        rw [mode_det, ← eval_pencil, h] at hmu
        exact hmu (by simp)
      rw [if_neg hp, mode_det, ← eval_pencil]
      constructor
      · intro h
        refine ⟨⟨lam.re, lam.im, 1⟩, ?_, by rw [abs_one]; exact tiny_lt_one, by simp⟩
        rw [List.mem_map]
        exact ⟨lam, by rw [Multiset.mem_toList, Polynomial.mem_roots hp]; exact h, rfl⟩
      · rintro ⟨q, hq, -, rfl⟩
        rw [List.mem_map] at hq
        obtain ⟨r, hr, rfl⟩ := hq
        rw [Multiset.mem_toList, Polynomial.mem_roots hp] at hr
        simpa using hr
    · intro hA
      by_cases hp : pencil n A B = 0
      · rw [if_pos hp, if_pos hA]
        refine ⟨by simp, fun _ => ⟨_, List.mem_singleton_self _, ?_⟩⟩
        rw [abs_one]; exact tiny_lt_one
      · rw [if_neg hp]
        have hA' : block n A = 0 := by
          ext i j
          simp only [block, Matrix.zero_apply, Complex.ofReal_eq_zero]
          exact hA _ _ (by omega) (by omega) (by omega) (by omega)
        have hroot : ∀ r ∈ (pencil n A B).roots, r = 0 := by
          intro r hr
          rw [Polynomial.mem_roots hp, Polynomial.IsRoot, eval_pencil, hA', zero_sub, Matrix.det_neg, Matrix.det_smul] at hr
          by_contra h0
          rcases mul_eq_zero.mp hr with h | h
          · exact absurd h (pow_ne_zero _ (by norm_num))
          · rcases mul_eq_zero.mp h with h | h
            · exact absurd h (pow_ne_zero _ h0)
            · apply hp
              rw [pencil, hA', show (0 : Matrix (Fin n) (Fin n) ℂ).map (Polynomial.C : ℂ →+* Polynomial ℂ) = 0 by ext; simp, zero_sub, Matrix.det_neg, Matrix.det_smul]
              have : ((block n B).map (Polynomial.C : ℂ →+* Polynomial ℂ)).det = 0 := by
                rw [← RingHom.mapMatrix_apply, ← RingHom.map_det, h, map_zero]
              rw [this, mul_zero, mul_zero]
        constructor
        · intro q hq
          rw [List.mem_map] at hq
          obtain ⟨r, hr, rfl⟩ := hq
          rw [hroot r (Multiset.mem_toList.mp hr)]; simp
        · rintro ⟨i, ⟨hi1, hi2⟩, -⟩
          have hz : (pencil n A B).eval 0 = 0 := by
            rw [eval_pencil, hA', zero_smul, sub_zero]
            haveI : Nonempty (Fin n) := ⟨⟨0, by omega⟩⟩
            exact Matrix.det_zero
          refine ⟨⟨(0 : ℂ).re, (0 : ℂ).im, 1⟩, ?_, by rw [abs_one]; exact tiny_lt_one⟩
          rw [List.mem_map]
          exact ⟨0, by rw [Multiset.mem_toList, Polynomial.mem_roots hp]; exact hz, rfl⟩

/-! ### The largest imaginary part -/

theorem foldl_largest (l : List Val) (acc : Option ℝ) :
    ((∃ q ∈ l, tiny < |q.beta|) ∨ acc.isSome → ∃ m, l.foldl (fun acc q => if |q.beta| ≤ tiny then acc
      else match acc with
        | none => some (q.alfi / q.beta)
        | some m => some (max m (q.alfi / q.beta))) acc = some m ∧
      ((∃ q ∈ l, tiny < |q.beta| ∧ m = q.alfi / q.beta) ∨ acc = some m) ∧ (∀ q ∈ l, tiny < |q.beta| → q.alfi / q.beta ≤ m) ∧ ∀ a, acc = some a → a ≤ m) := by
  induction l generalizing acc with
  | nil =>
    rintro (⟨q, hq, -⟩ | h)
    · cases hq
    · obtain ⟨m, rfl⟩ := Option.isSome_iff_exists.mp h
      exact ⟨m, rfl, Or.inr rfl, by simp, fun a ha => (Option.some.inj ha).ge⟩
  | cons q l ih =>
    intro h
    rw [List.foldl_cons]
    by_cases hq : |q.beta| ≤ tiny
    · rw [if_pos hq]
      obtain ⟨m, h1, h2, h3, h4⟩ := ih acc (by
        rcases h with ⟨r, hr, hb⟩ | h
        · rcases List.mem_cons.mp hr with rfl | hr
          · exact absurd hq (not_le.mpr hb)
          · exact Or.inl ⟨r, hr, hb⟩
        · exact Or.inr h)
      refine ⟨m, h1, ?_, ?_, h4⟩
      · rcases h2 with ⟨r, hr, hb⟩ | h2
        · exact Or.inl ⟨r, List.mem_cons_of_mem _ hr, hb⟩
        · exact Or.inr h2
      · intro r hr hb
        rcases List.mem_cons.mp hr with rfl | hr
        · exact absurd hq (not_le.mpr hb)
        · exact h3 r hr hb
    · rw [if_neg hq]
      push Not at hq
      cases acc with
      | none =>
        obtain ⟨m, h1, h2, h3, h4⟩ := ih (some (q.alfi / q.beta)) (Or.inr rfl)
        refine ⟨m, h1, Or.inl ?_, ?_, by simp⟩
        · rcases h2 with ⟨r, hr, hb⟩ | h2
          · exact ⟨r, List.mem_cons_of_mem _ hr, hb⟩
          · exact ⟨q, List.mem_cons_self, hq, (Option.some.inj h2).symm⟩
        · intro r hr hb
          rcases List.mem_cons.mp hr with rfl | hr
          · exact h4 _ rfl
          · exact h3 r hr hb
      | some a =>
        obtain ⟨m, h1, h2, h3, h4⟩ := ih (some (max a (q.alfi / q.beta))) (Or.inr rfl)
        have hm := h4 _ rfl
        refine ⟨m, h1, ?_, ?_, fun b hb => (Option.some.inj hb) ▸ (le_max_left _ _).trans hm⟩
        · rcases h2 with ⟨r, hr, hb⟩ | h2
          · exact Or.inl ⟨r, List.mem_cons_of_mem _ hr, hb⟩
          · rcases max_choice a (q.alfi / q.beta) with e | e
            · exact Or.inr (by rw [← Option.some.inj h2, e])
            · exact Or.inl ⟨q, List.mem_cons_self, hq, by rw [← Option.some.inj h2, e]⟩
        · intro r hr hb
          rcases List.mem_cons.mp hr with rfl | hr
          · exact (le_max_right _ _).trans hm
          · exact h3 r hr hb

theorem largest_spec {l : List Val} (h : ∃ q ∈ l, tiny < |q.beta|) : ∃ m, largest l = some m ∧ (∃ q ∈ l, tiny < |q.beta| ∧ m = q.alfi / q.beta) ∧
    ∀ q ∈ l, tiny < |q.beta| → q.alfi / q.beta ≤ m := by
  obtain ⟨m, h1, h2, h3, -⟩ := foldl_largest l none (Or.inl h)
  refine ⟨m, h1, ?_, h3⟩
  rcases h2 with h2 | h2
  · exact h2
  · cases h2

theorem crop_in {n : ℕ} (A : ℕ → ℕ → ℝ) {i j : ℕ} (i1 : 1 ≤ i) (i2 : i ≤ n) (j1 : 1 ≤ j) (j2 : j ≤ n) : crop n A i j = A i j :=
  if_pos ⟨⟨i1, i2⟩, j1, j2⟩

theorem crop_congr {n : ℕ} {A A' : ℕ → ℕ → ℝ} (h : ∀ i j, 1 ≤ i → i ≤ n → 1 ≤ j → j ≤ n → A i j = A' i j) : crop n A = crop n A' := by
  funext i j
  unfold crop
  split
  · rename_i h'
    exact h i j h'.1.1 h'.1.2 h'.2.1 h'.2.2
  · rfl

theorem mode_congr {n : ℕ} {A A' B B' : ℕ → ℕ → ℝ} (hA : ∀ i j, 1 ≤ i → i ≤ n → 1 ≤ j → j ≤ n → A i j = A' i j)
    (hB : ∀ i j, 1 ≤ i → i ≤ n → 1 ≤ j → j ≤ n → B i j = B' i j) {lam : ℂ} (h : Spec.Mode n A B lam) : Spec.Mode n A' B' lam := by
  obtain ⟨psi, hne, h⟩ := h
  refine ⟨psi, hne, fun i h1 h2 => ?_⟩
  have e1 : ∑ j ∈ Finset.Icc 1 n, (A i j : ℂ) * psi j = ∑ j ∈ Finset.Icc 1 n, (A' i j : ℂ) * psi j :=
    Finset.sum_congr rfl fun j hj => by rw [hA i j h1 h2 (Finset.mem_Icc.mp hj).1 (Finset.mem_Icc.mp hj).2]
  have e2 : ∑ j ∈ Finset.Icc 1 n, (B i j : ℂ) * psi j = ∑ j ∈ Finset.Icc 1 n, (B' i j : ℂ) * psi j :=
    Finset.sum_congr rfl fun j hj => by rw [hB i j h1 h2 (Finset.mem_Icc.mp hj).1 (Finset.mem_Icc.mp hj).2]
  rw [← e1, ← e2, h i h1 h2]

theorem mode_crop {n : ℕ} {A B : ℕ → ℕ → ℝ} {lam : ℂ} : Spec.Mode n (crop n A) (crop n B) lam ↔ Spec.Mode n A B lam :=
  ⟨mode_congr (fun _ _ a b c d => crop_in A a b c d) fun _ _ a b c d => crop_in B a b c d,
    mode_congr (fun _ _ a b c d => (crop_in A a b c d).symm) fun _ _ a b c d => (crop_in B a b c d).symm⟩

/-- The routine reads the `n` by `n` blocks only. -/
theorem maxImag_congr (qz : Solver) {n : ℕ} {A A' B B' : ℕ → ℕ → ℝ} (hA : ∀ i j, 1 ≤ i → i ≤ n → 1 ≤ j → j ≤ n → A i j = A' i j)
    (hB : ∀ i j, 1 ≤ i → i ≤ n → 1 ≤ j → j ≤ n → B i j = B' i j) : maxImag qz n A B = maxImag qz n A' B' := by
  rw [maxImag, maxImag, crop_congr hA, crop_congr hB]

/-- With `B` invertible the routine returns the greatest imaginary part of the eigenvalues. -/
theorem maxImag_spec {qz : Solver} (hq : Spec.Exact qz) {n : ℕ} (hn : 1 ≤ n) {A B : ℕ → ℕ → ℝ} (hB : ∀ v : Fin n → ℂ, (block n B).mulVec v = 0 → v = 0) :
    ∃ m, maxImag qz n A B = some m ∧ IsGreatest {x | ∃ lam, Spec.Mode n A B lam ∧ x = lam.im} m := by
  obtain ⟨⟨lam, hlam⟩, hreg⟩ := exists_mode hn (A := A) hB
  obtain ⟨l, e, hm, -⟩ := hq.modes n (crop n A) (crop n B)
  simp only [mode_crop] at hm
  have hm := hm hreg
  obtain ⟨q, hql, hb, -⟩ := (hm lam).mp hlam
  obtain ⟨m, h1, ⟨r, hr, hrb, hrm⟩, h3⟩ := largest_spec ⟨q, hql, hb⟩
  refine ⟨m, by rw [maxImag, e]; exact h1, ⟨⟨r.alfr / r.beta, r.alfi / r.beta⟩, (hm _).mpr ⟨r, hr, hrb, rfl⟩, hrm⟩, ?_⟩
  rintro x ⟨mu, hmu, rfl⟩
  obtain ⟨r, hr, hrb, rfl⟩ := (hm mu).mp hmu
  exact h3 r hr hrb

/-- With `A = 0` and the first column of `B` not zero it returns zero. -/
theorem maxImag_zero {qz : Solver} (hq : Spec.Exact qz) {n : ℕ} {A B : ℕ → ℕ → ℝ} (hA : ∀ i j, 1 ≤ i → i ≤ n → 1 ≤ j → j ≤ n → A i j = 0)
    (hB : ∃ i, (1 ≤ i ∧ i ≤ n) ∧ B i 1 ≠ 0) : maxImag qz n A B = some 0 := by
  obtain ⟨l, e, -, hz⟩ := hq.modes n (crop n A) (crop n B)
  obtain ⟨h0, hs⟩ := hz fun i j a b c d => by rw [crop_in A a b c d, hA i j a b c d]
  obtain ⟨m, h1, ⟨r, hr, -, hrm⟩, -⟩ := largest_spec (hs (by
    obtain ⟨i, hi, hb⟩ := hB
    exact ⟨i, hi, by rwa [crop_in B hi.1 hi.2 le_rfl (hi.1.trans hi.2)]⟩))
  rw [maxImag, e, Option.bind_some, h1, hrm, h0 r hr, zero_div]

/-- Eigenvalues of real pencils come in conjugate pairs. -/
theorem mode_conj {n : ℕ} {A B : ℕ → ℕ → ℝ} {lam : ℂ} (h : Spec.Mode n A B lam) : Spec.Mode n A B ((starRingEnd ℂ) lam) := by
  obtain ⟨psi, ⟨j, h1, h2, hj⟩, h⟩ := h
  refine ⟨fun i => (starRingEnd ℂ) (psi i), ⟨j, h1, h2, by simpa using hj⟩, fun i h1 h2 => ?_⟩
  have := congrArg (starRingEnd ℂ) (h i h1 h2)
  simpa only [map_sum, map_mul, Complex.conj_ofReal] using this

theorem greatest_nonneg {n : ℕ} {A B : ℕ → ℕ → ℝ} {m : ℝ} (h : IsGreatest {x | ∃ lam, Spec.Mode n A B lam ∧ x = lam.im} m) : 0 ≤ m := by
  obtain ⟨⟨lam, hlam, rfl⟩, h2⟩ := h
  have := h2 ⟨_, mode_conj hlam, rfl⟩
  rw [Complex.conj_im] at this
  linarith

end Skyborn.Growth
