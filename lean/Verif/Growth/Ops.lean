/-
Normal modes of the discrete vorticity equation: the two kernels solve instances of this problem.
-/
import Verif.Growth.Eig
import Mathlib.Algebra.BigOperators.Intervals
import Mathlib.Tactic.LinearCombination

namespace Skyborn.Growth

/-- Specification: the second difference on levels `1 .. n` with conductances `g i` between levels `i` and `i + 1` and level widths `w i`. -/
noncomputable def Spec.lap {R : Type*} [AddCommGroup R] [Module ℝ R] (g w : ℕ → ℝ) (psi : ℕ → R) (i : ℕ) : R :=
  (w i)⁻¹ • (g i • (psi (i + 1) - psi i) - g (i - 1) • (psi i - psi (i - 1)))

/-- Specification: a wave of zonal wavenumber `k` and complex frequency `lam` on the wind `U` with the mean vorticity gradient `Q`: a streamfunction
that is not zero, that vanishes outside the levels, and whose vorticity `q = psi'' - k² psi` satisfies `lam q = k U q + k Q psi`. -/
def Spec.NormalMode (n : ℕ) (k : ℝ) (g w U Q : ℕ → ℝ) (lam : ℂ) : Prop :=
  ∃ psi : ℕ → ℂ, (psi 0 = 0 ∧ psi (n + 1) = 0) ∧ (∃ j, 1 ≤ j ∧ j ≤ n ∧ psi j ≠ 0) ∧
    ∀ i, 1 ≤ i → i ≤ n → lam * (lap g w psi i - k ^ 2 * psi i) = k * U i * (lap g w psi i - k ^ 2 * psi i) + k * Q i * psi i

/-! ### The matrices -/

theorem tri_sum {n : ℕ} {d l u : ℕ → ℝ} {psi : ℕ → ℂ} (h0 : psi 0 = 0) (hn : psi (n + 1) = 0) {i : ℕ} (h1 : 1 ≤ i) (h2 : i ≤ n) :
    ∑ j ∈ Finset.Icc 1 n, (tri d l u i j : ℂ) * psi j = d i * psi i + l (i - 1) * psi (i - 1) + u i * psi (i + 1) := by
  have hz : ∀ j ∈ Finset.Icc 0 (n + 1), j ∉ Finset.Icc 1 n → (tri d l u i j : ℂ) * psi j = 0 := by
    intro j hj hj'
    rw [Finset.mem_Icc] at hj hj'
    have : j = 0 ∨ j = n + 1 := by omega
    rcases this with rfl | rfl
    · rw [h0, mul_zero]
    · rw [hn, mul_zero]
  rw [Finset.sum_subset (by intro j; simp only [Finset.mem_Icc]; omega) hz]
  have hs : ({i, i - 1, i + 1} : Finset ℕ) ⊆ Finset.Icc 0 (n + 1) := by
    intro j; simp only [Finset.mem_insert, Finset.mem_singleton, Finset.mem_Icc]; omega
  rw [← Finset.sum_subset hs]
  · rw [Finset.sum_insert (by simp; omega), Finset.sum_insert (by simp), Finset.sum_singleton]
    rw [tri, tri, tri, if_pos rfl, if_neg (by omega), if_pos (by omega), if_neg (by omega), if_neg (by omega), if_pos rfl]
    ring
  · intro j _ hj
    simp only [Finset.mem_insert, Finset.mem_singleton] at hj
    rw [tri, if_neg (by omega), if_neg (by omega), if_neg (by omega)]
    simp

/-- Only the entries inside the block matter, and the outer values of the vector may be taken to be zero. -/
theorem mode_tri {n : ℕ} {d l u d' l' u' : ℕ → ℝ} {lam : ℂ} : Spec.Mode n (tri d l u) (tri d' l' u') lam ↔
    ∃ psi : ℕ → ℂ, (psi 0 = 0 ∧ psi (n + 1) = 0) ∧ (∃ j, 1 ≤ j ∧ j ≤ n ∧ psi j ≠ 0) ∧ ∀ i, 1 ≤ i → i ≤ n →
      d i * psi i + l (i - 1) * psi (i - 1) + u i * psi (i + 1) = lam * (d' i * psi i + l' (i - 1) * psi (i - 1) + u' i * psi (i + 1)) := by
  constructor
  · rintro ⟨psi, hne, h⟩
    let phi : ℕ → ℂ := fun j => if 1 ≤ j ∧ j ≤ n then psi j else 0
    have hin : ∀ j, 1 ≤ j → j ≤ n → phi j = psi j := fun j a b => if_pos ⟨a, b⟩
    have h0 : phi 0 = 0 := if_neg (by omega)
    have hn : phi (n + 1) = 0 := if_neg (by omega)
    refine ⟨phi, ⟨h0, hn⟩, ?_, fun i h1 h2 => ?_⟩
    · obtain ⟨j, a, b, hj⟩ := hne
      exact ⟨j, a, b, by rwa [hin j a b]⟩
    · rw [← tri_sum h0 hn h1 h2, ← tri_sum h0 hn h1 h2]
      have e : ∀ M : ℕ → ℕ → ℝ, ∑ j ∈ Finset.Icc 1 n, (M i j : ℂ) * phi j = ∑ j ∈ Finset.Icc 1 n, (M i j : ℂ) * psi j := fun M =>
        Finset.sum_congr rfl fun j hj => by rw [Finset.mem_Icc] at hj; rw [hin j hj.1 hj.2]
      rw [e, e]
      exact h i h1 h2
  · rintro ⟨psi, ⟨h0, hn⟩, hne, h⟩
    refine ⟨psi, hne, fun i h1 h2 => ?_⟩
    rw [tri_sum h0 hn h1 h2, tri_sum h0 hn h1 h2]
    exact h i h1 h2

/-- What a kernel's coefficient arrays have to be, on the rows that exist. -/
structure Coeffs (n : ℕ) (g w U Q : ℕ → ℝ) (aD aL aU bD bL bU : ℕ → ℝ) : Prop where
  aD : ∀ i, 1 ≤ i → i ≤ n → aD i = Q i - U i * (g i + g (i - 1)) / w i
  aL : ∀ i, 2 ≤ i → i ≤ n → aL (i - 1) = U i * g (i - 1) / w i
  aU : ∀ i, 1 ≤ i → i + 1 ≤ n → aU i = U i * g i / w i
  bD : ∀ i, 1 ≤ i → i ≤ n → bD i = -(g i + g (i - 1)) / w i
  bL : ∀ i, 2 ≤ i → i ≤ n → bL (i - 1) = g (i - 1) / w i
  bU : ∀ i, 1 ≤ i → i + 1 ≤ n → bU i = g i / w i

theorem lap_eq {g w : ℕ → ℝ} {psi : ℕ → ℂ} {i : ℕ} : Spec.lap g w psi i =
    (-(g i + g (i - 1)) / w i : ℝ) * psi i + (g (i - 1) / w i : ℝ) * psi (i - 1) + (g i / w i : ℝ) * psi (i + 1) := by
  simp only [Spec.lap, Complex.real_smul]
  push_cast
  ring

theorem Coeffs.bRow {n : ℕ} {g w U Q aD aL aU bD bL bU : ℕ → ℝ} (c : Coeffs n g w U Q aD aL aU bD bL bU) {k : ℝ} {psi : ℕ → ℂ} (h0 : psi 0 = 0)
    (hn : psi (n + 1) = 0) {i : ℕ} (h1 : 1 ≤ i) (h2 : i ≤ n) :
    ((bD i - k * k : ℝ) : ℂ) * psi i + bL (i - 1) * psi (i - 1) + bU i * psi (i + 1) = Spec.lap g w psi i - k ^ 2 * psi i := by
  have e1 : (bL (i - 1) : ℂ) * psi (i - 1) = (g (i - 1) / w i : ℝ) * psi (i - 1) := by
    by_cases hi : i = 1
    · subst hi; rw [h0, mul_zero, mul_zero]
    · rw [c.bL i (by omega) h2]
  have e2 : (bU i : ℂ) * psi (i + 1) = (g i / w i : ℝ) * psi (i + 1) := by
    by_cases hi : i = n
    · subst hi; rw [hn, mul_zero, mul_zero]
    · rw [c.bU i h1 (by omega)]
  rw [e1, e2, c.bD i h1 h2, lap_eq]
  push_cast
  ring

theorem Coeffs.aRow {n : ℕ} {g w U Q aD aL aU bD bL bU : ℕ → ℝ} (c : Coeffs n g w U Q aD aL aU bD bL bU) {k : ℝ} {psi : ℕ → ℂ} (h0 : psi 0 = 0)
    (hn : psi (n + 1) = 0) {i : ℕ} (h1 : 1 ≤ i) (h2 : i ≤ n) :
    ((k * aD i - (k * k) * k * U i : ℝ) : ℂ) * psi i + (k * aL (i - 1) : ℝ) * psi (i - 1) + (k * aU i : ℝ) * psi (i + 1) =
      k * U i * (Spec.lap g w psi i - k ^ 2 * psi i) + k * Q i * psi i := by
  have e1 : ((k * aL (i - 1) : ℝ) : ℂ) * psi (i - 1) = (k * (U i * g (i - 1) / w i) : ℝ) * psi (i - 1) := by
    by_cases hi : i = 1
    · subst hi; rw [h0, mul_zero, mul_zero]
    · rw [c.aL i (by omega) h2]
  have e2 : ((k * aU i : ℝ) : ℂ) * psi (i + 1) = (k * (U i * g i / w i) : ℝ) * psi (i + 1) := by
    by_cases hi : i = n
    · subst hi; rw [hn, mul_zero, mul_zero]
    · rw [c.aU i h1 (by omega)]
  rw [e1, e2, c.aD i h1 h2, lap_eq]
  push_cast
  ring

theorem Coeffs.mode {n : ℕ} {g w U Q aD aL aU bD bL bU : ℕ → ℝ} (c : Coeffs n g w U Q aD aL aU bD bL bU) {k : ℝ} {lam : ℂ} :
    Spec.Mode n (aMat k aD aL aU U) (bMat k bD bL bU) lam ↔ Spec.NormalMode n k g w U Q lam := by
  rw [aMat, bMat, mode_tri]
  refine exists_congr fun psi => and_congr_right fun ⟨h0, hn⟩ => and_congr_right fun _ => forall_congr' fun i => forall_congr' fun h1 =>
    forall_congr' fun h2 => ?_
  rw [c.aRow h0 hn h1 h2, c.bRow h0 hn h1 h2]
  exact eq_comm

/-! ### Summation by parts -/

theorem parts (n : ℕ) (g : ℕ → ℝ) (psi : ℕ → ℂ) :
    ∑ i ∈ Finset.Icc 1 n, (starRingEnd ℂ) (psi i) * (g i * (psi (i + 1) - psi i) - g (i - 1) * (psi i - psi (i - 1))) =
      (starRingEnd ℂ) (psi (n + 1)) * (g n * (psi (n + 1) - psi n)) - (starRingEnd ℂ) (psi 0) * (g 0 * (psi 1 - psi 0)) -
        ∑ i ∈ Finset.range (n + 1), (g i * ‖psi (i + 1) - psi i‖ ^ 2 : ℝ) := by
  induction n with
  | zero =>
    rw [Finset.Icc_eq_empty (by omega), Finset.sum_empty, zero_add, Finset.range_one, Finset.sum_singleton, zero_add]
    push_cast
    rw [← Complex.conj_mul', map_sub]
    ring
  | succ m ih =>
    rw [Finset.sum_Icc_succ_top (by omega), ih, Finset.sum_range_succ _ (m + 1), show m + 1 - 1 = m by omega]
    push_cast
    rw [← Complex.conj_mul', map_sub]
    ring

/-- The energy of a wave that vanishes outside the levels. -/
noncomputable def energy (n : ℕ) (k : ℝ) (g w : ℕ → ℝ) (psi : ℕ → ℂ) : ℝ :=
  ∑ i ∈ Finset.range (n + 1), g i * ‖psi (i + 1) - psi i‖ ^ 2 + k ^ 2 * ∑ i ∈ Finset.Icc 1 n, w i * ‖psi i‖ ^ 2

theorem energy_eq {n : ℕ} {k : ℝ} {g w : ℕ → ℝ} {psi : ℕ → ℂ} (hw : ∀ i, 1 ≤ i → i ≤ n → 0 < w i) (h0 : psi 0 = 0) (hn : psi (n + 1) = 0) :
    ∑ i ∈ Finset.Icc 1 n, (w i : ℂ) * (starRingEnd ℂ) (psi i) * (Spec.lap g w psi i - k ^ 2 * psi i) = -(energy n k g w psi : ℂ) := by
  have e : ∀ i ∈ Finset.Icc 1 n, (w i : ℂ) * (starRingEnd ℂ) (psi i) * (Spec.lap g w psi i - k ^ 2 * psi i) =
      (starRingEnd ℂ) (psi i) * (g i * (psi (i + 1) - psi i) - g (i - 1) * (psi i - psi (i - 1))) - (k ^ 2 * (w i * ‖psi i‖ ^ 2) : ℝ) := by
    intro i hi
    rw [Finset.mem_Icc] at hi
    have hwi : (w i : ℂ) ≠ 0 := by exact_mod_cast (hw i hi.1 hi.2).ne'
    simp only [Spec.lap, Complex.real_smul]
    push_cast
    rw [← Complex.conj_mul']
    field_simp
  rw [Finset.sum_congr rfl e, Finset.sum_sub_distrib, parts, h0, hn, map_zero, zero_mul, zero_mul, sub_zero, zero_sub, energy]
  push_cast
  rw [Finset.mul_sum]
  ring

theorem energy_nonneg {n : ℕ} {k : ℝ} {g w : ℕ → ℝ} {psi : ℕ → ℂ} (hw : ∀ i, 1 ≤ i → i ≤ n → 0 < w i) (hg : ∀ i, i ≤ n → 0 ≤ g i) :
    0 ≤ energy n k g w psi := by
  refine add_nonneg (Finset.sum_nonneg fun i hi => ?_) (mul_nonneg (sq_nonneg _) (Finset.sum_nonneg fun i hi => ?_))
  · exact mul_nonneg (hg i (by rw [Finset.mem_range] at hi; omega)) (sq_nonneg _)
  · rw [Finset.mem_Icc] at hi; exact mul_nonneg (hw i hi.1 hi.2).le (sq_nonneg _)

/-- A wave without energy is zero, if the wavenumber is not zero or all conductances are positive. -/
theorem energy_zero {n : ℕ} {k : ℝ} {g w : ℕ → ℝ} {psi : ℕ → ℂ} (hw : ∀ i, 1 ≤ i → i ≤ n → 0 < w i) (hg : ∀ i, i ≤ n → 0 ≤ g i)
    (hk : k ≠ 0 ∨ ∀ i, i ≤ n → 0 < g i) (h0 : psi 0 = 0) (h : energy n k g w psi = 0) : ∀ i, 1 ≤ i → i ≤ n → psi i = 0 := by
  have a1 : 0 ≤ ∑ i ∈ Finset.range (n + 1), g i * ‖psi (i + 1) - psi i‖ ^ 2 := Finset.sum_nonneg fun i hi =>
    mul_nonneg (hg i (by rw [Finset.mem_range] at hi; omega)) (sq_nonneg _)
  have a2 : 0 ≤ ∑ i ∈ Finset.Icc 1 n, w i * ‖psi i‖ ^ 2 := Finset.sum_nonneg fun i hi => by
    rw [Finset.mem_Icc] at hi; exact mul_nonneg (hw i hi.1 hi.2).le (sq_nonneg _)
  have a3 := mul_nonneg (sq_nonneg k) a2
  rw [energy] at h
  rcases hk with hk | hk
  · have hz : ∑ i ∈ Finset.Icc 1 n, w i * ‖psi i‖ ^ 2 = 0 := by
      have : k ^ 2 * ∑ i ∈ Finset.Icc 1 n, w i * ‖psi i‖ ^ 2 = 0 := by linarith
      rcases mul_eq_zero.mp this with h | h
      · exact absurd h (pow_ne_zero _ hk)
      · exact h
    intro i h1 h2
    have := (Finset.sum_eq_zero_iff_of_nonneg fun i hi => by
      rw [Finset.mem_Icc] at hi; exact mul_nonneg (hw i hi.1 hi.2).le (sq_nonneg _)).mp hz i (Finset.mem_Icc.mpr ⟨h1, h2⟩)
    rcases mul_eq_zero.mp this with h | h
    · exact absurd h (hw i h1 h2).ne'
    · exact norm_eq_zero.mp (pow_eq_zero_iff (by norm_num) |>.mp h)
  · have hz : ∑ i ∈ Finset.range (n + 1), g i * ‖psi (i + 1) - psi i‖ ^ 2 = 0 := by linarith
    have step : ∀ i, i ≤ n → psi (i + 1) = psi i := by
      intro i hi
      have := (Finset.sum_eq_zero_iff_of_nonneg fun i hi =>
        mul_nonneg (hg i (by rw [Finset.mem_range] at hi; omega)) (sq_nonneg _)).mp hz i (Finset.mem_range.mpr (by omega))
      rcases mul_eq_zero.mp this with h | h
      · exact absurd h (hk i hi).ne'
      · exact sub_eq_zero.mp (norm_eq_zero.mp (pow_eq_zero_iff (by norm_num) |>.mp h))
    intro i
    induction i with
    | zero => intro h; omega
    | succ j ih =>
      intro _ h2
      rw [step j (by omega)]
      by_cases hj : j = 0
      · subst hj; exact h0
      · exact ih (by omega) (by omega)

/-- The operator `psi'' - k² psi` has no kernel. -/
theorem vorticity_injective {n : ℕ} {k : ℝ} {g w : ℕ → ℝ} {psi : ℕ → ℂ} (hw : ∀ i, 1 ≤ i → i ≤ n → 0 < w i) (hg : ∀ i, i ≤ n → 0 ≤ g i)
    (hk : k ≠ 0 ∨ ∀ i, i ≤ n → 0 < g i) (h0 : psi 0 = 0) (hn : psi (n + 1) = 0)
    (h : ∀ i, 1 ≤ i → i ≤ n → Spec.lap g w psi i - k ^ 2 * psi i = 0) : ∀ i, 1 ≤ i → i ≤ n → psi i = 0 := by
  refine energy_zero hw hg hk h0 ?_
  have e := energy_eq (k := k) (g := g) hw h0 hn
  rw [Finset.sum_eq_zero (fun i hi => by rw [Finset.mem_Icc] at hi; rw [h i hi.1 hi.2, mul_zero])] at e
  have : (energy n k g w psi : ℂ) = 0 := neg_eq_zero.mp e.symm
  exact_mod_cast this

theorem Coeffs.injective {n : ℕ} {g w U Q aD aL aU bD bL bU : ℕ → ℝ} (c : Coeffs n g w U Q aD aL aU bD bL bU) {k : ℝ}
    (hw : ∀ i, 1 ≤ i → i ≤ n → 0 < w i) (hg : ∀ i, i ≤ n → 0 ≤ g i) (hk : k ≠ 0 ∨ ∀ i, i ≤ n → 0 < g i) (v : Fin n → ℂ)
    (hv : (block n (bMat k bD bL bU)).mulVec v = 0) : v = 0 := by
  by_contra hne
  have hm : Spec.Mode n (bMat k bD bL bU) (bMat k bD bL bU) 0 := mode_iff.mpr ⟨v, hne, by rw [hv, zero_smul]⟩
  rw [bMat, mode_tri] at hm
  obtain ⟨psi, ⟨h0, hn⟩, ⟨j, j1, j2, hj⟩, h⟩ := hm
  exact hj (vorticity_injective hw hg hk h0 hn (fun i h1 h2 => by rw [← c.bRow h0 hn h1 h2, h i h1 h2, zero_mul]) j j1 j2)

/-- If the mean vorticity gradient has one sign there is no growing wave (Rayleigh and Kuo, Charney and Stern). -/
theorem no_growth {n : ℕ} {k : ℝ} {g w U Q : ℕ → ℝ} (hw : ∀ i, 1 ≤ i → i ≤ n → 0 < w i) (hg : ∀ i, i ≤ n → 0 ≤ g i) (hk : k ≠ 0)
    (hQ : (∀ i, 1 ≤ i → i ≤ n → 0 ≤ Q i) ∨ ∀ i, 1 ≤ i → i ≤ n → Q i ≤ 0) {lam : ℂ} (h : Spec.NormalMode n k g w U Q lam) : lam.im = 0 := by
  obtain ⟨psi, ⟨h0, hn⟩, ⟨j, j1, j2, hj⟩, h⟩ := h
  by_contra him
  have hd : ∀ i, lam - k * U i ≠ 0 := by
    intro i hi
    have := congrArg Complex.im hi
    simp at this
    exact him this
  -- the vorticity in terms of the streamfunction
  have hq : ∀ i, 1 ≤ i → i ≤ n → Spec.lap g w psi i - k ^ 2 * psi i = k * Q i * psi i / (lam - k * U i) := by
    intro i h1 h2
    rw [eq_div_iff (hd i)]
    linear_combination h i h1 h2
  have e := energy_eq (k := k) (g := g) hw h0 hn
  have e' : ∀ i ∈ Finset.Icc 1 n, (w i : ℂ) * (starRingEnd ℂ) (psi i) * (Spec.lap g w psi i - k ^ 2 * psi i) =
      (w i : ℂ) * (starRingEnd ℂ) (psi i) * (k * Q i * psi i / (lam - k * U i)) := fun i hi => by
    rw [Finset.mem_Icc] at hi; rw [hq i hi.1 hi.2]
  rw [Finset.sum_congr rfl e'] at e
  have him2 : ∑ i ∈ Finset.Icc 1 n, Q i * (w i * ‖psi i‖ ^ 2 / Complex.normSq (lam - k * U i)) = 0 := by
    have := congrArg Complex.im e
    rw [Complex.im_sum, Complex.neg_im, Complex.ofReal_im, neg_zero] at this
    have e2 : ∀ i ∈ Finset.Icc 1 n, ((w i : ℂ) * (starRingEnd ℂ) (psi i) * (k * Q i * psi i / (lam - k * U i))).im =
        -(k * lam.im) * (Q i * (w i * ‖psi i‖ ^ 2 / Complex.normSq (lam - k * U i))) := by
      intro i hi
      have : (w i : ℂ) * (starRingEnd ℂ) (psi i) * (k * Q i * psi i / (lam - k * U i)) =
          ((w i * k * Q i * ‖psi i‖ ^ 2 : ℝ) : ℂ) * (lam - k * U i)⁻¹ := by
        push_cast
        rw [← Complex.conj_mul', div_eq_mul_inv]
        ring
      rw [this, Complex.im_ofReal_mul, Complex.inv_im]
      simp
      ring
    rw [Finset.sum_congr rfl e2, ← Finset.mul_sum] at this
    rcases mul_eq_zero.mp this with h | h
    · exact absurd h (neg_ne_zero.mpr (mul_ne_zero hk him))
    · exact h
  have hpos : ∀ i, 1 ≤ i → i ≤ n → 0 ≤ w i * ‖psi i‖ ^ 2 / Complex.normSq (lam - k * U i) := fun i h1 h2 =>
    div_nonneg (mul_nonneg (hw i h1 h2).le (sq_nonneg _)) (Complex.normSq_nonneg _)
  have hterm : ∀ i, 1 ≤ i → i ≤ n → Q i * (w i * ‖psi i‖ ^ 2 / Complex.normSq (lam - k * U i)) = 0 := by
    intro i h1 h2
    rcases hQ with hQ | hQ
    · exact (Finset.sum_eq_zero_iff_of_nonneg fun i hi => by
        rw [Finset.mem_Icc] at hi; exact mul_nonneg (hQ i hi.1 hi.2) (hpos i hi.1 hi.2)).mp him2 i (Finset.mem_Icc.mpr ⟨h1, h2⟩)
    · exact (Finset.sum_eq_zero_iff_of_nonpos fun i hi => by
        rw [Finset.mem_Icc] at hi; exact mul_nonpos_of_nonpos_of_nonneg (hQ i hi.1 hi.2) (hpos i hi.1 hi.2)).mp him2 i (Finset.mem_Icc.mpr ⟨h1, h2⟩)
  refine hj (vorticity_injective hw hg (Or.inl hk) h0 hn (fun i h1 h2 => ?_) j j1 j2)
  rw [hq i h1 h2]
  rcases mul_eq_zero.mp (hterm i h1 h2) with hz | hz
  · rw [hz]; simp
  · rcases div_eq_zero_iff.mp hz with hz | hz
    · rcases mul_eq_zero.mp hz with hz | hz
      · exact absurd hz (hw i h1 h2).ne'
      · rw [norm_eq_zero.mp (pow_eq_zero_iff (by norm_num) |>.mp hz)]; simp
    · exact absurd (Complex.normSq_eq_zero.mp hz) (hd i)

/-- Adding a constant to the wind, with the same vorticity gradient, shifts the frequencies by a real number. -/
theorem galilean {n : ℕ} {k : ℝ} {g w U Q : ℕ → ℝ} {lam : ℂ} (c : ℝ) (h : Spec.NormalMode n k g w U Q lam) :
    Spec.NormalMode n k g w (fun i => U i + c) Q (lam + (k * c : ℝ)) := by
  obtain ⟨psi, hb, hne, h⟩ := h
  refine ⟨psi, hb, hne, fun i h1 h2 => ?_⟩
  push_cast
  linear_combination h i h1 h2

/-- Listing the levels from the other end changes nothing. -/
theorem reversed {n : ℕ} {k : ℝ} {g w U Q : ℕ → ℝ} {lam : ℂ} (h : Spec.NormalMode n k g w U Q lam) :
    Spec.NormalMode n k (fun i => g (n - i)) (fun i => w (n + 1 - i)) (fun i => U (n + 1 - i)) (fun i => Q (n + 1 - i)) lam := by
  obtain ⟨psi, ⟨h0, hn⟩, ⟨j, j1, j2, hj⟩, h⟩ := h
  refine ⟨fun i => psi (n + 1 - i), ⟨by simpa using hn, by simpa using h0⟩, ⟨n + 1 - j, by omega, by omega, ?_⟩, fun i h1 h2 => ?_⟩
  · show psi (n + 1 - (n + 1 - j)) ≠ 0
    rwa [show n + 1 - (n + 1 - j) = j by omega]
  · have e : Spec.lap (fun i => g (n - i)) (fun i => w (n + 1 - i)) (fun i => psi (n + 1 - i)) i = Spec.lap g w psi (n + 1 - i) := by
      simp only [Spec.lap]
      rw [show n + 1 - (i + 1) = n + 1 - i - 1 by omega, show n + 1 - (i - 1) = n + 1 - i + 1 by omega, show n - (i - 1) = n + 1 - i by omega,
        show n - i = n + 1 - i - 1 by omega]
      congr 1
      rw [← neg_sub (psi (n + 1 - i)), ← neg_sub (psi (n + 1 - i + 1)), smul_neg, smul_neg]
      abel
    rw [e]
    exact h (n + 1 - i) (by omega) (by omega)

end Skyborn.Growth
