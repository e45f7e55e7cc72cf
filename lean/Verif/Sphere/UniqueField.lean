/-
Values on the grid determine the coefficients of scalar and vector expansions.
-/
import Verif.Sphere.Unique

namespace Skyborn.Sphere

open Polynomial

/-- Sum over modes, wavenumber by wavenumber. -/
theorem sum_modes {M : Finset (ℕ × ℕ)} {K R : ℕ} (hM : ∀ p ∈ M, p.1 ≤ p.2 ∧ p.2 ≤ K ∧ p.1 < R) (f : ℕ → ℕ → ℝ) :
    ∑ p ∈ M, f p.1 p.2 = ∑ m ∈ Finset.range R, ∑ n ∈ Finset.Icc m K, if (m, n) ∈ M then f m n else 0 := by
  rw [← Finset.sum_fiberwise_of_maps_to (t := Finset.range R) (g := fun p => p.1)
    (fun p hp => Finset.mem_range.mpr (hM p hp).2.2)]
  refine Finset.sum_congr rfl fun m _ => ?_
  rw [← Finset.sum_filter]
  refine Finset.sum_bij (fun p _ => p.2) ?_ ?_ ?_ ?_
  · rintro ⟨a, b⟩ hp
    rw [Finset.mem_filter] at hp
    obtain ⟨hp, rfl⟩ := hp
    have := hM _ hp
    simp only [Finset.mem_filter, Finset.mem_Icc]
    exact ⟨⟨this.1, this.2.1⟩, hp⟩
  · rintro ⟨a, b⟩ hp ⟨a', b'⟩ hp' h
    rw [Finset.mem_filter] at hp hp'
    obtain ⟨-, h1⟩ := hp
    obtain ⟨-, h2⟩ := hp'
    simp only at h1 h2 h
    rw [h1, h2, h]
  · intro n hn
    rw [Finset.mem_filter] at hn
    exact ⟨(m, n), Finset.mem_filter.mpr ⟨hn.2, rfl⟩, rfl⟩
  · rintro ⟨a, b⟩ hp
    rw [Finset.mem_filter] at hp
    obtain ⟨-, rfl⟩ := hp
    rfl

/-- Rows at pairwise different latitudes between the poles. -/
structure Spec.Rows (nlat : ℕ) (lat : ℕ → ℝ) : Prop where
  range : ∀ i < nlat, -(Real.pi / 2) ≤ lat i ∧ lat i ≤ Real.pi / 2
  inj : ∀ i < nlat, ∀ j < nlat, lat i = lat j → i = j

/-- The rows that are not poles. -/
noncomputable def Spec.interior (nlat : ℕ) (lat : ℕ → ℝ) : Finset ℕ :=
  open Classical in (Finset.range nlat).filter fun i => Real.cos (lat i) ≠ 0

section
variable {nlat nlon : ℕ} {lat : ℕ → ℝ}

theorem Spec.Rows.sin_inj (h : Spec.Rows nlat lat) : Set.InjOn (fun i => Real.sin (lat i)) (Finset.range nlat) := by
  intro i hi j hj e
  simp only [Finset.coe_range, Set.mem_Iio] at hi hj
  exact h.inj i hi j hj (Real.injOn_sin ⟨(h.range i hi).1, (h.range i hi).2⟩ ⟨(h.range j hj).1, (h.range j hj).2⟩ e)

/-- At most one row has a given value of the sine. -/
theorem card_avoid (h : Spec.Rows nlat lat) (c : ℝ) {S : Finset ℕ} (hS : S ⊆ Finset.range nlat) :
    open Classical in S.card ≤ (S.filter fun i => Real.sin (lat i) ≠ c).card + 1 := by
  classical
  rw [← Finset.card_filter_add_card_filter_not (s := S) (fun i => Real.sin (lat i) ≠ c)]
  refine Nat.add_le_add_left ?_ _
  rw [Finset.card_le_one]
  intro i hi j hj
  simp only [Finset.mem_filter, not_not, ne_eq] at hi hj
  exact h.sin_inj (hS hi.1) (hS hj.1) (hi.2.trans hj.2.symm)

theorem cos_ne_iff (φ : ℝ) : Real.cos φ ≠ 0 ↔ Real.sin φ ≠ 1 ∧ Real.sin φ ≠ -1 := by
  have h := Real.sin_sq_add_cos_sq φ
  constructor
  · intro hc
    constructor
    · intro hs; rw [hs] at h; exact hc (by nlinarith)
    · intro hs; rw [hs] at h; exact hc (by nlinarith)
  · rintro ⟨h1, h2⟩ hc
    rw [hc] at h
    have : (Real.sin φ - 1) * (Real.sin φ + 1) = 0 := by nlinarith
    rcases mul_eq_zero.mp this with h' | h'
    · exact h1 (by linarith)
    · exact h2 (by linarith)

/-- At least `nlat - 2` rows are not poles. -/
theorem card_interior (h : Spec.Rows nlat lat) : nlat ≤ (Spec.interior nlat lat).card + 2 := by
  classical
  have h1 := card_avoid h 1 (Finset.Subset.refl _)
  have h2 := card_avoid h (-1) (S := (Finset.range nlat).filter fun i => Real.sin (lat i) ≠ 1) (Finset.filter_subset _ _)
  rw [Finset.filter_filter] at h2
  have e : (Finset.range nlat).filter (fun i => Real.sin (lat i) ≠ 1 ∧ Real.sin (lat i) ≠ -1) = Spec.interior nlat lat := by
    unfold Spec.interior
    refine Finset.filter_congr fun i _ => ?_
    exact (cos_ne_iff (lat i)).symm
  rw [Finset.card_range] at h1
  have h2' : ((Finset.range nlat).filter fun i => Real.sin (lat i) ≠ 1).card ≤ (Spec.interior nlat lat).card + 1 := by
    rw [← e]; convert h2
  have h1' : nlat ≤ ((Finset.range nlat).filter fun i => Real.sin (lat i) ≠ 1).card + 1 := by convert h1
  omega

/-- The values of a scalar expansion on the grid determine its coefficients, when the degree is at most the number of
rows off the poles and less than the number of rows, and the wavenumbers are less than half the columns. -/
theorem scalar_unique (hR : Spec.Rows nlat lat) (hlon : 0 < nlon) {M : Finset (ℕ × ℕ)} {K : ℕ}
    (hM : ∀ p ∈ M, p.1 ≤ p.2 ∧ p.2 ≤ K ∧ 2 * p.1 < nlon) (h0 : K < nlat) (h1 : K ≤ (Spec.interior nlat lat).card)
    {a b : ℕ → ℕ → ℝ}
    (h : ∀ i < nlat, ∀ j < nlon, scalarField M a b (lat i) (2 * Real.pi * j / nlon) = 0) :
    ∀ p ∈ M, a p.1 p.2 = 0 ∧ (p.1 ≠ 0 → b p.1 p.2 = 0) := by
  set R := (nlon + 1) / 2 with hRdef
  have hM' : ∀ p ∈ M, p.1 ≤ p.2 ∧ p.2 ≤ K ∧ p.1 < R := fun p hp => by have := hM p hp; omega
  -- one wavenumber, one row
  have rows : ∀ i < nlat, ∀ m < R,
      (∑ n ∈ Finset.Icc m K, (if (m, n) ∈ M then a m n else 0) * pbar m n (Real.pi / 2 - lat i) = 0) ∧
      (m ≠ 0 → ∑ n ∈ Finset.Icc m K, (if (m, n) ∈ M then b m n else 0) * pbar m n (Real.pi / 2 - lat i) = 0) := by
    intro i hi
    refine waves_zero (N := nlon) (M := R) (by omega) hlon ?_
    intro j hj
    refine Eq.trans ?_ (h i hi j hj)
    unfold scalarField
    rw [sum_modes hM' (fun m n => half m * (pbar m n (Real.pi / 2 - lat i) *
      (a m n * Real.cos (m * (2 * Real.pi * j / nlon)) - b m n * Real.sin (m * (2 * Real.pi * j / nlon)))))]
    refine Finset.sum_congr rfl fun m _ => ?_
    rw [Finset.sum_mul, Finset.sum_mul, ← Finset.sum_sub_distrib, Finset.mul_sum]
    refine Finset.sum_congr rfl fun n _ => ?_
    split_ifs <;> ring
  -- one wavenumber
  have solve : ∀ m, ∀ c : ℕ → ℝ,
      (∀ i < nlat, ∑ n ∈ Finset.Icc m K, c n * pbar m n (Real.pi / 2 - lat i) = 0) → ∀ n, m ≤ n → n ≤ K → c n = 0 := by
    intro m c hc n hn1 hn2
    have key : ∀ i < nlat, (m = 0 ∨ Real.cos (lat i) ≠ 0) →
        ∑ n ∈ Finset.Icc m K, (c n * norm m n) * (rod n (n + m)).eval (Real.sin (lat i)) = 0 := by
      intro i hi hor
      have e := hc i hi
      have : Real.cos (lat i) ^ m * ∑ n ∈ Finset.Icc m K, (c n * norm m n) * (rod n (n + m)).eval (Real.sin (lat i)) = 0 := by
        refine Eq.trans ?_ e
        rw [Finset.mul_sum]
        refine Finset.sum_congr rfl fun n _ => ?_
        unfold pbar
        rw [Real.sin_pi_div_two_sub, Real.cos_pi_div_two_sub]
        ring
      refine (mul_eq_zero.mp this).resolve_left ?_
      rcases hor with rfl | hne
      · simp
      · exact pow_ne_zero _ hne
    have hz : c n * norm m n = 0 := by
      rcases Nat.eq_zero_or_pos m with rfl | hm
      · refine triangular_zeros (m := 0) (K := K) (p := fun n => rod n (n + 0)) (fun n _ _ => rod_degree (by omega))
          (fun n _ _ => rod_coeff (by omega)) (S := Finset.range nlat) (x := fun i => Real.sin (lat i)) hR.sin_inj
          (by rw [Finset.card_range]; omega) (c := fun n => c n * norm 0 n) ?_ n hn1 hn2
        intro i hi
        exact key i (Finset.mem_range.mp hi) (Or.inl rfl)
      · classical
        have hsub : Spec.interior nlat lat ⊆ Finset.range nlat := by
          unfold Spec.interior; exact Finset.filter_subset _ _
        refine triangular_zeros (m := m) (K := K) (p := fun n => rod n (n + m)) (fun n h1 _ => rod_degree h1)
          (fun n h1 _ => rod_coeff h1) (S := Spec.interior nlat lat) (x := fun i => Real.sin (lat i))
          (hR.sin_inj.mono (by exact_mod_cast hsub))
          (by omega) (c := fun n => c n * norm m n) ?_ n hn1 hn2
        intro i hi
        unfold Spec.interior at hi
        rw [Finset.mem_filter] at hi
        exact key i (Finset.mem_range.mp hi.1) (Or.inr hi.2)
    exact (mul_eq_zero.mp hz).resolve_right (norm_ne m n)
  rintro ⟨m, n⟩ hp
  have hmn := hM' _ hp
  constructor
  · have := solve m (fun n => if (m, n) ∈ M then a m n else 0) (fun i hi => (rows i hi m hmn.2.2).1) n hmn.1 hmn.2.1
    simpa [hp] using this
  · intro hm
    have := solve m (fun n => if (m, n) ∈ M then b m n else 0) (fun i hi => (rows i hi m hmn.2.2).2 hm) n hmn.1 hmn.2.1
    simpa [hp] using this

/-! ### Vector fields -/

/-- The factor that remains of `vbar + s wbar`, `s = ±1`, when the sines and `cos + s` are taken out. -/
noncomputable def spin (m n : ℕ) (s : ℝ) : ℝ[X] := C (m : ℝ) * rod n (n + m) + (X - C s) * rod n (n + m + 1)

theorem spin_degree {m n : ℕ} (s : ℝ) (h : m ≤ n) : (spin m n s).natDegree ≤ n - m := by
  unfold spin
  refine natDegree_add_le_of_degree_le (le_trans (natDegree_C_mul_le _ _) (rod_degree h)) ?_
  rcases Nat.eq_or_lt_of_le h with rfl | hlt
  · have : rod m (m + m + 1) = 0 := by
      rw [rod_succ]
      have := rod_degree (le_refl m)
      rw [Nat.sub_self] at this
      rw [natDegree_eq_zero.mp (Nat.le_zero.mp this) |>.choose_spec.symm, derivative_C]
    rw [this, mul_zero]; simp
  · refine le_trans natDegree_mul_le ?_
    have h1 : (X - C s : ℝ[X]).natDegree ≤ 1 := natDegree_X_sub_C_le s
    have h2 : (rod n (n + (m + 1))).natDegree ≤ n - (m + 1) := rod_degree (by omega)
    rw [← add_assoc] at h2
    omega

theorem spin_coeff {m n : ℕ} (s : ℝ) (h : m ≤ n) (hn : 1 ≤ n) : (spin m n s).coeff (n - m) ≠ 0 := by
  have hd := rod_degree h
  have e : (spin m n s).coeff (n - m) = n * (rod n (n + m)).coeff (n - m) := by
    unfold spin
    rw [rod_succ, coeff_add, coeff_C_mul, sub_mul, coeff_sub, coeff_C_mul, coeff_derivative]
    rw [coeff_eq_zero_of_natDegree_lt (show (rod n (n + m)).natDegree < n - m + 1 by omega)]
    rcases Nat.eq_or_lt_of_le h with rfl | hlt
    · rw [Nat.sub_self, coeff_X_mul_zero]; ring
    · obtain ⟨d, hd⟩ : ∃ d, n - m = d + 1 := ⟨n - m - 1, by omega⟩
      rw [hd, coeff_X_mul, coeff_derivative]
      have : (n : ℝ) = m + (d + 1) := by
        have : n = m + (d + 1) := by omega
        exact_mod_cast this
      rw [this]; ring
  rw [e]
  exact mul_ne_zero (by exact_mod_cast (by omega : n ≠ 0)) (rod_coeff h)

theorem spin_eq (m n : ℕ) (hm : 1 ≤ m) {s : ℝ} (hs : s ^ 2 = 1) (θ : ℝ) :
    vbar m n θ + s * wbar m n θ
      = Real.sin θ ^ (m - 1) * (Real.cos θ + s) * (norm m n / rootL n * (spin m n s).eval (Real.cos θ)) := by
  rw [vbar_eq]
  unfold wbar dpbar spin
  obtain ⟨k, rfl⟩ : ∃ k, m = k + 1 := ⟨m - 1, by omega⟩
  rw [Nat.add_sub_cancel, show Real.sqrt ((n : ℝ) * (n + 1)) = rootL n from rfl]
  simp only [eval_add, eval_mul, eval_sub, eval_C, eval_X]
  have h2 : Real.sin θ ^ (k + 1 + 1) = Real.sin θ ^ k * (1 - Real.cos θ ^ 2) := by
    rw [pow_succ, pow_succ, mul_assoc, ← pow_two, Real.sin_sq]
  rw [h2]
  generalize rod n (n + (k + 1) + 1) = g1
  generalize rod n (n + (k + 1)) = g0
  simp only [div_eq_mul_inv]
  linear_combination (norm (k + 1) n * Real.sin θ ^ k * eval (Real.cos θ) g1 * (rootL n)⁻¹) * hs

/-- The values of a vector expansion on the grid determine its coefficients, over the modes the vector transforms
use. -/
theorem vector_unique (hR : Spec.Rows nlat lat) (hlat : 3 ≤ nlat) (hlon : 0 < nlon) {M : Finset (ℕ × ℕ)}
    (hM : ∀ p ∈ M, p.1 ≤ p.2 ∧ 1 ≤ p.2 ∧ p.2 < nlat ∧ 2 * p.1 < nlon ∧ (p.1 = 0 → p.2 + 2 ≤ nlat))
    {br bi cr ci : ℕ → ℕ → ℝ}
    (hu : ∀ i < nlat, ∀ j < nlon, uField M br bi cr ci (lat i) (2 * Real.pi * j / nlon) = 0)
    (hv : ∀ i < nlat, ∀ j < nlon, vField M br bi cr ci (lat i) (2 * Real.pi * j / nlon) = 0) :
    ∀ p ∈ M, br p.1 p.2 = 0 ∧ cr p.1 p.2 = 0 ∧ (p.1 ≠ 0 → bi p.1 p.2 = 0 ∧ ci p.1 p.2 = 0) := by
  classical
  set R := (nlon + 1) / 2 with hRdef
  set K := nlat - 1 with hK
  have hM' : ∀ p ∈ M, p.1 ≤ p.2 ∧ p.2 ≤ K ∧ p.1 < R := fun p hp => by have := hM p hp; omega
  set on : (ℕ → ℕ → ℝ) → ℕ → ℕ → ℝ := fun c m n => if (m, n) ∈ M then c m n else 0 with hon
  have cv : ∀ i < nlat, ∀ m < R,
      (∑ n ∈ Finset.Icc m K, (on br m n * vbar m n (Real.pi / 2 - lat i) - on ci m n * wbar m n (Real.pi / 2 - lat i)) = 0) ∧
      (m ≠ 0 → ∑ n ∈ Finset.Icc m K, (on bi m n * vbar m n (Real.pi / 2 - lat i) + on cr m n * wbar m n (Real.pi / 2 - lat i)) = 0) := by
    intro i hi
    refine waves_zero (N := nlon) (M := R) (by omega) hlon ?_
    intro j hj
    refine Eq.trans ?_ (neg_eq_zero.mp (hv i hi j hj))
    unfold colatField
    rw [sum_modes hM' (fun m n => half m *
      ((br m n * vbar m n (Real.pi / 2 - lat i) - ci m n * wbar m n (Real.pi / 2 - lat i)) * Real.cos (m * (2 * Real.pi * j / nlon))
      - (bi m n * vbar m n (Real.pi / 2 - lat i) + cr m n * wbar m n (Real.pi / 2 - lat i)) * Real.sin (m * (2 * Real.pi * j / nlon))))]
    refine Finset.sum_congr rfl fun m _ => ?_
    rw [Finset.sum_mul, Finset.sum_mul, ← Finset.sum_sub_distrib, Finset.mul_sum]
    refine Finset.sum_congr rfl fun n _ => ?_
    simp only [hon]
    split_ifs <;> ring
  have cu : ∀ i < nlat, ∀ m < R,
      (∑ n ∈ Finset.Icc m K, -(on cr m n * vbar m n (Real.pi / 2 - lat i) + on bi m n * wbar m n (Real.pi / 2 - lat i)) = 0) ∧
      (m ≠ 0 → ∑ n ∈ Finset.Icc m K, -(on ci m n * vbar m n (Real.pi / 2 - lat i) - on br m n * wbar m n (Real.pi / 2 - lat i)) = 0) := by
    intro i hi
    refine waves_zero (N := nlon) (M := R) (by omega) hlon ?_
    intro j hj
    refine Eq.trans ?_ (hu i hi j hj)
    unfold uField eastField
    rw [sum_modes hM' (fun m n => half m *
      (-(cr m n * vbar m n (Real.pi / 2 - lat i) + bi m n * wbar m n (Real.pi / 2 - lat i)) * Real.cos (m * (2 * Real.pi * j / nlon))
      + (ci m n * vbar m n (Real.pi / 2 - lat i) - br m n * wbar m n (Real.pi / 2 - lat i)) * Real.sin (m * (2 * Real.pi * j / nlon))))]
    refine Finset.sum_congr rfl fun m _ => ?_
    rw [Finset.sum_mul, Finset.sum_mul, ← Finset.sum_sub_distrib, Finset.mul_sum]
    refine Finset.sum_congr rfl fun n _ => ?_
    simp only [hon]
    split_ifs <;> ring
  -- zonal means
  have zonal : ∀ c : ℕ → ℕ → ℝ,
      (∀ i < nlat, ∑ n ∈ Finset.Icc 0 K, on c 0 n * vbar 0 n (Real.pi / 2 - lat i) = 0) → ∀ n, (0, n) ∈ M → c 0 n = 0 := by
    intro c hc n hn
    have hn' := hM _ hn
    have hsub : Finset.Icc 1 (nlat - 2) ⊆ Finset.Icc 0 K := Finset.Icc_subset_Icc (by omega) (by omega)
    have hz : on c 0 n * (norm 0 n / rootL n) = 0 := by
      have hsub' : Spec.interior nlat lat ⊆ Finset.range nlat := by
        unfold Spec.interior; exact Finset.filter_subset _ _
      refine triangular_zeros (m := 1) (K := nlat - 2) (p := fun n => rod n (n + 1)) (fun n h1 _ => rod_degree h1)
        (fun n h1 _ => rod_coeff h1) (S := Spec.interior nlat lat) (x := fun i => Real.sin (lat i))
        (hR.sin_inj.mono (by exact_mod_cast hsub')) (by have := card_interior hR; omega)
        (c := fun n => on c 0 n * (norm 0 n / rootL n)) ?_ n (by omega) (by have := hn'.2.2.2.2 rfl; simp only at this; omega)
      intro i hi
      unfold Spec.interior at hi
      rw [Finset.mem_filter] at hi
      have e := hc i (Finset.mem_range.mp hi.1)
      rw [← Finset.sum_subset hsub] at e
      · have : -Real.cos (lat i) * ∑ n ∈ Finset.Icc 1 (nlat - 2), on c 0 n * (norm 0 n / rootL n) * (rod n (n + 1)).eval (Real.sin (lat i)) = 0 := by
          refine Eq.trans ?_ e
          rw [Finset.mul_sum]
          refine Finset.sum_congr rfl fun n _ => ?_
          rw [vbar_eq]
          unfold dpbar
          rw [Real.sin_pi_div_two_sub, Real.cos_pi_div_two_sub]
          simp only [Nat.cast_zero, zero_mul, zero_add, add_zero, pow_one]
          ring
        exact (mul_eq_zero.mp this).resolve_left (neg_ne_zero.mpr hi.2)
      · intro k _ hk
        have : on c 0 k = 0 := by
          simp only [hon]
          rw [if_neg]
          intro hc
          have := hM _ hc
          simp only [Finset.mem_Icc] at hk
          have := this.2.2.2.2 rfl
          simp only at this
          omega
        rw [this, zero_mul]
    have h1 := (mul_eq_zero.mp hz).resolve_right (div_ne_zero (norm_ne _ _) (rootL_pos hn'.2.1).ne')
    simpa [hon, hn] using h1
  -- waves
  have wave : ∀ m, 1 ≤ m → ∀ s : ℝ, s ^ 2 = 1 → ∀ c : ℕ → ℝ,
      (∀ i < nlat, ∑ n ∈ Finset.Icc m K, c n * (vbar m n (Real.pi / 2 - lat i) + s * wbar m n (Real.pi / 2 - lat i)) = 0) →
      ∀ n, m ≤ n → n ≤ K → c n = 0 := by
    intro m hm s hs c hc n hn1 hn2
    have key : ∀ i < nlat, Real.cos (lat i) ^ (m - 1) * (Real.sin (lat i) + s) ≠ 0 →
        ∑ n ∈ Finset.Icc m K, (c n * (norm m n / rootL n)) * (spin m n s).eval (Real.sin (lat i)) = 0 := by
      intro i hi hne
      have : Real.cos (lat i) ^ (m - 1) * (Real.sin (lat i) + s) *
          ∑ n ∈ Finset.Icc m K, (c n * (norm m n / rootL n)) * (spin m n s).eval (Real.sin (lat i)) = 0 := by
        refine Eq.trans ?_ (hc i hi)
        rw [Finset.mul_sum]
        refine Finset.sum_congr rfl fun n _ => ?_
        rw [spin_eq m n hm hs, Real.sin_pi_div_two_sub, Real.cos_pi_div_two_sub]
        ring
      exact (mul_eq_zero.mp this).resolve_left hne
    obtain ⟨S, hS1, hS2, hS3⟩ : ∃ S ⊆ Finset.range nlat, K - m < S.card ∧
        ∀ i ∈ S, Real.cos (lat i) ^ (m - 1) * (Real.sin (lat i) + s) ≠ 0 := by
      have hs' : s = 1 ∨ s = -1 := by
        have : (s - 1) * (s + 1) = 0 := by linarith [hs, (by ring : (s - 1) * (s + 1) = s ^ 2 - 1)]
        rcases mul_eq_zero.mp this with h | h
        · left; linarith
        · right; linarith
      rcases Nat.eq_or_lt_of_le hm with rfl | hm2
      · refine ⟨(Finset.range nlat).filter fun i => Real.sin (lat i) ≠ -s, Finset.filter_subset _ _, ?_, ?_⟩
        · have h1 := card_avoid hR (-s) (Finset.Subset.refl _)
          rw [Finset.card_range] at h1
          have h1' : nlat ≤ ((Finset.range nlat).filter fun i => Real.sin (lat i) ≠ -s).card + 1 := by convert h1
          omega
        · intro i hi
          rw [Finset.mem_filter] at hi
          rw [Nat.sub_self, pow_zero, one_mul]
          intro hc
          exact hi.2 (by linarith)
      · refine ⟨Spec.interior nlat lat, by unfold Spec.interior; exact Finset.filter_subset _ _,
          by have := card_interior hR; omega, ?_⟩
        intro i hi
        unfold Spec.interior at hi
        rw [Finset.mem_filter] at hi
        have h2 := (cos_ne_iff _).mp hi.2
        refine mul_ne_zero (pow_ne_zero _ hi.2) ?_
        intro hc
        rcases hs' with rfl | rfl
        · exact h2.2 (by linarith)
        · exact h2.1 (by linarith)
    have hz : c n * (norm m n / rootL n) = 0 := by
      refine triangular_zeros (m := m) (K := K) (p := fun n => spin m n s) (fun n h1 _ => spin_degree s h1)
        (fun n h1 _ => spin_coeff s h1 (by omega)) (S := S) (x := fun i => Real.sin (lat i))
        (hR.sin_inj.mono (by exact_mod_cast hS1)) hS2 (c := fun n => c n * (norm m n / rootL n)) ?_ n hn1 hn2
      intro i hi
      exact key i (Finset.mem_range.mp (hS1 hi)) (hS3 i hi)
    exact (mul_eq_zero.mp hz).resolve_right (div_ne_zero (norm_ne _ _) (rootL_pos (by omega)).ne')
  rintro ⟨m, n⟩ hp
  have hmn := hM _ hp
  have hmR := (hM' _ hp).2.2
  have hnK := (hM' _ hp).2.1
  simp only at hmn hmR hnK
  have val : ∀ c : ℕ → ℕ → ℝ, on c m n = c m n := fun c => by simp only [hon]; rw [if_pos hp]
  rcases Nat.eq_zero_or_pos m with rfl | hm
  · have w0 : ∀ n θ, wbar 0 n θ = 0 := fun n θ => by unfold wbar; simp
    refine ⟨zonal br (fun i hi => ?_) n hp, zonal cr (fun i hi => ?_) n hp, fun h => absurd rfl h⟩
    · have := (cv i hi 0 hmR).1
      simpa [w0] using this
    · have := (cu i hi 0 hmR).1
      simpa [w0] using this
  · have hm0 : m ≠ 0 := by omega
    have h1 := wave m hm (-1) (by norm_num) (fun n => on br m n + on ci m n) (fun i hi => by
      have e1 := (cv i hi m hmR).1
      have e2 := (cu i hi m hmR).2 hm0
      rw [Finset.sum_neg_distrib, neg_eq_zero] at e2
      have := congrArg₂ (· + ·) e1 e2
      simp only [← Finset.sum_add_distrib, add_zero] at this
      refine Eq.trans (Finset.sum_congr rfl fun n _ => ?_) this
      ring) n hmn.1 hnK
    have h2 := wave m hm 1 (by norm_num) (fun n => on br m n - on ci m n) (fun i hi => by
      have e1 := (cv i hi m hmR).1
      have e2 := (cu i hi m hmR).2 hm0
      have := congrArg₂ (· + ·) e1 e2
      simp only [← Finset.sum_add_distrib, add_zero] at this
      refine Eq.trans (Finset.sum_congr rfl fun n _ => ?_) this
      ring) n hmn.1 hnK
    have h3 := wave m hm 1 (by norm_num) (fun n => on bi m n + on cr m n) (fun i hi => by
      have e1 := (cv i hi m hmR).2 hm0
      have e2 := (cu i hi m hmR).1
      rw [Finset.sum_neg_distrib, neg_eq_zero] at e2
      have := congrArg₂ (· + ·) e1 e2
      simp only [← Finset.sum_add_distrib, add_zero] at this
      refine Eq.trans (Finset.sum_congr rfl fun n _ => ?_) this
      ring) n hmn.1 hnK
    have h4 := wave m hm (-1) (by norm_num) (fun n => on bi m n - on cr m n) (fun i hi => by
      have e1 := (cv i hi m hmR).2 hm0
      have e2 := (cu i hi m hmR).1
      have := congrArg₂ (· + ·) e1 e2
      simp only [← Finset.sum_add_distrib, add_zero] at this
      refine Eq.trans (Finset.sum_congr rfl fun n _ => ?_) this
      ring) n hmn.1 hnK
    simp only [val] at h1 h2 h3 h4
    exact ⟨by linarith, by linarith, fun _ => ⟨by linarith, by linarith⟩⟩

end

end Skyborn.Sphere
