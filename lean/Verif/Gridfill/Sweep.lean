import Verif.Gridfill.Lemmas

namespace Skyborn.Gridfill

open Skyborn

variable {K : Type} [Field K] [LinearOrder K] [IsStrictOrderedRing K]
variable {nlat nlon : ℕ} {cyclic : Bool} {relaxc : K} {mask : ℕ → ℕ → ℤ}

theorem avg_mono (h1 : 3 ≤ nlat) (h2 : 3 ≤ nlon) {f g : ℕ → ℕ → K} (h : ∀ a b, a < nlat → b < nlon → f a b ≤ g a b) {i j : ℕ}
    (hi : i < nlat) (hj : j < nlon) : Spec.avg nlat nlon cyclic f i j ≤ Spec.avg nlat nlon cyclic g i j := by
  rw [← avg_eq h1 h2 hi hj, ← avg_eq h1 h2 hi hj]
  have a1 := h _ _ (lat_lt h1 hi).1 hj
  have a2 := h _ _ (lat_lt h1 hi).2 hj
  have a3 := h _ _ hi (lon_lt (c := cyclic) h2 hj).1
  have a4 := h _ _ hi (lon_lt (c := cyclic) h2 hj).2
  linarith

theorem avg_sub_le (h1 : 3 ≤ nlat) (h2 : 3 ≤ nlon) {f g : ℕ → ℕ → K} {R : K}
    (h : ∀ a b, a < nlat → b < nlon → |f a b - g a b| ≤ R) {i j : ℕ}
    (hi : i < nlat) (hj : j < nlon) : |Spec.avg nlat nlon cyclic f i j - Spec.avg nlat nlon cyclic g i j| ≤ R := by
  rw [← avg_eq h1 h2 hi hj, ← avg_eq h1 h2 hi hj]
  have a1 := abs_le.mp (h _ _ (lat_lt h1 hi).1 hj)
  have a2 := abs_le.mp (h _ _ (lat_lt h1 hi).2 hj)
  have a3 := abs_le.mp (h _ _ hi (lon_lt (c := cyclic) h2 hj).1)
  have a4 := abs_le.mp (h _ _ hi (lon_lt (c := cyclic) h2 hj).2)
  rw [abs_le]
  constructor <;> linarith [a1.1, a1.2, a2.1, a2.2, a3.1, a3.2, a4.1, a4.2]

omit [IsStrictOrderedRing K] in
/-- A sweep is Gauss-Seidel relaxation: every masked cell is moved towards the mean of its neighbours, each neighbour being
taken either before or after its own update; nothing else is touched; `r` is the largest change. -/
theorem sweep_spec (h1 : 3 ≤ nlat) (h2 : 3 ≤ nlon) (g : ℕ → ℕ → K) : ∃ g' r,
    sweep nlat nlon cyclic relaxc mask g = some (g', r) ∧
    (∀ a b, ¬ (a < nlat ∧ b < nlon ∧ mask a b ≠ 0) → g' a b = g a b) ∧
    (∀ a b, a < nlat → b < nlon → mask a b ≠ 0 → ∃ h : ℕ → ℕ → K, (∀ x y, h x y = g x y ∨ h x y = g' x y) ∧
      g' a b = g a b + (Spec.avg nlat nlon cyclic h a b - g a b) * relaxc) ∧
    0 ≤ r ∧ (∀ a b, a < nlat → b < nlon → mask a b ≠ 0 → |g' a b - g a b| ≤ r) ∧
    (r = 0 ∨ ∃ a b, a < nlat ∧ b < nlon ∧ mask a b ≠ 0 ∧ |g' a b - g a b| = r) := by
  obtain ⟨⟨g', r⟩, e, p1, p2, p3, p4, p5⟩ := sweep_inv (cyclic := cyclic) (relaxc := relaxc) (mask := mask) h1 h2 g
    (fun i j st =>
      (∀ a b, ¬ (a < nlat ∧ b < nlon ∧ mask a b ≠ 0 ∧ (a < i ∨ a = i ∧ b < j)) → st.1 a b = g a b) ∧
      (∀ a b, a < nlat → b < nlon → mask a b ≠ 0 → (a < i ∨ a = i ∧ b < j) → ∃ h : ℕ → ℕ → K,
        (∀ x y, h x y = g x y ∨ h x y = st.1 x y) ∧ st.1 a b = g a b + (Spec.avg nlat nlon cyclic h a b - g a b) * relaxc) ∧
      0 ≤ st.2 ∧ (∀ a b, a < nlat → b < nlon → mask a b ≠ 0 → (a < i ∨ a = i ∧ b < j) → |st.1 a b - g a b| ≤ st.2) ∧
      (st.2 = 0 ∨ ∃ a b, a < nlat ∧ b < nlon ∧ mask a b ≠ 0 ∧ (a < i ∨ a = i ∧ b < j) ∧ |st.1 a b - g a b| = st.2))
    (by
      refine ⟨fun _ _ _ => rfl, ?_, le_rfl, ?_, Or.inl rfl⟩ <;> intros <;> omega)
    (by
      rintro i j ⟨s, r⟩ hi hj ⟨p1, p2, p3, p4, p5⟩
      simp only at p1 p2 p3 p4 p5
      unfold cellStep
      by_cases hm : mask i j = 0
      · rw [if_pos hm]
        have hcell : ∀ a b, mask a b ≠ 0 → (a < i ∨ a = i ∧ b < j + 1) → (a < i ∨ a = i ∧ b < j) := by
          intro a b hab h
          rcases h with h | ⟨rfl, h⟩
          · exact Or.inl h
          · by_cases hb : b = j
            · subst hb; exact absurd hm hab
            · exact Or.inr ⟨rfl, by omega⟩
        refine ⟨fun a b h => p1 a b (fun hh => h ⟨hh.1, hh.2.1, hh.2.2.1, by have := hh.2.2.2; omega⟩),
          fun a b ha hb hab h => p2 a b ha hb hab (hcell a b hab h), p3, fun a b ha hb hab h => p4 a b ha hb hab (hcell a b hab h), ?_⟩
        rcases p5 with p5 | ⟨a, b, ha, hb, hab, h, hh⟩
        · exact Or.inl p5
        · exact Or.inr ⟨a, b, ha, hb, hab, by omega, hh⟩
      · rw [if_neg hm]
        dsimp only
        have hs : s i j = g i j := p1 i j (by omega)
        have hne : ∀ a b, (a < i ∨ a = i ∧ b < j) → ¬ (a = i ∧ b = j) := by omega
        have hcell : ∀ a b, (a < i ∨ a = i ∧ b < j + 1) → (a < i ∨ a = i ∧ b < j) ∨ (a = i ∧ b = j) := by omega
        refine ⟨?_, ?_, ?_, ?_, ?_⟩
        · intro a b h
          have hab : ¬ (a = i ∧ b = j) := by
            rintro ⟨rfl, rfl⟩; exact h ⟨hi, hj, hm, by omega⟩
          rw [set2_ne hab]
          exact p1 a b (fun hh => h ⟨hh.1, hh.2.1, hh.2.2.1, by have := hh.2.2.2; omega⟩)
        · intro a b ha hb hab h
          rcases hcell a b h with h | ⟨rfl, rfl⟩
          · obtain ⟨f, hf1, hf2⟩ := p2 a b ha hb hab h
            refine ⟨f, fun x y => ?_, ?_⟩
            · by_cases hxy : x = i ∧ y = j
              · obtain ⟨rfl, rfl⟩ := hxy
                left
                rcases hf1 x y with h | h
                · exact h
                · rw [h, hs]
              · rw [set2_ne hxy]; exact hf1 x y
            · rw [set2_ne (hne a b h)]; exact hf2
          · refine ⟨s, fun x y => ?_, ?_⟩
            · by_cases hxy : x = a ∧ y = b
              · obtain ⟨rfl, rfl⟩ := hxy
                left; exact hs
              · rw [set2_ne hxy]; exact Or.inr rfl
            · rw [set2_same, hs]
        · exact le_trans p3 (le_max_right _ _)
        · intro a b ha hb hab h
          rcases hcell a b h with h | ⟨rfl, rfl⟩
          · rw [set2_ne (hne a b h)]
            exact le_trans (p4 a b ha hb hab h) (le_max_right _ _)
          · rw [set2_same, hs, add_sub_cancel_left]
            exact le_max_left _ _
        · rcases le_total (|(Spec.avg nlat nlon cyclic s i j - s i j) * relaxc|) r with hle | hle
          · rw [max_eq_right hle]
            rcases p5 with p5 | ⟨a, b, ha, hb, hab, h, hh⟩
            · exact Or.inl p5
            · refine Or.inr ⟨a, b, ha, hb, hab, by omega, ?_⟩
              rw [set2_ne (hne a b h)]; exact hh
          · rw [max_eq_left hle]
            refine Or.inr ⟨i, j, hi, hj, hm, by omega, ?_⟩
            rw [set2_same, hs, add_sub_cancel_left])
    (by
      rintro i ⟨s, r⟩ hi ⟨p1, p2, p3, p4, p5⟩
      simp only at p1 p2 p3 p4 p5 ⊢
      have hlt : ∀ a b, b < nlon → ((a < i + 1 ∨ a = i + 1 ∧ b < 0) ↔ (a < i ∨ a = i ∧ b < nlon)) := by omega
      refine ⟨fun a b h => p1 a b fun hh => h ⟨hh.1, hh.2.1, hh.2.2.1, (hlt a b hh.2.1).mpr hh.2.2.2⟩,
        fun a b ha hb hab h => p2 a b ha hb hab ((hlt a b hb).mp h), p3,
        fun a b ha hb hab h => p4 a b ha hb hab ((hlt a b hb).mp h), ?_⟩
      rcases p5 with p5 | ⟨a, b, ha, hb, hab, h, hh⟩
      · exact Or.inl p5
      · exact Or.inr ⟨a, b, ha, hb, hab, (hlt a b hb).mpr h, hh⟩)
  simp only at p1 p2 p3 p4 p5
  refine ⟨g', r, e, fun a b h => p1 a b fun hh => h ⟨hh.1, hh.2.1, hh.2.2.1⟩, fun a b ha hb hab => p2 a b ha hb hab (Or.inl ha), p3,
    fun a b ha hb hab => p4 a b ha hb hab (Or.inl ha), ?_⟩
  rcases p5 with p5 | ⟨a, b, ha, hb, hab, h, hh⟩
  · exact Or.inl p5
  · exact Or.inr ⟨a, b, ha, hb, hab, hh⟩

/-- Comparison principle: a sweep keeps the grid above every field that is subharmonic at the masked points, and below every
superharmonic one. -/
theorem sweep_compare (h1 : 3 ≤ nlat) (h2 : 3 ≤ nlon) (hr0 : 0 ≤ relaxc) (hr1 : relaxc ≤ 1) {lo hi g : ℕ → ℕ → K}
    (hlo : ∀ a b, a < nlat → b < nlon → mask a b ≠ 0 → lo a b ≤ Spec.avg nlat nlon cyclic lo a b)
    (hhi : ∀ a b, a < nlat → b < nlon → mask a b ≠ 0 → Spec.avg nlat nlon cyclic hi a b ≤ hi a b)
    (hg : ∀ a b, a < nlat → b < nlon → lo a b ≤ g a b ∧ g a b ≤ hi a b) :
    ∃ g' r, sweep nlat nlon cyclic relaxc mask g = some (g', r) ∧ ∀ a b, a < nlat → b < nlon → lo a b ≤ g' a b ∧ g' a b ≤ hi a b := by
  obtain ⟨⟨g', r⟩, e, p⟩ := sweep_inv (cyclic := cyclic) (relaxc := relaxc) (mask := mask) h1 h2 g
    (fun _ _ st => ∀ a b, a < nlat → b < nlon → lo a b ≤ st.1 a b ∧ st.1 a b ≤ hi a b) hg
    (by
      rintro i j ⟨s, r⟩ hi' hj hP a b ha hb
      unfold cellStep
      by_cases hm : mask i j = 0
      · rw [if_pos hm]; exact hP a b ha hb
      · rw [if_neg hm]
        by_cases hab : a = i ∧ b = j
        · obtain ⟨rfl, rfl⟩ := hab
          simp only [set2_same]
          have l1 := hlo a b ha hb hm
          have l2 := avg_mono (cyclic := cyclic) h1 h2 (fun a b ha hb => (hP a b ha hb).1) ha hb
          have u1 := hhi a b ha hb hm
          have u2 := avg_mono (cyclic := cyclic) h1 h2 (fun a b ha hb => (hP a b ha hb).2) ha hb
          have h3 := hP a b ha hb
          simp only at h3 l2 u2
          set A := Spec.avg nlat nlon cyclic s a b
          have hA1 : lo a b ≤ A := le_trans l1 l2
          have hA2 : A ≤ hi a b := le_trans u2 u1
          constructor
          · nlinarith [mul_nonneg hr0 (sub_nonneg.mpr hA1), mul_nonneg (sub_nonneg.mpr hr1) (sub_nonneg.mpr h3.1)]
          · nlinarith [mul_nonneg hr0 (sub_nonneg.mpr hA2), mul_nonneg (sub_nonneg.mpr hr1) (sub_nonneg.mpr h3.2)]
        · simp only [set2_ne hab]; exact hP a b ha hb)
    (fun _ _ _ h => h)
  exact ⟨g', r, e, p⟩

theorem avg_const (c : K) (i j : ℕ) : Spec.avg nlat nlon cyclic (fun _ _ => c) i j = c := by
  unfold Spec.avg; field_simp; ring

/-- After a sweep whose largest change is `r`, every masked point is within `r / relaxc` of the mean of its neighbours. -/
theorem sweep_residual (h1 : 3 ≤ nlat) (h2 : 3 ≤ nlon) (hr0 : 0 < relaxc) (hr1 : relaxc ≤ 1) {g g' : ℕ → ℕ → K} {r : K}
    (e : sweep nlat nlon cyclic relaxc mask g = some (g', r)) :
    ∀ a b, a < nlat → b < nlon → mask a b ≠ 0 → |Spec.avg nlat nlon cyclic g' a b - g' a b| ≤ r / relaxc := by
  obtain ⟨g1, r1, e1, p1, p2, p3, p4, -⟩ := sweep_spec (cyclic := cyclic) (relaxc := relaxc) (mask := mask) h1 h2 g
  rw [e] at e1
  simp only [Option.some.injEq, Prod.mk.injEq] at e1
  obtain ⟨rfl, rfl⟩ := e1
  intro a b ha hb hm
  obtain ⟨h, hh, hab⟩ := p2 a b ha hb hm
  have hclose : ∀ x y, x < nlat → y < nlon → |g' x y - h x y| ≤ r := by
    intro x y hx hy
    rcases hh x y with e | e
    · rw [e]
      by_cases hxy : mask x y = 0
      · rw [p1 x y (by tauto)]; simpa using p3
      · exact p4 x y hx hy hxy
    · rw [e]; simpa using p3
  have hav := abs_le.mp (avg_sub_le (cyclic := cyclic) h1 h2 hclose ha hb)
  have hch := abs_le.mp (p4 a b ha hb hm)
  set A := Spec.avg nlat nlon cyclic h a b
  have hres : g' a b - g a b = (A - g a b) * relaxc := by rw [hab]; ring
  have hA : A - g' a b = (1 - relaxc) / relaxc * (g' a b - g a b) := by
    rw [hres]
    have : relaxc ≠ 0 := hr0.ne'
    field_simp
    rw [hab]; ring
  have hb1 : |A - g' a b| ≤ (1 - relaxc) / relaxc * r := by
    rw [hA, abs_mul, abs_of_nonneg (div_nonneg (by linarith) hr0.le)]
    exact mul_le_mul_of_nonneg_left (abs_le.mpr hch) (div_nonneg (by linarith) hr0.le)
  have hb2 := abs_le.mp hb1
  have : r / relaxc = (1 - relaxc) / relaxc * r + r := by
    have : relaxc ≠ 0 := hr0.ne'
    field_simp; ring
  rw [this, abs_le]
  constructor <;> linarith [hav.1, hav.2, hb2.1, hb2.2]

end Skyborn.Gridfill
