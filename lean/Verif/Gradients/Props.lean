/- C33 and C34: the gradient functions of /repo/src/skyborn/gradients.py. -/
import Verif.Gradients.Lemmas

namespace Skyborn.Gradients

open Skyborn

/-! ### Specification -/

section
variable {K : Type} [Field K] [LinearOrder K]

/-- Axis `axis` (possibly negative) of an array with `nd` dimensions is the `k`-th one. -/
def Spec.IsAxis (nd : ℕ) (axis : ℤ) (k : ℕ) : Prop := k < nd ∧ (axis = k ∨ axis = (k : ℤ) - nd)

/-- Distance belonging to a coordinate: the coordinate itself, or the length of the arc of that many degrees on a circle of the
given radius. -/
def Spec.Dist (pi : K) (x : ℕ → K) : Option K → ℕ → K
  | none, i => x i
  | some R, i => R * (pi * x i / 180)

/-- The line of `f` through `idx` along axis `k`. -/
def Spec.line (f : NDArr K) (k : ℕ) (idx : List ℕ) (i : ℕ) : K := f.get (idx.set k i)

/-- No coordinate value occurs twice. -/
def Spec.Distinct (n : ℕ) (d : ℕ → K) : Prop := ∀ i j, i < n → j < n → d i = d j → i = j

/-- Equal steps. -/
def Spec.Even (n : ℕ) (d : ℕ → K) : Prop := ∀ i, i + 1 < n → d (i + 1) - d i = d 1 - d 0

/-- Steps equal up to the tolerance of numpy's `allclose`. -/
def Spec.NearlyEven (n : ℕ) (d : ℕ → K) : Prop :=
  ∀ i, i + 1 < n → |(d (i + 1) - d i) - (d 1 - d 0)| ≤ 1 / 10 ^ 8 + 1 / 10 ^ 5 * |d 1 - d 0|

theorem normAxis_iff {nd : ℕ} {axis : ℤ} {k : ℕ} : normAxis nd axis = some k ↔ Spec.IsAxis nd axis k := by
  unfold normAxis Spec.IsAxis
  split_ifs with h1 h2
  · simp only [Option.some.injEq]; omega
  · simp only [Option.some.injEq]; omega
  · simp only [reduceCtorEq, false_iff]; omega

theorem dist_eq (pi : K) (x : ℕ → K) (radius : Option K) : distances pi x radius = Spec.Dist pi x radius := by
  funext i
  cases radius with
  | none => rfl
  | some r => simp only [distances, Spec.Dist]; ring

theorem allClose_iff {n : ℕ} {d : ℕ → K} : allClose n d = true ↔ Spec.NearlyEven n d := by
  unfold allClose Spec.NearlyEven
  simp only [List.all_eq_true, List.mem_range, decide_eq_true_eq]
  constructor
  · intro h i hi; exact h i (by omega)
  · intro h i hi; exact h i (by omega)

/-- C33: the call raises exactly when the axis does not exist or the number of coordinates is not the length of that axis. -/
theorem C33_rejected (pi : K) (f : NDArr K) (nx : ℕ) (x : ℕ → K) (axis : ℤ) (radius : Option K) :
    calculateGradient pi f nx x axis radius = none ↔ ¬ ∃ k, Spec.IsAxis f.shape.length axis k ∧ nx = f.shape.getD k 0 := by
  constructor
  · rintro h ⟨k, hk, hx⟩
    obtain ⟨o, e, -⟩ := calculateGradient_eq (pi := pi) (x := x) (radius := radius) (normAxis_iff.mpr hk) hx
    rw [e] at h; exact absurd h (by simp)
  · intro h
    exact calculateGradient_none fun k hk hx => h ⟨k, normAxis_iff.mp hk, hx⟩

/-- C33: the result has the field's shape; along an axis with a single point it is zero. -/
theorem C33_shape (pi : K) (f o : NDArr K) (nx : ℕ) (x : ℕ → K) (axis : ℤ) (radius : Option K)
    (e : calculateGradient pi f nx x axis radius = some o) :
    o.shape = f.shape ∧ (nx = 1 → ∀ idx, InB f.shape idx → o.get idx = 0) := by
  have h : ∃ k, Spec.IsAxis f.shape.length axis k ∧ nx = f.shape.getD k 0 := by
    by_contra h
    rw [(C33_rejected pi f nx x axis radius).mpr h] at e
    exact absurd e (by simp)
  obtain ⟨k, hk, hx⟩ := h
  obtain ⟨o', e', hs, hv⟩ := calculateGradient_eq (pi := pi) (x := x) (radius := radius) (normAxis_iff.mpr hk) hx
  rw [e'] at e
  cases e
  exact ⟨hs, fun h1 idx hi => by rw [hv idx hi, if_pos (by omega)]⟩
end

section
variable {K : Type} [Field K] [LinearOrder K] [IsStrictOrderedRing K]

theorem even_nearly {n : ℕ} {d : ℕ → K} (h : Spec.Even n d) : Spec.NearlyEven n d := by
  intro i hi
  rw [h i hi, sub_self, abs_zero]
  positivity

/-- on a line affine in the distance, the general formula gives the slope -/
theorem gVal_affine {n : ℕ} {d F : ℕ → K} (h2 : 2 ≤ n) (hd : Spec.Distinct n d) {a b : K} (hF : ∀ i, i < n → F i = a + b * d i) {j : ℕ}
    (hj : j < n) : gVal n d F j = b := by
  unfold gVal
  split_ifs with h0 h1
  · have h : d 1 - d 0 ≠ 0 := fun h => absurd (hd 1 0 (by omega) (by omega) (sub_eq_zero.mp h)) (by omega)
    rw [hF 1 (by omega), hF 0 (by omega)]
    field_simp; ring
  · have h : d j - d (j - 1) ≠ 0 := fun h => absurd (hd j (j - 1) (by omega) (by omega) (sub_eq_zero.mp h)) (by omega)
    rw [hF j hj, hF (j - 1) (by omega)]
    field_simp; ring
  · have ha : d j - d (j - 1) ≠ 0 := fun h => absurd (hd j (j - 1) (by omega) (by omega) (sub_eq_zero.mp h)) (by omega)
    have hb : d (j + 1) - d j ≠ 0 := fun h => absurd (hd (j + 1) j (by omega) (by omega) (sub_eq_zero.mp h)) (by omega)
    have hc : d (j + 1) - d (j - 1) ≠ 0 := fun h => absurd (hd (j + 1) (j - 1) (by omega) (by omega) (sub_eq_zero.mp h)) (by omega)
    have hc' : d j - d (j - 1) + (d (j + 1) - d j) ≠ 0 := by rw [show d j - d (j - 1) + (d (j + 1) - d j) = d (j + 1) - d (j - 1) by ring]; exact hc
    rw [hF j hj, hF (j - 1) (by omega), hF (j + 1) (by omega)]
    field_simp; ring

theorem gVal_quadratic {n : ℕ} {d F : ℕ → K} (hd : Spec.Distinct n d) {a b c : K} (hF : ∀ i, i < n → F i = a + b * d i + c * d i ^ 2) {j : ℕ}
    (h0 : 0 < j) (hj : j + 1 < n) : gVal n d F j = b + 2 * c * d j := by
  unfold gVal
  rw [if_neg (by omega), if_neg (by omega)]
  have ha : d j - d (j - 1) ≠ 0 := fun h => absurd (hd j (j - 1) (by omega) (by omega) (sub_eq_zero.mp h)) (by omega)
  have hb : d (j + 1) - d j ≠ 0 := fun h => absurd (hd (j + 1) j (by omega) (by omega) (sub_eq_zero.mp h)) (by omega)
  have hc : d (j + 1) - d (j - 1) ≠ 0 := fun h => absurd (hd (j + 1) (j - 1) (by omega) (by omega) (sub_eq_zero.mp h)) (by omega)
  have hc' : d j - d (j - 1) + (d (j + 1) - d j) ≠ 0 := by rw [show d j - d (j - 1) + (d (j + 1) - d j) = d (j + 1) - d (j - 1) by ring]; exact hc
  rw [hF j (by omega), hF (j - 1) (by omega), hF (j + 1) (by omega)]
  field_simp; ring

theorem uVal_affine {n : ℕ} {d F : ℕ → K} (h2 : 2 ≤ n) (hd : Spec.Distinct n d) (he : Spec.Even n d) {a b : K} (hF : ∀ i, i < n → F i = a + b * d i) {j : ℕ}
    (hj : j < n) : uVal n d F j = b := by
  have h : d 1 - d 0 ≠ 0 := fun h => absurd (hd 1 0 (by omega) (by omega) (sub_eq_zero.mp h)) (by omega)
  unfold uVal
  split_ifs with h0 h1
  · have e := he (n - 2) (by omega)
    rw [show n - 2 + 1 = n - 1 by omega] at e
    rw [hF (n - 1) (by omega), hF (n - 2) (by omega), div_eq_iff h]
    linear_combination b * e
  · rw [hF 1 (by omega), hF 0 (by omega), div_eq_iff h]; ring
  · have e1 := he j (by omega)
    have e2 := he (j - 1) (by omega)
    rw [show j - 1 + 1 = j by omega] at e2
    rw [hF (j + 1) (by omega), hF (j - 1) (by omega), div_eq_iff (by simpa using h)]
    linear_combination b * e1 + b * e2

theorem uVal_quadratic {n : ℕ} {d F : ℕ → K} (hd : Spec.Distinct n d) (he : Spec.Even n d) {a b c : K}
    (hF : ∀ i, i < n → F i = a + b * d i + c * d i ^ 2) {j : ℕ} (h0 : 0 < j) (hj : j + 1 < n) : uVal n d F j = b + 2 * c * d j := by
  have h : d 1 - d 0 ≠ 0 := fun h => absurd (hd 1 0 (by omega) (by omega) (sub_eq_zero.mp h)) (by omega)
  unfold uVal
  rw [if_neg (by omega), if_neg (by omega)]
  have e1 := he j (by omega)
  have e2 := he (j - 1) (by omega)
  rw [show j - 1 + 1 = j by omega] at e2
  rw [hF (j + 1) (by omega), hF (j - 1) (by omega), div_eq_iff (by simpa using h)]
  have f1 : d (j + 1) = d j + (d 1 - d 0) := by linear_combination e1
  have f2 : d (j - 1) = d j - (d 1 - d 0) := by linear_combination -e2
  rw [f1, f2]; ring

theorem uVal_affine_tol {n : ℕ} {d F : ℕ → K} (h2 : 2 ≤ n) (hd : Spec.Distinct n d) (he : Spec.NearlyEven n d) {a b : K}
    (hF : ∀ i, i < n → F i = a + b * d i) {j : ℕ} (hj : j < n) :
    |uVal n d F j - b| ≤ |b| * (1 / 10 ^ 5 + 1 / 10 ^ 8 / |d 1 - d 0|) := by
  have h : d 1 - d 0 ≠ 0 := fun h => absurd (hd 1 0 (by omega) (by omega) (sub_eq_zero.mp h)) (by omega)
  have hp : 0 < |d 1 - d 0| := abs_pos.mpr h
  -- relative deviation of one step
  have key : ∀ i, i + 1 < n → |(d (i + 1) - d i) / (d 1 - d 0) - 1| ≤ 1 / 10 ^ 5 + 1 / 10 ^ 8 / |d 1 - d 0| := by
    intro i hi
    have := he i hi
    rw [div_sub_one h, abs_div, div_le_iff₀ hp]
    calc _ ≤ _ := this
      _ = (1 / 10 ^ 5 + 1 / 10 ^ 8 / |d 1 - d 0|) * |d 1 - d 0| := by field_simp; ring
  unfold uVal
  split_ifs with h0 h1
  · have e := key (n - 2) (by omega)
    rw [show n - 2 + 1 = n - 1 by omega] at e
    rw [hF (n - 1) (by omega), hF (n - 2) (by omega),
      show (a + b * d (n - 1) - (a + b * d (n - 2))) / (d 1 - d 0) - b = b * ((d (n - 1) - d (n - 2)) / (d 1 - d 0) - 1) by field_simp; ring, abs_mul]
    exact mul_le_mul_of_nonneg_left e (abs_nonneg _)
  · rw [hF 1 (by omega), hF 0 (by omega), show (a + b * d 1 - (a + b * d 0)) / (d 1 - d 0) - b = 0 by field_simp; ring, abs_zero]
    positivity
  · have e1 := key j (by omega)
    have e2 := key (j - 1) (by omega)
    rw [show j - 1 + 1 = j by omega] at e2
    rw [hF (j + 1) (by omega), hF (j - 1) (by omega),
      show (a + b * d (j + 1) - (a + b * d (j - 1))) / (2 * (d 1 - d 0)) - b =
        b * ((((d (j + 1) - d j) / (d 1 - d 0) - 1) + ((d j - d (j - 1)) / (d 1 - d 0) - 1)) / 2) by field_simp; ring, abs_mul]
    refine mul_le_mul_of_nonneg_left ?_ (abs_nonneg _)
    rw [abs_div, abs_two, div_le_iff₀ two_pos]
    exact (abs_add_le _ _).trans (by linarith)

/-- C33: on a line that is affine in the distance the result is its slope, at every point including both ends, when the
steps are equal or not equal within the tolerance of `allclose`. Missing: steps that are nearly equal, see `C33_affine_tolerance`
and `C33_false`. -/
theorem C33_affine_partial (pi : K) (f o : NDArr K) (nx : ℕ) (x : ℕ → K) (axis : ℤ) (radius : Option K) {k : ℕ}
    (e : calculateGradient pi f nx x axis radius = some o) (hk : Spec.IsAxis f.shape.length axis k) (h2 : 2 ≤ nx)
    (hd : Spec.Distinct nx (Spec.Dist pi x radius)) (he : Spec.Even nx (Spec.Dist pi x radius) ∨ ¬ Spec.NearlyEven nx (Spec.Dist pi x radius))
    {idx : List ℕ} (hidx : InB f.shape idx) {a b : K} (hf : ∀ i, i < nx → Spec.line f k idx i = a + b * Spec.Dist pi x radius i) :
    o.get idx = b := by
  have hx : nx = f.shape.getD k 0 := by
    by_contra hne
    rw [calculateGradient_none (fun k' hk' => by
      have := (normAxis_iff.mpr hk).symm.trans hk'
      simp only [Option.some.injEq] at this
      rw [← this]; exact hne)] at e
    exact absurd e (by simp)
  obtain ⟨o', e', -, hv⟩ := calculateGradient_eq (pi := pi) (x := x) (radius := radius) (normAxis_iff.mpr hk) hx
  rw [e'] at e
  cases e
  have hj : idx.getD k 0 < nx := hx ▸ getD_of_inB hidx hk.1
  rw [hv idx hidx, if_neg (by omega), dist_eq]
  rcases he with he | he
  · rw [if_pos (allClose_iff.mpr (even_nearly he))]
    exact uVal_affine h2 hd he hf hj
  · rw [if_neg (fun h => he (allClose_iff.mp h))]
    exact gVal_affine h2 hd hf hj

/-- C33: for any distinct coordinates the result on an affine line is its slope up to a relative error of 1e-5 + 1e-8/|first step|. -/
theorem C33_affine_tolerance (pi : K) (f o : NDArr K) (nx : ℕ) (x : ℕ → K) (axis : ℤ) (radius : Option K) {k : ℕ}
    (e : calculateGradient pi f nx x axis radius = some o) (hk : Spec.IsAxis f.shape.length axis k) (h2 : 2 ≤ nx)
    (hd : Spec.Distinct nx (Spec.Dist pi x radius))
    {idx : List ℕ} (hidx : InB f.shape idx) {a b : K} (hf : ∀ i, i < nx → Spec.line f k idx i = a + b * Spec.Dist pi x radius i) :
    |o.get idx - b| ≤ |b| * (1 / 10 ^ 5 + 1 / 10 ^ 8 / |Spec.Dist pi x radius 1 - Spec.Dist pi x radius 0|) := by
  by_cases hn : Spec.NearlyEven nx (Spec.Dist pi x radius)
  · have hx : nx = f.shape.getD k 0 := by
      by_contra hne
      rw [calculateGradient_none (fun k' hk' => by
        have := (normAxis_iff.mpr hk).symm.trans hk'
        simp only [Option.some.injEq] at this
        rw [← this]; exact hne)] at e
      exact absurd e (by simp)
    obtain ⟨o', e', -, hv⟩ := calculateGradient_eq (pi := pi) (x := x) (radius := radius) (normAxis_iff.mpr hk) hx
    rw [e'] at e
    cases e
    rw [hv idx hidx, if_neg (by omega), dist_eq, if_pos (allClose_iff.mpr hn)]
    exact uVal_affine_tol h2 hd hn hf (hx ▸ getD_of_inB hidx hk.1)
  · rw [C33_affine_partial pi f o nx x axis radius e hk h2 hd (Or.inr hn) hidx hf, sub_self, abs_zero]
    positivity

/-- C33: at interior points of a line that is quadratic in the distance the result is the exact derivative (steps equal, or not
nearly equal). -/
theorem C33_quadratic_partial (pi : K) (f o : NDArr K) (nx : ℕ) (x : ℕ → K) (axis : ℤ) (radius : Option K) {k : ℕ}
    (e : calculateGradient pi f nx x axis radius = some o) (hk : Spec.IsAxis f.shape.length axis k)
    (hd : Spec.Distinct nx (Spec.Dist pi x radius)) (he : Spec.Even nx (Spec.Dist pi x radius) ∨ ¬ Spec.NearlyEven nx (Spec.Dist pi x radius))
    {idx : List ℕ} (hidx : InB f.shape idx) (h0 : 0 < idx.getD k 0) (h1 : idx.getD k 0 + 1 < nx) {a b c : K}
    (hf : ∀ i, i < nx → Spec.line f k idx i = a + b * Spec.Dist pi x radius i + c * Spec.Dist pi x radius i ^ 2) :
    o.get idx = b + 2 * c * Spec.Dist pi x radius (idx.getD k 0) := by
  have hx : nx = f.shape.getD k 0 := by
    by_contra hne
    rw [calculateGradient_none (fun k' hk' => by
      have := (normAxis_iff.mpr hk).symm.trans hk'
      simp only [Option.some.injEq] at this
      rw [← this]; exact hne)] at e
    exact absurd e (by simp)
  obtain ⟨o', e', -, hv⟩ := calculateGradient_eq (pi := pi) (x := x) (radius := radius) (normAxis_iff.mpr hk) hx
  rw [e'] at e
  cases e
  rw [hv idx hidx, if_neg (by omega), dist_eq]
  rcases he with he | he
  · rw [if_pos (allClose_iff.mpr (even_nearly he))]
    exact uVal_quadratic hd he hf h0 h1
  · rw [if_neg (fun h => he (allClose_iff.mp h))]
    exact gVal_quadratic hd hf h0 h1

/-- C33: the gradient is linear in the field. -/
theorem C33_linear (pi : K) (f1 f2 f o1 o2 o : NDArr K) (nx : ℕ) (x : ℕ → K) (axis : ℤ) (radius : Option K) (s t : K)
    (hs1 : f1.shape = f.shape) (hs2 : f2.shape = f.shape) (hf : ∀ idx, InB f.shape idx → f.get idx = s * f1.get idx + t * f2.get idx)
    (e1 : calculateGradient pi f1 nx x axis radius = some o1) (e2 : calculateGradient pi f2 nx x axis radius = some o2)
    (e : calculateGradient pi f nx x axis radius = some o) {idx : List ℕ} (hidx : InB f.shape idx) :
    o.get idx = s * o1.get idx + t * o2.get idx := by
  have h : ∃ k, Spec.IsAxis f.shape.length axis k ∧ nx = f.shape.getD k 0 := by
    by_contra h
    rw [(C33_rejected pi f nx x axis radius).mpr h] at e
    exact absurd e (by simp)
  obtain ⟨k, hk, hx⟩ := h
  obtain ⟨o', e', -, hv⟩ := calculateGradient_eq (pi := pi) (x := x) (radius := radius) (normAxis_iff.mpr hk) hx
  obtain ⟨o1', e1', -, hv1⟩ := calculateGradient_eq (pi := pi) (x := x) (radius := radius) (f := f1) (k := k) (normAxis_iff.mpr (hs1 ▸ hk)) (hs1 ▸ hx)
  obtain ⟨o2', e2', -, hv2⟩ := calculateGradient_eq (pi := pi) (x := x) (radius := radius) (f := f2) (k := k) (normAxis_iff.mpr (hs2 ▸ hk)) (hs2 ▸ hx)
  rw [e'] at e; cases e
  rw [e1'] at e1; cases e1
  rw [e2'] at e2; cases e2
  rw [hv idx hidx, hv1 idx (hs1 ▸ hidx), hv2 idx (hs2 ▸ hidx)]
  have hset : ∀ i, i < nx → f.get (idx.set k i) = s * f1.get (idx.set k i) + t * f2.get (idx.set k i) := by
    intro i hi
    refine hf _ ?_
    rw [inB_iff] at hidx ⊢
    refine ⟨by rw [List.length_set]; exact hidx.1, fun j hj => ?_⟩
    by_cases hjk : k = j
    · subst hjk
      rw [List.getD_eq_getElem?_getD, List.getElem?_set_self (by rw [hidx.1]; exact hj)]
      simp only [Option.getD_some]; omega
    · rw [List.getD_eq_getElem?_getD, List.getElem?_set_ne hjk, ← List.getD_eq_getElem?_getD]; exact hidx.2 j hj
  have hj : idx.getD k 0 < nx := hx ▸ getD_of_inB hidx hk.1
  by_cases h2 : nx < 2
  · simp only [if_pos h2]; ring
  · simp only [if_neg h2]
    by_cases hu : allClose nx (distances pi x radius) = true
    · simp only [if_pos hu]
      unfold uVal
      dsimp only
      split_ifs with g0 g1
      · rw [hset (nx - 1) (by omega), hset (nx - 2) (by omega)]; ring
      · rw [hset 1 (by omega), hset 0 (by omega)]; ring
      · rw [hset _ (show idx.getD k 0 + 1 < nx by omega), hset _ (show idx.getD k 0 - 1 < nx by omega)]; ring
    · simp only [if_neg hu]
      unfold gVal
      dsimp only
      split_ifs with g0 g1
      · rw [hset 1 (by omega), hset 0 (by omega)]; ring
      · rw [hset _ hj, hset _ (show idx.getD k 0 - 1 < nx by omega)]; ring
      · rw [hset _ hj, hset _ (show idx.getD k 0 + 1 < nx by omega), hset _ (show idx.getD k 0 - 1 < nx by omega)]; ring
end
end Skyborn.Gradients
