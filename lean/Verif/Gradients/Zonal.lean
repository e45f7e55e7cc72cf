/- C33 witnesses, meridional and vertical gradients, and C34 (`calculate_zonal_gradient`). -/
import Verif.Gradients.Props
import Mathlib.Tactic.IntervalCases

namespace Skyborn.Gradients

open Skyborn

section
variable {K : Type} [Field K] [LinearOrder K] [IsStrictOrderedRing K]

/-- C33: the meridional gradient of a field `a + b * latitude` (degrees, equally spaced, on a sphere of radius R) is `180 b / (pi R)`. -/
theorem C33_meridional (pi : K) (hpi : pi ≠ 0) (f o : NDArr K) (nlat : ℕ) (lat : ℕ → K) (axis : ℤ) (R : K) (hR : R ≠ 0) {k : ℕ}
    (e : meridionalGradient pi f nlat lat axis R = some o) (hk : Spec.IsAxis f.shape.length axis k) (h2 : 2 ≤ nlat) {step : K} (hs : step ≠ 0)
    (hlat : ∀ i, lat i = lat 0 + i * step) {idx : List ℕ} (hidx : InB f.shape idx) {a b : K}
    (hf : ∀ i, i < nlat → Spec.line f k idx i = a + b * lat i) : o.get idx = 180 * b / (pi * R) := by
  unfold meridionalGradient at e
  refine C33_affine_partial pi f o nlat lat axis (some R) e hk h2 ?_ (Or.inl ?_) hidx (a := a) (b := 180 * b / (pi * R)) (fun i hi => ?_)
  · intro i j _ _ hij
    simp only [Spec.Dist] at hij
    rw [hlat i, hlat j] at hij
    have h : (i : K) = j := by
      have : R * pi * step / 180 * ((i : K) - j) = 0 := by linear_combination hij
      rcases mul_eq_zero.mp this with h | h
      · have : R * pi * step ≠ 0 := mul_ne_zero (mul_ne_zero hR hpi) hs
        rw [div_eq_zero_iff] at h
        rcases h with h | h
        · exact absurd h this
        · norm_num at h
      · linear_combination h
    exact_mod_cast h
  · intro i _
    simp only [Spec.Dist]
    rw [hlat (i + 1), hlat i, hlat 1]
    push_cast; ring
  · rw [hf i hi]; simp only [Spec.Dist]; field_simp

/-- C33: the vertical gradient uses the pressures themselves: of a field `a + b * p` it is `b` (equally spaced or clearly unequal levels). -/
theorem C33_vertical_partial (pi : K) (f o : NDArr K) (np : ℕ) (p : ℕ → K) (axis : ℤ) {k : ℕ} (e : verticalGradient pi f np p axis = some o)
    (hk : Spec.IsAxis f.shape.length axis k) (h2 : 2 ≤ np) (hd : Spec.Distinct np p) (he : Spec.Even np p ∨ ¬ Spec.NearlyEven np p)
    {idx : List ℕ} (hidx : InB f.shape idx) {a b : K} (hf : ∀ i, i < np → Spec.line f k idx i = a + b * p i) : o.get idx = b :=
  C33_affine_partial pi f o np p axis none e hk h2 hd he hidx hf
end

/-- coordinates 0, 1e-9, 3e-9: unequal steps, equal within the absolute tolerance of `allclose` -/
def wx : ℕ → ℚ := fun i => if i = 0 then 0 else if i = 1 then 1 / 10 ^ 9 else 3 / 10 ^ 9

/-- C33 as stated in the documentation is false: with coordinates 0, 1e-9, 3e-9 (treated as uniform) the gradient of the identity
is 2 at the last point. -/
theorem C33_false : ¬ ∀ (f o : NDArr ℚ) (nx : ℕ) (x : ℕ → ℚ) (idx : List ℕ), calculateGradient 3 f nx x (-1) none = some o → 2 ≤ nx →
    f.shape = [nx] → (∀ i j, i < j → j < nx → x i < x j) → (∀ i, i < nx → f.get [i] = x i) → InB f.shape idx → o.get idx = 1 := by
  intro h
  have hk : normAxis 1 (-1) = some 0 := by decide
  obtain ⟨o, e, hs, hv⟩ := calculateGradient_eq (pi := (3 : ℚ)) (f := (⟨[3], fun idx => wx (idx.getD 0 0)⟩ : NDArr ℚ)) (nx := 3) (x := wx)
    (axis := -1) (radius := none) (k := 0) hk rfl
  have h1 := h _ o 3 wx [2] e (by norm_num) rfl (by
    intro i j hij hj
    have : (i = 0 ∧ j = 1) ∨ (i = 0 ∧ j = 2) ∨ (i = 1 ∧ j = 2) := by omega
    rcases this with ⟨rfl, rfl⟩ | ⟨rfl, rfl⟩ | ⟨rfl, rfl⟩ <;> norm_num [wx]) (fun i _ => rfl) (by simp [InB])
  have h2 := hv [2] (by simp [InB])
  rw [h1, if_neg (by norm_num), if_pos (allClose_iff.mpr (by
    intro i hi
    have : i = 0 ∨ i = 1 := by omega
    rcases this with rfl | rfl <;> norm_num [distances, wx, abs_of_pos]))] at h2
  norm_num [uVal, distances, wx] at h2

/-! The hypotheses of C33 are met: a 2-D field, unequal coordinates 0, 1, 3, 7 along axis -1. -/
def exX : ℕ → ℚ := fun i => 2 ^ i - 1
def exF : NDArr ℚ := ⟨[2, 4], fun idx => 5 + (idx.getD 0 0 : ℕ) * exX (idx.getD 1 0)⟩

example : ∃ o, calculateGradient (3 : ℚ) exF 4 exX (-1) none = some o ∧ o.get [1, 2] = 1 := by
  obtain ⟨o, e, -⟩ := calculateGradient_eq (pi := (3 : ℚ)) (f := exF) (nx := 4) (x := exX) (axis := -1) (radius := none) (k := 1) (by decide) rfl
  have hne : ¬ Spec.NearlyEven 4 exX := fun h => by have := h 1 (by norm_num); norm_num [exX, abs_of_pos] at this
  refine ⟨o, e, C33_affine_partial 3 exF o 4 exX (-1) none e (k := 1) ⟨by decide, Or.inr (by decide)⟩ (by norm_num) ?_ (Or.inr hne)
    (by simp [exF, InB]) (a := 5) (b := 1) (fun i hi => ?_)⟩
  · intro i j hi hj hij
    interval_cases i <;> interval_cases j <;> first | rfl | (exfalso; norm_num [Spec.Dist, exX] at hij)
  · simp [Spec.line, exF, Spec.Dist]

/-! ### C34 -/

/-- the closed form of the row loop of `calculate_zonal_gradient` -/
theorem zonalLoop_eq {f : NDArr ℝ} {nlon : ℕ} {lon : ℕ → ℝ} {nlat : ℕ} {lat : ℕ → ℝ} {lonAxis latAxis : ℤ} {R : ℝ} {q k : ℕ}
    (hq : normAxis f.shape.length latAxis = some q) (hlat : nlat = f.shape.getD q 0)
    (hk : normAxis (f.shape.length - 1) lonAxis = some k) (hlon : nlon = (f.shape.eraseIdx q).getD k 0) :
    ∃ o, zonalLoop f nlon lon nlat lat lonAxis latAxis R = some o ∧ o.shape = f.shape ∧ ∀ idx, InB f.shape idx →
      ∃ g, calculateGradient Real.pi ⟨f.shape.eraseIdx q, fun r => f.get (r.insertIdx q (idx.getD q 0))⟩ nlon
          (fun j => lon j * (Real.pi / 180) * R * Real.cos (lat (idx.getD q 0) * (Real.pi / 180))) lonAxis (some 1) = some g ∧
        o.get idx = g.get (idx.eraseIdx q) := by
  have hql := normAxis_lt hq
  unfold zonalLoop
  rw [hq]
  simp only [Option.bind_eq_bind, Option.bind_some]
  have key : ∀ i, ∃ g, calculateGradient Real.pi ⟨f.shape.eraseIdx q, fun r => f.get (r.insertIdx q i)⟩ nlon
          (fun j => lon j * (Real.pi / 180) * R * Real.cos (lat i * (Real.pi / 180))) lonAxis (some 1) = some g := by
    intro i
    obtain ⟨g, e, -⟩ := calculateGradient_eq (pi := Real.pi) (f := ⟨f.shape.eraseIdx q, fun r => f.get (r.insertIdx q i)⟩) (nx := nlon)
      (x := (fun j => lon j * (Real.pi / 180) * R * Real.cos (lat i * (Real.pi / 180)))) (axis := lonAxis) (radius := some 1) (k := k)
      (by rw [List.length_eraseIdx_of_lt hql]; exact hk) hlon
    exact ⟨g, e⟩
  choose G hG using key
  obtain ⟨s, es, hs⟩ := forM_inv (lo := 0) (hi := nlat) (Nat.zero_le _) (s := (⟨f.shape, fun _ => 0⟩ : NDArr ℝ))
    (f := fun i g => (sliceAxis f q i).bind fun s =>
      (calculateGradient Real.pi s nlon (fun j => lon j * (Real.pi / 180) * R * Real.cos (lat i * (Real.pi / 180))) lonAxis (some 1)).bind fun r =>
        put g q i fun idx => r.get (idx.eraseIdx q))
    (fun t s => s.shape = f.shape ∧ ∀ idx, idx.getD q 0 < t → s.get idx = (G (idx.getD q 0)).get (idx.eraseIdx q))
    ⟨rfl, fun idx h => absurd h (by omega)⟩
    (by
      rintro t s ht1 ht2 ⟨hsh, hv⟩
      beta_reduce
      unfold sliceAxis
      rw [if_pos (by omega), Option.bind_some, hG t, Option.bind_some, put_ok (by rw [hsh]; omega)]
      refine ⟨_, rfl, hsh, fun idx h3 => ?_⟩
      dsimp only
      by_cases e : idx.getD q 0 = t
      · rw [if_pos e, e]
      · rw [if_neg e]; exact hv idx (by omega))
  refine ⟨s, es, hs.1, fun idx hi => ⟨G (idx.getD q 0), hG _, hs.2 idx (hlat ▸ getD_of_inB hi hql)⟩⟩

/-- The zonal derivative on a sphere of radius `R` at latitude `phi` (degrees) of a quantity with derivative `b` per radian of longitude. -/
noncomputable def Spec.zonalDerivative (R phi b : ℝ) : ℝ := b / (R * Real.cos (phi * (Real.pi / 180)))

/-- C34, what is computed in the layouts handled one latitude at a time (2-D fields and explicit axes), on equally spaced longitudes:
for a line `a + b * longitude` (radians) the result is **180/pi times** the zonal derivative. Here the latitude axis is `q` and the
longitude axis, once the latitude axis has been removed, is `k` (both as Python reads `latAxis` and `lonAxis`). -/
theorem C34_scale_partial (f o : NDArr ℝ) (nlon : ℕ) (lon : ℕ → ℝ) (nlat : ℕ) (lat : ℕ → ℝ) (lonAxis latAxis : ℤ) (R : ℝ) {q k : ℕ}
    (e : zonalGradient f nlon lon nlat lat lonAxis latAxis R = some o)
    (hnd : ¬ ((f.shape.length = 4 ∨ f.shape.length = 3) ∧ lonAxis = -1 ∧ latAxis = -2))
    (hq : Spec.IsAxis f.shape.length latAxis q) (hlat : nlat = f.shape.getD q 0)
    (hk : Spec.IsAxis (f.shape.length - 1) lonAxis k) (hlon : nlon = (f.shape.eraseIdx q).getD k 0) (h2 : 2 ≤ nlon) (hR : R ≠ 0)
    {step : ℝ} (hs : step ≠ 0) (hst : ∀ j, lon j = lon 0 + j * step) {idx : List ℕ} (hidx : InB f.shape idx)
    (hcos : Real.cos (lat (idx.getD q 0) * (Real.pi / 180)) ≠ 0) {a b : ℝ}
    (hf : ∀ j, j < nlon → f.get (((idx.eraseIdx q).set k j).insertIdx q (idx.getD q 0)) = a + b * (lon j * (Real.pi / 180))) :
    o.shape = f.shape ∧ o.get idx = 180 / Real.pi * Spec.zonalDerivative R (lat (idx.getD q 0)) b := by
  unfold zonalGradient at e
  rw [if_neg hnd] at e
  obtain ⟨o', e', hsh, hv⟩ := zonalLoop_eq (f := f) (nlon := nlon) (lon := lon) (lat := lat) (R := R) (normAxis_iff.mpr hq) hlat
    (normAxis_iff.mpr hk) hlon
  rw [e'] at e
  cases e
  refine ⟨hsh, ?_⟩
  obtain ⟨g, eg, hg⟩ := hv idx hidx
  rw [hg]
  have hpi := Real.pi_ne_zero
  generalize hc : Real.cos (lat (idx.getD q 0) * (Real.pi / 180)) = c at *
  have hql := hq.1
  refine C33_affine_partial Real.pi _ g nlon _ lonAxis (some 1) eg (k := k) ?_ h2 ?_ (Or.inl ?_) ?_
    (a := a) (b := 180 / Real.pi * Spec.zonalDerivative R (lat (idx.getD q 0)) b) ?_
  · dsimp only; rw [List.length_eraseIdx_of_lt hql]; exact hk
  · intro i j _ _ hij
    simp only [Spec.Dist] at hij
    rw [hst i, hst j] at hij
    have : (Real.pi * step * Real.pi * R * c / 32400) * ((i : ℝ) - j) = 0 := by linear_combination hij
    rcases mul_eq_zero.mp this with h | h
    · have : Real.pi * step * Real.pi * R * c ≠ 0 := by
        refine mul_ne_zero (mul_ne_zero (mul_ne_zero (mul_ne_zero hpi hs) hpi) hR) hcos
      rw [div_eq_zero_iff] at h
      rcases h with h | h
      · exact absurd h this
      · norm_num at h
    · exact_mod_cast sub_eq_zero.mp h
  · intro i _
    simp only [Spec.Dist]
    rw [hst (i + 1), hst i, hst 1]
    push_cast; ring
  · dsimp only
    rw [inB_iff] at hidx ⊢
    have hlen : (idx.eraseIdx q).length = (f.shape.eraseIdx q).length := by
      rw [List.length_eraseIdx_of_lt hql, List.length_eraseIdx_of_lt (by rw [hidx.1]; exact hql), hidx.1]
    refine ⟨hlen, fun j hj => ?_⟩
    rw [List.length_eraseIdx_of_lt hql] at hj
    simp only [List.getD_eq_getElem?_getD, List.getElem?_eraseIdx]
    split_ifs with h
    · simpa only [List.getD_eq_getElem?_getD] using hidx.2 j (by omega)
    · simpa only [List.getD_eq_getElem?_getD] using hidx.2 (j + 1) (by omega)
  · intro i hi
    dsimp only [Spec.line]
    rw [hf i hi]
    simp only [Spec.Dist, Spec.zonalDerivative, hc]
    field_simp

/-- C34 is false: on a (lat, lon) field `longitude` (radians) with unit radius at the equator the zonal derivative is 1, the
result is 180/pi. -/
theorem C34_false : ¬ ∀ (f o : NDArr ℝ) (nlon : ℕ) (lon : ℕ → ℝ) (nlat : ℕ) (lat : ℕ → ℝ) (R a b : ℝ) (i j : ℕ),
    zonalGradient f nlon lon nlat lat (-1) (-2) R = some o → f.shape = [nlat, nlon] → 2 ≤ nlon → 0 < R → (∀ m, lon m = m) →
    (∀ m, |lat m| < 90) → (∀ m n, f.get [m, n] = a + b * (lon n * (Real.pi / 180))) → i < nlat → j < nlon →
    o.get [i, j] = Spec.zonalDerivative R (lat i) b := by
  intro h
  have hq : normAxis 2 (-2) = some 0 := by decide
  have hk : normAxis (2 - 1) (-1) = some 0 := by decide
  obtain ⟨o, e, hsh, -⟩ := zonalLoop_eq (f := (⟨[1, 2], fun idx => (idx.getD 1 0 : ℕ) * (Real.pi / 180)⟩ : NDArr ℝ)) (nlon := 2) (lon := fun m => (m : ℝ))
    (nlat := 1) (lat := fun _ => 0) (lonAxis := -1) (latAxis := -2) (R := 1) (q := 0) (k := 0) hq rfl hk rfl
  have e' : zonalGradient (⟨[1, 2], fun idx => (idx.getD 1 0 : ℕ) * (Real.pi / 180)⟩ : NDArr ℝ) 2 (fun m => (m : ℝ)) 1 (fun _ => 0) (-1) (-2) 1 = some o := by
    unfold zonalGradient
    rw [if_neg (by simp)]; exact e
  have h1 := h _ o 2 (fun m => (m : ℝ)) 1 (fun _ => 0) 1 0 1 0 0 e' rfl (by norm_num) one_pos (fun _ => rfl) (fun _ => by norm_num)
    (fun m n => by simp) (by norm_num) (by norm_num)
  have h2 := (C34_scale_partial _ o 2 (fun m => (m : ℝ)) 1 (fun _ => 0) (-1) (-2) 1 (q := 0) (k := 0) e' (by simp) ⟨by decide, by decide⟩ rfl
    ⟨by decide, by decide⟩ rfl (by norm_num) one_ne_zero (step := 1) one_ne_zero (fun j => by simp) (idx := [0, 0]) (by simp [InB]) (by simp)
    (a := 0) (b := 1) (fun j _ => by simp)).2
  rw [h1] at h2
  simp only [Spec.zonalDerivative, zero_mul, Real.cos_zero, mul_one, div_one] at h2
  have := Real.pi_lt_four
  rw [eq_div_iff Real.pi_ne_zero] at h2
  linarith

/-- C34: the default layouts (time, lat, lon) and (time, level, lat, lon) are rejected as soon as there are two latitudes (and one longitude),
and for one latitude unless there are at most two longitudes. -/
theorem C34_default_rejected (f : NDArr ℝ) (nlon : ℕ) (lon : ℕ → ℝ) (nlat : ℕ) (lat : ℕ → ℝ) (R : ℝ)
    (hd : f.shape.length = 3 ∨ f.shape.length = 4) (h : (2 ≤ nlat ∧ 1 ≤ nlon) ∨ (nlat = 1 ∧ 3 ≤ nlon)) :
    zonalGradient f nlon lon nlat lat (-1) (-2) R = none := by
  unfold zonalGradient
  rw [if_pos ⟨hd.symm, rfl, rfl⟩]
  unfold zonalDefault
  rcases h with ⟨h1, h2⟩ | ⟨h1, h2⟩
  · have : nlat * nlon ≠ nlon := by
      intro h
      have : 2 * nlon ≤ nlat * nlon := Nat.mul_le_mul_right _ h1
      omega
    dsimp only
    rw [if_pos this]
  · dsimp only
    rw [if_neg (by simp [h1]), if_neg (by omega), if_neg (by omega)]

end Skyborn.Gradients
