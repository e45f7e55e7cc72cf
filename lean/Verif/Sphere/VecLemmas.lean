/-
Closed forms of the `Spharmt` vector methods.
-/
import Verif.Sphere.SpharmtLemmas

namespace Skyborn.Sphere

open Skyborn Skyborn.Spectral

variable {I : Inst} {extra : List ℕ}

/-! ### Analysis -/

theorem validateWind_ok {u v : NDArr ℝ} (hu : u.shape = I.nlat :: I.nlon :: extra)
    (hv : v.shape = I.nlat :: I.nlon :: extra) :
    ∃ y z, validateWind I u v = .ok (extra, y, z) ∧
      (∀ e, InB extra e → sliceOf I y (ravel extra e) = Spec.cut I.nlat I.nlon u e) ∧
      ∀ e, InB extra e → sliceOf I z (ravel extra e) = Spec.cut I.nlat I.nlon v e := by
  obtain ⟨y, e1, hy⟩ := validateGrid_ok (I := I) hu
  obtain ⟨z, e2, hz⟩ := validateGrid_ok (I := I) hv
  refine ⟨y, z, ?_, hy, hz⟩
  unfold validateWind
  rw [if_neg (by rw [hu, hv]; simp)]
  simp only [bind, Except.bind, pure, Except.pure, e1, e2, ne_eq, not_true_eq_false, if_false]

/-- A vector coefficient an analysis returns: its value on the modes visited, zero elsewhere. -/
def onModes (I : Inst) (x : ℕ → ℕ → ℝ) (m n : ℕ) : ℝ := if (m, n) ∈ vModes I.nlat I.nlon then x m n else 0

theorem kept_eq (x : ℕ → ℕ → ℝ) (m n k : ℕ) : kept I x (m + 1, n + 1, k) = some (onModes I x m n) := by
  unfold kept onModes
  simp only [Nat.add_sub_cancel]
  split_ifs <;> rfl

theorem packFactor_eq (r : ℝ) (n : ℕ) : packFactor r (n + 1) = rootL n / r / 2 := by
  unfold packFactor rootL
  rw [show ((n + 1 : ℕ) : ℝ) * (((n + 1 : ℕ) : ℝ) - 1) = n * (n + 1) by push_cast; ring]
  ring

theorem settle_ok {T nt : ℕ} {x : ℕ × ℕ → Option ℂ} {g : ℕ × ℕ × ℕ → ℂ}
    (h : ∀ t ∈ Tri nt (T + 1), x (adS (T + 1) t) = some (g t)) :
    ∃ y, settle (specLen T) nt x = .ok y ∧ ∀ t ∈ Tri nt (T + 1), y (adS (T + 1) t) = g t := by
  refine ⟨fun p => (x p).getD 0, ?_, fun t ht => by simp only [h t ht, Option.getD_some]⟩
  unfold settle
  rw [if_pos]
  rintro ⟨k, i⟩ h1 h2 h3 h4
  obtain ⟨m, n, ht, e⟩ := exists_tri (T := T) (nt := nt) h1 h2 h3 h4
  have := h _ ht
  simp only [adS, e] at this
  rw [this]; rfl

/-- The vorticity coefficients of a family `(cr, ci)`. -/
noncomputable def vrtOf (I : Inst) (c : ℕ → ℕ → ℝ × ℝ) (m n : ℕ) : ℂ :=
  ((rootL n / I.rsphere / 2 : ℝ) : ℂ) * (⟨onModes I (fun m n => (c m n).1) m n, onModes I (fun m n => (c m n).2) m n⟩ : ℂ)

/-- The divergence coefficients of a family `(br, bi)`. -/
noncomputable def divOf (I : Inst) (c : ℕ → ℕ → ℝ × ℝ) (m n : ℕ) : ℂ :=
  ((-(rootL n / I.rsphere / 2) : ℝ) : ℂ) * (⟨onModes I (fun m n => (c m n).1) m n, onModes I (fun m n => (c m n).2) m n⟩ : ℂ)

/-- What an analysis is given: minus the northward component, and the eastward one. -/
def southOf (I : Inst) (v : NDArr ℝ) (e : List ℕ) : ℕ → ℕ → ℝ := fun i j => - Spec.cut I.nlat I.nlon v e i j

theorem truncation_lt (hG : Good I extra) {t : Option ℤ} {T : ℕ} (ht : Spec.Truncation I.nlat t T) : T < I.nlat := by
  rcases ht with ⟨-, rfl⟩ | ⟨-, h⟩
  · have := hG.lat; omega
  · exact h

theorem getvrtdivspec_ok {u v : NDArr ℝ} {t : Option ℤ} {T : ℕ} (hG : Good I extra)
    (hu : u.shape = I.nlat :: I.nlon :: extra) (hv : v.shape = I.nlat :: I.nlon :: extra)
    (ht : Spec.Truncation I.nlat t T) :
    ∃ z d, getvrtdivspec I u v t = .ok (z, d) ∧
      (Spec.IsSpectrum T extra z fun e => vrtOf I fun m n =>
        (I.anaV (southOf I v e) (Spec.cut I.nlat I.nlon u e) m n).2.2) ∧
      (Spec.IsSpectrum T extra d fun e => divOf I fun m n =>
        ((I.anaV (southOf I v e) (Spec.cut I.nlat I.nlon u e) m n).1,
          (I.anaV (southOf I v e) (Spec.cut I.nlat I.nlon u e) m n).2.1)) := by
  have hT := truncation_lt hG ht
  obtain ⟨y, z, e1, hy, hz⟩ := validateWind_ok (I := I) hu hv
  set c := fun k => I.anaV (colat I z k) (sliceOf I y k) with hc
  obtain ⟨vrt, div, e2, f1, f2⟩ := twodtoonedVrtdiv_closed (nlat := I.nlat) (nt := extra.prod) (T := T) (by omega) I.rsphere
    (fun p => kept I (fun m n => (c (p.2.2 - 1) m n).1) p) (fun p => kept I (fun m n => (c (p.2.2 - 1) m n).2.1) p)
    (fun p => kept I (fun m n => (c (p.2.2 - 1) m n).2.2.1) p) (fun p => kept I (fun m n => (c (p.2.2 - 1) m n).2.2.2) p)
  obtain ⟨vrt', s1, g1⟩ := settle_ok (T := T) (nt := extra.prod) (x := vrt)
    (g := fun t => vrtOf I (fun m n => (c (t.1 - 1) m n).2.2) (t.2.1 - 1) (t.2.2 - 1)) (by
      rintro ⟨i, m, n⟩ h
      have hm := mem_Tri.mp h
      obtain ⟨m, rfl⟩ : ∃ k, m = k + 1 := ⟨m - 1, by omega⟩
      obtain ⟨n, rfl⟩ : ∃ k, n = k + 1 := ⟨n - 1, by omega⟩
      rw [f1.1 _ h]
      simp only [adG, kept_eq, packFactor_eq, scaleC, vrtOf, Nat.add_sub_cancel]
      rfl)
  obtain ⟨div', s2, g2⟩ := settle_ok (T := T) (nt := extra.prod) (x := div)
    (g := fun t => divOf I (fun m n => ((c (t.1 - 1) m n).1, (c (t.1 - 1) m n).2.1)) (t.2.1 - 1) (t.2.2 - 1)) (by
      rintro ⟨i, m, n⟩ h
      have hm := mem_Tri.mp h
      obtain ⟨m, rfl⟩ : ∃ k, m = k + 1 := ⟨m - 1, by omega⟩
      obtain ⟨n, rfl⟩ : ∃ k, n = k + 1 := ⟨n - 1, by omega⟩
      rw [f2.1 _ h]
      simp only [adG, kept_eq, packFactor_eq, scaleC, divOf, Nat.add_sub_cancel]
      rfl)
  obtain ⟨r1, e3, hr1⟩ := restoreSpec_ok (T := T) (extra := extra) (f := vrt')
  obtain ⟨r2, e4, hr2⟩ := restoreSpec_ok (T := T) (extra := extra) (f := div')
  have hrun := ((hG.run .both).2.2.2).mpr (by simp)
  refine ⟨r1, r2, ?_, hr1.congr fun e he m n h1 h2 => ?_, hr2.congr fun e he m n h1 h2 => ?_⟩
  · unfold getvrtdivspec
    rw [e1]
    simp only [bind, Except.bind, ntrunc_ok ht, hrun, raise]
    simp only [hc] at e2
    rw [e2]
    simp only [inside, s1, s2, e3, e4, pure, Except.pure]
  · have hk := ravel_lt he
    have h := g1 (ravel extra e + 1, m + 1, n + 1) (mem_Tri.mpr (by omega))
    simp only [adS, pos_eq_index h1 h2, Nat.add_sub_cancel] at h
    rw [h]
    have : colat I z (ravel extra e) = southOf I v e := by
      funext i j; simp only [colat, southOf, hz e he]
    simp only [hc, hy e he, this]
  · have hk := ravel_lt he
    have h := g2 (ravel extra e + 1, m + 1, n + 1) (mem_Tri.mpr (by omega))
    simp only [adS, pos_eq_index h1 h2, Nat.add_sub_cancel] at h
    rw [h]
    have : colat I z (ravel extra e) = southOf I v e := by
      funext i j; simp only [colat, southOf, hz e he]
    simp only [hc, hy e he, this]

theorem getvrtspec_ok {u v : NDArr ℝ} {t : Option ℤ} {T : ℕ} (hG : Good I extra)
    (hu : u.shape = I.nlat :: I.nlon :: extra) (hv : v.shape = I.nlat :: I.nlon :: extra)
    (ht : Spec.Truncation I.nlat t T) :
    ∃ z, getvrtspec I u v t = .ok z ∧
      Spec.IsSpectrum T extra z fun e => vrtOf I (I.anaVrt (southOf I v e) (Spec.cut I.nlat I.nlon u e)) := by
  have hT := truncation_lt hG ht
  obtain ⟨y, z, e1, hy, hz⟩ := validateWind_ok (I := I) hu hv
  set c := fun k => I.anaVrt (colat I z k) (sliceOf I y k) with hc
  obtain ⟨vrt, e2, f1⟩ := twodtoonedVrt_closed (nlat := I.nlat) (nt := extra.prod) (T := T) (by omega) I.rsphere
    (fun p => kept I (fun m n => (c (p.2.2 - 1) m n).1) p) (fun p => kept I (fun m n => (c (p.2.2 - 1) m n).2) p)
  obtain ⟨vrt', s1, g1⟩ := settle_ok (T := T) (nt := extra.prod) (x := vrt)
    (g := fun t => vrtOf I (fun m n => (c (t.1 - 1) m n)) (t.2.1 - 1) (t.2.2 - 1)) (by
      rintro ⟨i, m, n⟩ h
      have hm := mem_Tri.mp h
      obtain ⟨m, rfl⟩ : ∃ k, m = k + 1 := ⟨m - 1, by omega⟩
      obtain ⟨n, rfl⟩ : ∃ k, n = k + 1 := ⟨n - 1, by omega⟩
      rw [f1.1 _ h]
      simp only [adG, kept_eq, packFactor_eq, scaleC, vrtOf, Nat.add_sub_cancel]
      rfl)
  obtain ⟨r1, e3, hr1⟩ := restoreSpec_ok (T := T) (extra := extra) (f := vrt')
  have hrun := ((hG.run .vrt).2.2.2).mpr (by simp)
  refine ⟨r1, ?_, hr1.congr fun e he m n h1 h2 => ?_⟩
  · unfold getvrtspec
    rw [e1]
    simp only [bind, Except.bind, ntrunc_ok ht, hrun, raise]
    simp only [hc] at e2
    rw [e2]
    simp only [inside, s1, e3]
  · have hk := ravel_lt he
    have h := g1 (ravel extra e + 1, m + 1, n + 1) (mem_Tri.mpr (by omega))
    simp only [adS, pos_eq_index h1 h2, Nat.add_sub_cancel] at h
    rw [h]
    have : colat I z (ravel extra e) = southOf I v e := by
      funext i j; simp only [colat, southOf, hz e he]
    simp only [hc, hy e he, this]

theorem getdivspec_ok {u v : NDArr ℝ} {t : Option ℤ} {T : ℕ} (hG : Good I extra)
    (hu : u.shape = I.nlat :: I.nlon :: extra) (hv : v.shape = I.nlat :: I.nlon :: extra)
    (ht : Spec.Truncation I.nlat t T) (hn : ¬ (I.grid = .regular ∧ I.leg = .stored ∧ 24 < extra.prod)) :
    ∃ z, getdivspec I u v t = .ok z ∧
      Spec.IsSpectrum T extra z fun e => divOf I (I.anaDiv (southOf I v e) (Spec.cut I.nlat I.nlon u e)) := by
  have hT := truncation_lt hG ht
  obtain ⟨y, z, e1, hy, hz⟩ := validateWind_ok (I := I) hu hv
  set c := fun k => I.anaDiv (colat I z k) (sliceOf I y k) with hc
  obtain ⟨vrt, e2, f1⟩ := twodtoonedDiv_closed (nlat := I.nlat) (nt := extra.prod) (T := T) (by omega) I.rsphere
    (fun p => kept I (fun m n => (c (p.2.2 - 1) m n).1) p) (fun p => kept I (fun m n => (c (p.2.2 - 1) m n).2) p)
  obtain ⟨vrt', s1, g1⟩ := settle_ok (T := T) (nt := extra.prod) (x := vrt)
    (g := fun t => divOf I (fun m n => (c (t.1 - 1) m n)) (t.2.1 - 1) (t.2.2 - 1)) (by
      rintro ⟨i, m, n⟩ h
      have hm := mem_Tri.mp h
      obtain ⟨m, rfl⟩ : ∃ k, m = k + 1 := ⟨m - 1, by omega⟩
      obtain ⟨n, rfl⟩ : ∃ k, n = k + 1 := ⟨n - 1, by omega⟩
      rw [f1.1 _ h]
      simp only [adG, kept_eq, packFactor_eq, scaleC, divOf, Nat.add_sub_cancel]
      rfl)
  obtain ⟨r1, e3, hr1⟩ := restoreSpec_ok (T := T) (extra := extra) (f := vrt')
  have hrun := ((hG.run .div).2.2.2).mpr (by simpa using hn)
  refine ⟨r1, ?_, hr1.congr fun e he m n h1 h2 => ?_⟩
  · unfold getdivspec
    rw [e1]
    simp only [bind, Except.bind, ntrunc_ok ht, hrun, raise]
    simp only [hc] at e2
    rw [e2]
    simp only [inside, s1, e3]
  · have hk := ravel_lt he
    have h := g1 (ravel extra e + 1, m + 1, n + 1) (mem_Tri.mpr (by omega))
    simp only [adS, pos_eq_index h1 h2, Nat.add_sub_cancel] at h
    rw [h]
    have : colat I z (ravel extra e) = southOf I v e := by
      funext i j; simp only [colat, southOf, hz e he]
    simp only [hc, hy e he, this]

/-! ### Laplacian and its inverse -/

theorem invlapspec_ok {s : NDArr ℂ} {T : ℕ} {x : List ℕ → ℕ → ℕ → ℂ} (h : Spec.IsSpectrum T extra s x) (hT : T < I.nlat) :
    ∃ r, invlapspec I s = .ok r ∧ Spec.IsSpectrum T extra r fun e m n =>
      if n = 0 then 0 else ((-(I.rsphere ^ 2) / (n * (n + 1)) : ℝ) : ℂ) * x e m n := by
  obtain ⟨y, e1, hy⟩ := validateSpec_ok (I := I) h hT
  have hw : waves (specLen T) = T + 1 := waves_specLen T
  have hN : 1 ≤ specLen T := by
    have := waves_le (specLen T); rw [hw] at this
    have h2 : 1 ≤ (T + 1) * (T + 1 + 1) / 2 := by
      rw [Nat.le_div_iff_mul_le two_pos]; nlinarith
    omega
  obtain ⟨z, e2, hz⟩ := invlap_closed (N := specLen T) (nt := extra.prod) hN I.rsphere (toF y) fun _ => 0
  rw [hw] at hz
  obtain ⟨r, e3, hr⟩ := restoreSpec_ok (T := T) (extra := extra) (f := z)
  refine ⟨r, ?_, hr.congr fun e he m n h1 h2 => ?_⟩
  · unfold invlapspec
    rw [e1]
    simp only [bind, Except.bind, e2, inside, e3]
  · have hk := ravel_lt he
    have h := hz (ravel extra e + 1) (m + 1) (n + 1) (mem_Tri.mpr (by omega))
    rw [pos_eq_index h1 h2, hy e he m n h1 h2] at h
    rw [h]
    by_cases hn : n = 0
    · rw [if_pos hn, if_pos (by omega)]
    · rw [if_neg hn, if_neg (by omega)]
      congr 2
      push_cast
      rw [show ((n : ℝ) + 1) * ((n : ℝ) + 1 - 1) = n * (n + 1) by ring, pow_two]

theorem lapspec_ok {s : NDArr ℂ} {T : ℕ} {x : List ℕ → ℕ → ℕ → ℂ} (h : Spec.IsSpectrum T extra s x) (hT : T < I.nlat) :
    ∃ y z r, validateSpec I s = .ok (specLen T, extra, y) ∧
      lap (specLen T) extra.prod I.rsphere (toF y) (fun _ => 0) = some z ∧
      restoreSpec (specLen T) extra (ofF (specLen T) extra.prod z) = .ok r ∧
      Spec.IsSpectrum T extra r fun e m n => ((-(n * (n + 1)) / I.rsphere ^ 2 : ℝ) : ℂ) * x e m n := by
  obtain ⟨y, e1, hy⟩ := validateSpec_ok (I := I) h hT
  have hw : waves (specLen T) = T + 1 := waves_specLen T
  obtain ⟨z, e2, hz⟩ := lap_closed (N := specLen T) (nt := extra.prod) I.rsphere (toF y) fun _ => 0
  rw [hw] at hz
  obtain ⟨r, e3, hr⟩ := restoreSpec_ok (T := T) (extra := extra) (f := z)
  refine ⟨y, z, r, e1, e2, e3, hr.congr fun e he m n h1 h2 => ?_⟩
  have hk := ravel_lt he
  have h := hz.1 (ravel extra e + 1, m + 1, n + 1) (mem_Tri.mpr (by omega))
  simp only [adS, pos_eq_index h1 h2, hy e he m n h1 h2] at h
  rw [h]
  congr 2
  push_cast
  ring

/-! ### Synthesis -/

/-- The wind (east and north components) with vorticity coefficients `z` and divergence coefficients `d` over the modes `M`,
as the vector expansion gives it. -/
noncomputable def uOn (a : ℝ) (M : Finset (ℕ × ℕ)) (z d : ℕ → ℕ → ℂ) (φ l : ℝ) : ℝ :=
  uField M (fun m n => -(2 * a / rootL n) * (d m n).re) (fun m n => -(2 * a / rootL n) * (d m n).im)
    (fun m n => 2 * a / rootL n * (z m n).re) (fun m n => 2 * a / rootL n * (z m n).im) φ l

/-- The north component. -/
noncomputable def vOn (a : ℝ) (M : Finset (ℕ × ℕ)) (z d : ℕ → ℕ → ℂ) (φ l : ℝ) : ℝ :=
  vField M (fun m n => -(2 * a / rootL n) * (d m n).re) (fun m n => -(2 * a / rootL n) * (d m n).im)
    (fun m n => 2 * a / rootL n * (z m n).re) (fun m n => 2 * a / rootL n * (z m n).im) φ l

theorem field_filter (M : Finset (ℕ × ℕ)) (T : ℕ) (br bi cr ci br' bi' cr' ci' : ℕ → ℕ → ℝ) (φ l : ℝ)
    (h0 : ∀ p ∈ M, T < p.2 → br p.1 p.2 = 0 ∧ bi p.1 p.2 = 0 ∧ cr p.1 p.2 = 0 ∧ ci p.1 p.2 = 0)
    (h1 : ∀ p ∈ M, p.2 ≤ T → br p.1 p.2 = br' p.1 p.2 ∧ bi p.1 p.2 = bi' p.1 p.2 ∧ cr p.1 p.2 = cr' p.1 p.2 ∧
      ci p.1 p.2 = ci' p.1 p.2) :
    uField M br bi cr ci φ l = uField (M.filter fun p => p.2 ≤ T) br' bi' cr' ci' φ l ∧
    vField M br bi cr ci φ l = vField (M.filter fun p => p.2 ≤ T) br' bi' cr' ci' φ l := by
  unfold uField vField eastField colatField
  constructor
  · rw [Finset.sum_filter]
    refine Finset.sum_congr rfl fun p hp => ?_
    by_cases h : p.2 ≤ T
    · obtain ⟨a, b, c, d⟩ := h1 p hp h
      rw [if_pos h, a, b, c, d]
    · obtain ⟨a, b, c, d⟩ := h0 p hp (by omega)
      rw [if_neg h, a, b, c, d]; ring
  · rw [Finset.sum_filter]
    congr 1
    refine Finset.sum_congr rfl fun p hp => ?_
    by_cases h : p.2 ≤ T
    · obtain ⟨a, b, c, d⟩ := h1 p hp h
      rw [if_pos h, a, b, c, d]
    · obtain ⟨a, b, c, d⟩ := h0 p hp (by omega)
      rw [if_neg h, a, b, c, d]; ring

theorem vecFactor_eq (r : ℝ) {n : ℕ} (h : 1 ≤ n) : vecFactor r (n + 1) = some (r / rootL n) := by
  unfold vecFactor rootL
  have e : ((n + 1 : ℕ) : ℝ) * (((n + 1 : ℕ) : ℝ) - 1) = n * (n + 1) := by push_cast; ring
  have hn : (1 : ℝ) ≤ n := by exact_mod_cast h
  rw [e, if_neg (by positivity)]

/-- What the coefficient arrays of a vector synthesis must hold. -/
def Coefs (I : Inst) (T : ℕ) (extra : List ℕ) (x : ℕ × ℕ × ℕ → Option ℝ) (f : List ℕ → ℕ → ℕ → ℝ) : Prop :=
  ∀ e, InB extra e → ∀ m n, (m, n) ∈ vModes I.nlat I.nlon →
    x (m + 1, n + 1, ravel extra e + 1) = some (if n ≤ T then f e m n else 0)

theorem coefs_of {T : ℕ} {x : ℕ × ℕ × ℕ → Option ℝ} {f : List ℕ → ℕ → ℕ → ℝ} {g : ℕ × ℕ × ℕ → Option ℝ}
    (hx : Filled adG g (fun _ => some 0) (Tri extra.prod (T + 1)) x)
    (hg : ∀ e, InB extra e → ∀ m n, m ≤ n → n ≤ T → 1 ≤ n → g (ravel extra e + 1, m + 1, n + 1) = some (f e m n)) :
    Coefs I T extra x f := by
  intro e he m n hp
  have hm := mem_vModes.mp hp
  have hk := ravel_lt he
  by_cases h : n ≤ T
  · rw [if_pos h, ← hg e he m n hm.1 h hm.2.1]
    exact hx.1 (ravel extra e + 1, m + 1, n + 1) (mem_Tri.mpr (by omega))
  · rw [if_neg h]
    refine hx.2 _ ?_
    rintro ⟨i', m', n'⟩ ht heq
    have := mem_Tri.mp ht
    simp only [adG, Prod.mk.injEq] at heq
    omega

theorem coefs_zero (T : ℕ) : Coefs I T extra (fun _ => some 0) fun _ _ _ => 0 := by
  intro e he m n hp
  simp

theorem synthV_ok {T : ℕ} {br bi cr ci : ℕ × ℕ × ℕ → Option ℝ} {fbr fbi fcr fci : List ℕ → ℕ → ℕ → ℝ}
    (h1 : Coefs I T extra br fbr) (h2 : Coefs I T extra bi fbi) (h3 : Coefs I T extra cr fcr) (h4 : Coefs I T extra ci fci) :
    ∃ u v u' v', synthV I extra.prod br bi cr ci = .ok (u, v) ∧ restoreGrid I extra u = .ok u' ∧ restoreGrid I extra v = .ok v' ∧
      (Spec.IsGrid I.nlat I.nlon extra u' fun e i j => uField (usedV I T) (fbr e) (fbi e) (fcr e) (fci e) (I.lat i) (I.lon j)) ∧
      (Spec.IsGrid I.nlat I.nlon extra v' fun e i j => vField (usedV I T) (fbr e) (fbi e) (fcr e) (fci e) (I.lat i) (I.lon j)) := by
  obtain ⟨u', e1, hu⟩ := restoreGrid_ok (I := I) (extra := extra) (f := fun k i j =>
    uField (vModes I.nlat I.nlon) (num br k) (num bi k) (num cr k) (num ci k) (I.lat i) (I.lon j))
  obtain ⟨v', e2, hv⟩ := restoreGrid_ok (I := I) (extra := extra) (f := fun k i j =>
    vField (vModes I.nlat I.nlon) (num br k) (num bi k) (num cr k) (num ci k) (I.lat i) (I.lon j))
  have key : ∀ e, InB extra e → ∀ i j,
      uField (vModes I.nlat I.nlon) (num br (ravel extra e)) (num bi (ravel extra e)) (num cr (ravel extra e))
        (num ci (ravel extra e)) (I.lat i) (I.lon j)
        = uField (usedV I T) (fbr e) (fbi e) (fcr e) (fci e) (I.lat i) (I.lon j) ∧
      vField (vModes I.nlat I.nlon) (num br (ravel extra e)) (num bi (ravel extra e)) (num cr (ravel extra e))
        (num ci (ravel extra e)) (I.lat i) (I.lon j)
        = vField (usedV I T) (fbr e) (fbi e) (fcr e) (fci e) (I.lat i) (I.lon j) := by
    intro e he i j
    refine field_filter (vModes I.nlat I.nlon) T _ _ _ _ _ _ _ _ _ _ ?_ ?_
    · rintro ⟨m, n⟩ hp hn
      simp only at hn
      simp only [num, h1 e he m n hp, h2 e he m n hp, h3 e he m n hp, h4 e he m n hp, if_neg (show ¬ n ≤ T by omega),
        Option.getD_some, and_self]
    · rintro ⟨m, n⟩ hp hn
      simp only at hn
      simp only [num, h1 e he m n hp, h2 e he m n hp, h3 e he m n hp, h4 e he m n hp, if_pos hn,
        Option.getD_some, and_self]
  refine ⟨_, _, u', v', ?_, e1, e2, hu.congr fun e he i j _ _ => (key e he i j).1, hv.congr fun e he i j _ _ => (key e he i j).2⟩
  unfold synthV
  rw [if_pos]
  rintro k hk ⟨m, n⟩ hp x hx
  have he := unravel_inB hk
  have hr := ravel_unravel hk
  simp only [List.mem_cons, List.not_mem_nil, or_false] at hx
  rcases hx with rfl | rfl | rfl | rfl
  · have := h1 _ he m n hp; rw [hr] at this; rw [this]; rfl
  · have := h2 _ he m n hp; rw [hr] at this; rw [this]; rfl
  · have := h3 _ he m n hp; rw [hr] at this; rw [this]; rfl
  · have := h4 _ he m n hp; rw [hr] at this; rw [this]; rfl

theorem getuv_ok {z d : NDArr ℂ} {T : ℕ} {x y : List ℕ → ℕ → ℕ → ℂ} (hG : Good I extra)
    (hz : Spec.IsSpectrum T extra z x) (hd : Spec.IsSpectrum T extra d y) (hT : T < I.nlat) :
    ∃ u v, getuv I z d = .ok (u, v) ∧
      (Spec.IsGrid I.nlat I.nlon extra u fun e i j => uOn I.rsphere (usedV I T) (x e) (y e) (I.lat i) (I.lon j)) ∧
      (Spec.IsGrid I.nlat I.nlon extra v fun e i j => vOn I.rsphere (usedV I T) (x e) (y e) (I.lat i) (I.lon j)) := by
  obtain ⟨yz, e1, h1⟩ := validateSpec_ok (I := I) hz hT
  obtain ⟨yd, e2, h2⟩ := validateSpec_ok (I := I) hd hT
  have hw : waves (specLen T) = T + 1 := waves_specLen T
  obtain ⟨br, bi, cr, ci, e3, g1, g2, g3, g4⟩ := onedtotwodVrtdiv_closed (nlat := I.nlat) (N := specLen T) (nt := extra.prod)
    (by rw [hw]; omega) I.rsphere (toF yz) (toF yd)
  rw [hw] at g1 g2 g3 g4
  obtain ⟨u, v, u', v', e4, e5, e6, hu, hv⟩ := synthV_ok (I := I) (T := T) (extra := extra)
    (fbr := fun e m n => -(2 * I.rsphere / rootL n) * (y e m n).re) (fbi := fun e m n => -(2 * I.rsphere / rootL n) * (y e m n).im)
    (fcr := fun e m n => 2 * I.rsphere / rootL n * (x e m n).re) (fci := fun e m n => 2 * I.rsphere / rootL n * (x e m n).im)
    (coefs_of g1 fun e he m n a b c => by
      simp only [vecFactor_eq _ c, adS, pos_eq_index a b, h2 e he m n a b, Option.map_some]; congr 1; ring)
    (coefs_of g2 fun e he m n a b c => by
      simp only [vecFactor_eq _ c, adS, pos_eq_index a b, h2 e he m n a b, Option.map_some]; congr 1; ring)
    (coefs_of g3 fun e he m n a b c => by
      simp only [vecFactor_eq _ c, adS, pos_eq_index a b, h1 e he m n a b, Option.map_some]; congr 1; ring)
    (coefs_of g4 fun e he m n a b c => by
      simp only [vecFactor_eq _ c, adS, pos_eq_index a b, h1 e he m n a b, Option.map_some]; congr 1; ring)
  refine ⟨u', v', ?_, hu, hv⟩
  unfold getuv
  rw [if_neg (by rw [hz.1, hd.1]; simp), e1, e2]
  simp only [bind, Except.bind, pure, Except.pure, ne_eq, not_true_eq_false, or_self, if_false, e3, inside,
    (hG.run .both).2.2.1, raise, e4, e5, e6]

theorem getuvDiv_ok {d : NDArr ℂ} {T : ℕ} {y : List ℕ → ℕ → ℕ → ℂ} (hG : Good I extra)
    (hd : Spec.IsSpectrum T extra d y) (hT : T < I.nlat) :
    ∃ u v, getuvDiv I d = .ok (u, v) ∧
      (Spec.IsGrid I.nlat I.nlon extra u fun e i j => uOn I.rsphere (usedV I T) (fun _ _ => 0) (y e) (I.lat i) (I.lon j)) ∧
      (Spec.IsGrid I.nlat I.nlon extra v fun e i j => vOn I.rsphere (usedV I T) (fun _ _ => 0) (y e) (I.lat i) (I.lon j)) := by
  obtain ⟨yd, e2, h2⟩ := validateSpec_ok (I := I) hd hT
  have hw : waves (specLen T) = T + 1 := waves_specLen T
  obtain ⟨br, bi, e3, g1, g2⟩ := onedtotwodDiv_closed (nlat := I.nlat) (N := specLen T) (nt := extra.prod)
    (by rw [hw]; omega) I.rsphere (toF yd)
  rw [hw] at g1 g2
  obtain ⟨u, v, u', v', e4, e5, e6, hu, hv⟩ := synthV_ok (I := I) (T := T) (extra := extra)
    (fbr := fun e m n => -(2 * I.rsphere / rootL n) * (y e m n).re) (fbi := fun e m n => -(2 * I.rsphere / rootL n) * (y e m n).im)
    (coefs_of g1 fun e he m n a b c => by
      simp only [vecFactor_eq _ c, adS, pos_eq_index a b, h2 e he m n a b, Option.map_some]; congr 1; ring)
    (coefs_of g2 fun e he m n a b c => by
      simp only [vecFactor_eq _ c, adS, pos_eq_index a b, h2 e he m n a b, Option.map_some]; congr 1; ring)
    (coefs_zero T) (coefs_zero T)
  refine ⟨u', v', ?_, hu.congr fun e _ i j _ _ => ?_, hv.congr fun e _ i j _ _ => ?_⟩
  · unfold getuvDiv
    rw [e2]
    simp only [bind, Except.bind, pure, Except.pure, e3, inside,
      (hG.run .div).2.2.1, raise, e4, e5, e6]
  · simp only [uOn, Complex.zero_re, Complex.zero_im, mul_zero]
  · simp only [vOn, Complex.zero_re, Complex.zero_im, mul_zero]

theorem getuvVrt_ok {z : NDArr ℂ} {T : ℕ} {x : List ℕ → ℕ → ℕ → ℂ} (hG : Good I extra)
    (hz : Spec.IsSpectrum T extra z x) (hT : T < I.nlat) :
    ∃ u v, getuvVrt I z = .ok (u, v) ∧
      (Spec.IsGrid I.nlat I.nlon extra u fun e i j => uOn I.rsphere (usedV I T) (x e) (fun _ _ => 0) (I.lat i) (I.lon j)) ∧
      (Spec.IsGrid I.nlat I.nlon extra v fun e i j => vOn I.rsphere (usedV I T) (x e) (fun _ _ => 0) (I.lat i) (I.lon j)) := by
  obtain ⟨yz, e1, h1⟩ := validateSpec_ok (I := I) hz hT
  have hw : waves (specLen T) = T + 1 := waves_specLen T
  obtain ⟨cr, ci, e3, g3, g4⟩ := onedtotwodVrt_closed (nlat := I.nlat) (N := specLen T) (nt := extra.prod)
    (by rw [hw]; omega) I.rsphere (toF yz)
  rw [hw] at g3 g4
  obtain ⟨u, v, u', v', e4, e5, e6, hu, hv⟩ := synthV_ok (I := I) (T := T) (extra := extra)
    (fcr := fun e m n => 2 * I.rsphere / rootL n * (x e m n).re) (fci := fun e m n => 2 * I.rsphere / rootL n * (x e m n).im)
    (coefs_zero T) (coefs_zero T)
    (coefs_of g3 fun e he m n a b c => by
      simp only [vecFactor_eq _ c, adS, pos_eq_index a b, h1 e he m n a b, Option.map_some]; congr 1; ring)
    (coefs_of g4 fun e he m n a b c => by
      simp only [vecFactor_eq _ c, adS, pos_eq_index a b, h1 e he m n a b, Option.map_some]; congr 1; ring)
  refine ⟨u', v', ?_, hu.congr fun e _ i j _ _ => ?_, hv.congr fun e _ i j _ _ => ?_⟩
  · unfold getuvVrt
    rw [e1]
    simp only [bind, Except.bind, pure, Except.pure, e3, inside,
      (hG.run .vrt).2.2.1, raise, e4, e5, e6]
  · simp only [uOn, Complex.zero_re, Complex.zero_im, mul_zero, neg_zero]
  · simp only [vOn, Complex.zero_re, Complex.zero_im, mul_zero, neg_zero]

theorem getgrad_ok {s : NDArr ℂ} {T : ℕ} {x : List ℕ → ℕ → ℕ → ℂ} (hG : Good I extra)
    (hs : Spec.IsSpectrum T extra s x) (hT : T < I.nlat) :
    ∃ u v, getgrad I s = .ok (u, v) ∧
      (Spec.IsGrid I.nlat I.nlon extra u fun e i j => uOn I.rsphere (usedV I T) (fun _ _ => 0)
        (fun m n => ((-(n * (n + 1)) / I.rsphere ^ 2 : ℝ) : ℂ) * x e m n) (I.lat i) (I.lon j)) ∧
      (Spec.IsGrid I.nlat I.nlon extra v fun e i j => vOn I.rsphere (usedV I T) (fun _ _ => 0)
        (fun m n => ((-(n * (n + 1)) / I.rsphere ^ 2 : ℝ) : ℂ) * x e m n) (I.lat i) (I.lon j)) := by
  obtain ⟨y, z, r, e1, e2, e3, hr⟩ := lapspec_ok (I := I) hs hT
  obtain ⟨u, v, e4, hu, hv⟩ := getuvDiv_ok hG hr hT
  refine ⟨u, v, ?_, hu, hv⟩
  unfold getgrad
  rw [e1]
  simp only [bind, Except.bind, e2, inside, e3, e4]

/-! ### Fields -/

theorem mem_usedV {T m n : ℕ} : (m, n) ∈ usedV I T ↔
    m ≤ n ∧ 1 ≤ n ∧ n < I.nlat ∧ m < (I.nlon + 1) / 2 ∧ (n = I.nlat - 1 → m % 2 = 1) ∧ n ≤ T := by
  simp only [usedV, Finset.mem_filter, mem_vModes]; tauto

theorem mem_usedS {T m n : ℕ} : (m, n) ∈ usedS I T ↔ m ≤ n ∧ n < I.nlat ∧ m < I.nlon / 2 + 1 ∧ n ≤ T := by
  simp only [usedS, Finset.mem_filter, mem_sModes]; tauto

theorem usedV_deg (T : ℕ) : ∀ p ∈ usedV I T, 1 ≤ p.2 := by
  rintro ⟨m, n⟩ hp; exact (mem_usedV.mp hp).2.1

theorem on_divergence (a : ℝ) (ha : a ≠ 0) (M : Finset (ℕ × ℕ)) (hM : ∀ p ∈ M, 1 ≤ p.2) (z d : ℕ → ℕ → ℂ) (φ l : ℝ)
    (h : Real.cos φ ≠ 0) : Spec.HasDivergence a (uOn a M z d) (vOn a M z d) φ l (Spec.seriesOn M d φ l) := by
  have := field_divergence M (fun m n => -(2 * a / rootL n) * (d m n).re) (fun m n => -(2 * a / rootL n) * (d m n).im)
    (fun m n => 2 * a / rootL n * (z m n).re) (fun m n => 2 * a / rootL n * (z m n).im) a φ l hM h ha
  rw [← scalarField_series]
  have e : scalarField M (fun m n => 2 * (d m n).re) (fun m n => 2 * (d m n).im) φ l
      = scalarField M (fun m n => -(rootL n / a) * (-(2 * a / rootL n) * (d m n).re)) (fun m n => -(rootL n / a) * (-(2 * a / rootL n) * (d m n).im)) φ l := by
    unfold scalarField
    refine Finset.sum_congr rfl fun p hp => ?_
    have := (rootL_pos (hM p hp)).ne'
    field_simp
  rw [e]
  exact this

theorem on_vorticity (a : ℝ) (ha : a ≠ 0) (M : Finset (ℕ × ℕ)) (hM : ∀ p ∈ M, 1 ≤ p.2) (z d : ℕ → ℕ → ℂ) (φ l : ℝ)
    (h : Real.cos φ ≠ 0) : Spec.HasVorticity a (uOn a M z d) (vOn a M z d) φ l (Spec.seriesOn M z φ l) := by
  have := field_vorticity M (fun m n => -(2 * a / rootL n) * (d m n).re) (fun m n => -(2 * a / rootL n) * (d m n).im)
    (fun m n => 2 * a / rootL n * (z m n).re) (fun m n => 2 * a / rootL n * (z m n).im) a φ l hM h ha
  rw [← scalarField_series]
  have e : scalarField M (fun m n => 2 * (z m n).re) (fun m n => 2 * (z m n).im) φ l
      = scalarField M (fun m n => rootL n / a * (2 * a / rootL n * (z m n).re)) (fun m n => rootL n / a * (2 * a / rootL n * (z m n).im)) φ l := by
    unfold scalarField
    refine Finset.sum_congr rfl fun p hp => ?_
    have := (rootL_pos (hM p hp)).ne'
    field_simp
  rw [e]
  exact this

theorem uField_congr {M : Finset (ℕ × ℕ)} {br bi cr ci br' bi' cr' ci' : ℕ → ℕ → ℝ} {φ l : ℝ}
    (h : ∀ p ∈ M, br p.1 p.2 = br' p.1 p.2 ∧ bi p.1 p.2 = bi' p.1 p.2 ∧ cr p.1 p.2 = cr' p.1 p.2 ∧ ci p.1 p.2 = ci' p.1 p.2) :
    uField M br bi cr ci φ l = uField M br' bi' cr' ci' φ l ∧ vField M br bi cr ci φ l = vField M br' bi' cr' ci' φ l := by
  unfold uField vField eastField colatField
  constructor
  · refine Finset.sum_congr rfl fun p hp => ?_
    obtain ⟨a, b, c, d⟩ := h p hp
    rw [a, b, c, d]
  · congr 1
    refine Finset.sum_congr rfl fun p hp => ?_
    obtain ⟨a, b, c, d⟩ := h p hp
    rw [a, b, c, d]

theorem on_gradient (a : ℝ) (ha : a ≠ 0) (M : Finset (ℕ × ℕ)) (hM : ∀ p ∈ M, 1 ≤ p.2) (x : ℕ → ℕ → ℂ) (φ l : ℝ)
    (h : Real.cos φ ≠ 0) : Spec.HasGradient a (Spec.seriesOn M x) φ l
      (uOn a M (fun _ _ => 0) (fun m n => ((-(n * (n + 1)) / a ^ 2 : ℝ) : ℂ) * x m n) φ l)
      (vOn a M (fun _ _ => 0) (fun m n => ((-(n * (n + 1)) / a ^ 2 : ℝ) : ℂ) * x m n) φ l) := by
  have key := field_gradient M a φ l (fun m n => 2 * (x m n).re) (fun m n => 2 * (x m n).im) hM h ha
  have e : Spec.seriesOn M x = scalarField M (fun m n => 2 * (x m n).re) (fun m n => 2 * (x m n).im) := by
    funext φ l; rw [scalarField_series]
  have c : ∀ p ∈ M, ∀ y : ℝ, -(2 * a / rootL p.2) * (-(p.2 * (p.2 + 1)) / a ^ 2 * y) = rootL p.2 / a * (2 * y) := by
    intro p hp y
    have h1 := (rootL_pos (hM p hp)).ne'
    rw [← rootL_sq]
    field_simp
  rw [e]
  unfold uOn vOn
  have hc := uField_congr (M := M) (φ := φ) (l := l)
    (br := fun m n => -(2 * a / rootL n) * (((-(n * (n + 1)) / a ^ 2 : ℝ) : ℂ) * x m n).re)
    (bi := fun m n => -(2 * a / rootL n) * (((-(n * (n + 1)) / a ^ 2 : ℝ) : ℂ) * x m n).im)
    (cr := fun m n => 2 * a / rootL n * (0 : ℂ).re) (ci := fun m n => 2 * a / rootL n * (0 : ℂ).im)
    (br' := fun m n => rootL n / a * (2 * (x m n).re)) (bi' := fun m n => rootL n / a * (2 * (x m n).im))
    (cr' := fun _ _ => 0) (ci' := fun _ _ => 0) (by
      intro p hp
      simp only [Complex.re_ofReal_mul, Complex.im_ofReal_mul, c p hp, Complex.zero_re, Complex.zero_im, mul_zero, and_self])
  rw [hc.1, hc.2]
  exact key

/-- Winds add. -/
theorem on_add (a : ℝ) (M : Finset (ℕ × ℕ)) (z d z' d' : ℕ → ℕ → ℂ) (φ l : ℝ) :
    uOn a M (fun m n => z m n + z' m n) (fun m n => d m n + d' m n) φ l = uOn a M z d φ l + uOn a M z' d' φ l ∧
    vOn a M (fun m n => z m n + z' m n) (fun m n => d m n + d' m n) φ l = vOn a M z d φ l + vOn a M z' d' φ l := by
  unfold uOn vOn uField vField eastField colatField
  simp only [Complex.add_re, Complex.add_im]
  constructor
  · rw [← Finset.sum_add_distrib]
    refine Finset.sum_congr rfl fun p _ => ?_
    ring
  · rw [← neg_add, ← Finset.sum_add_distrib]
    congr 1
    refine Finset.sum_congr rfl fun p _ => ?_
    ring

end Skyborn.Sphere
