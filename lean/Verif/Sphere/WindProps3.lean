/-
Exactness of the `VectorWind` diagnostics for band-limited winds and fields, where the analyses are exact.
-/
import Verif.Sphere.WindProps2

namespace Skyborn.Sphere

open Skyborn Skyborn.Spectral

variable {I : Inst} {extra : List ℕ}

/-! ### C154: band-limited winds -/

/-- A wind with vorticity and divergence of degree at most `T`: `Verif.Sphere.VecLemmas` proves that these are
its vorticity and divergence (`on_vorticity`, `on_divergence`). -/
def Spec.BandWind (a : ℝ) (T : ℕ) (U V : ℝ → ℝ → ℝ) : Prop :=
  ∃ z d : ℕ → ℕ → ℂ, Spec.RealMean z ∧ Spec.RealMean d ∧ U = uOn a (Spec.modes T) z d ∧ V = vOn a (Spec.modes T) z d

/-- Coefficients restricted to modes. -/
noncomputable def onlyOn (M : Finset (ℕ × ℕ)) (z : ℕ → ℕ → ℂ) (m n : ℕ) : ℂ := if (m, n) ∈ M then z m n else 0

theorem modes_sub {T T' : ℕ} (h1 : T + 2 ≤ I.nlat) (h2 : 2 * T < I.nlon) (h3 : T ≤ T') : Spec.modes T ⊆ usedV I T' := by
  rintro ⟨m, n⟩ hp
  rw [mem_modes] at hp
  rw [mem_usedV]
  omega

theorem usedV_sub (T : ℕ) : usedV I T ⊆ vModes I.nlat I.nlon := Finset.filter_subset _ _

theorem on_onlyOn (a : ℝ) {M N : Finset (ℕ × ℕ)} (h : M ⊆ N) (z d : ℕ → ℕ → ℂ) (φ l : ℝ) :
    uOn a N (onlyOn M z) (onlyOn M d) φ l = uOn a M z d φ l ∧ vOn a N (onlyOn M z) (onlyOn M d) φ l = vOn a M z d φ l := by
  unfold uOn vOn uField vField eastField colatField
  constructor
  · symm
    refine Finset.sum_subset_zero_on_sdiff h ?_ ?_
    · rintro ⟨m, n⟩ hp
      have : (m, n) ∉ M := (Finset.mem_sdiff.mp hp).2
      simp [onlyOn, this]
    · rintro ⟨m, n⟩ hp
      simp [onlyOn, hp]
  · congr 1
    symm
    refine Finset.sum_subset_zero_on_sdiff h ?_ ?_
    · rintro ⟨m, n⟩ hp
      have : (m, n) ∉ M := (Finset.mem_sdiff.mp hp).2
      simp [onlyOn, this]
    · rintro ⟨m, n⟩ hp
      simp [onlyOn, hp]

theorem cut_sampled {g : NDArr ℝ} {F : List ℕ → ℝ → ℝ → ℝ} (h : Spec.Samples I extra g F) {e : List ℕ} (he : InB extra e) :
    Spec.cut I.nlat I.nlon g e = Spec.sampled I (F e) := by
  funext i j
  unfold Spec.cut Spec.sampled
  split_ifs with hc
  · exact h.2 e he i j hc.1 hc.2
  · rfl

/-- The spectra the analysis finds are those of the wind. -/
theorem exact_spectra {K : ℕ} (hE : Spec.Exact I K) (hr : I.rsphere ≠ 0) {u v : NDArr ℝ} {U V : List ℕ → ℝ → ℝ → ℝ}
    (hu : Spec.Samples I extra u U) (hv : Spec.Samples I extra v V) {e : List ℕ} (he : InB extra e) {z d : ℕ → ℕ → ℂ}
    (hz : Spec.OnVector I.nlat I.nlon z) (hd : Spec.OnVector I.nlat I.nlon d) (mz : Spec.RealMean z) (md : Spec.RealMean d)
    (hU : U e = uOn I.rsphere (vModes I.nlat I.nlon) z d) (hV : V e = vOn I.rsphere (vModes I.nlat I.nlon) z d) :
    (vrtOf I fun m n => (I.anaV (southOf I v e) (Spec.cut I.nlat I.nlon u e) m n).2.2) = z ∧
    (divOf I fun m n => ((I.anaV (southOf I v e) (Spec.cut I.nlat I.nlon u e) m n).1,
      (I.anaV (southOf I v e) (Spec.cut I.nlat I.nlon u e) m n).2.1)) = d := by
  have key := hE.vector (fun m n => -(2 * I.rsphere / rootL n) * (d m n).re) (fun m n => -(2 * I.rsphere / rootL n) * (d m n).im)
    (fun m n => 2 * I.rsphere / rootL n * (z m n).re) (fun m n => 2 * I.rsphere / rootL n * (z m n).im)
    (fun n => by simp only [mz n, md n, mul_zero, and_self])
  have e1 : southOf I v e = Spec.sampled I fun φ => colatField (vModes I.nlat I.nlon)
      (fun m n => -(2 * I.rsphere / rootL n) * (d m n).re) (fun m n => -(2 * I.rsphere / rootL n) * (d m n).im)
      (fun m n => 2 * I.rsphere / rootL n * (z m n).re) (fun m n => 2 * I.rsphere / rootL n * (z m n).im) (Real.pi / 2 - φ) := by
    funext i j
    unfold southOf
    rw [cut_sampled hv he, hV]
    unfold Spec.sampled vOn vField
    split_ifs
    · rw [neg_neg]
    · rw [neg_zero]
  have e2 : Spec.cut I.nlat I.nlon u e = Spec.sampled I fun φ => eastField (vModes I.nlat I.nlon)
      (fun m n => -(2 * I.rsphere / rootL n) * (d m n).re) (fun m n => -(2 * I.rsphere / rootL n) * (d m n).im)
      (fun m n => 2 * I.rsphere / rootL n * (z m n).re) (fun m n => 2 * I.rsphere / rootL n * (z m n).im) (Real.pi / 2 - φ) := by
    rw [cut_sampled hu he, hU]
    rfl
  rw [← e1, ← e2] at key
  have fac : ∀ m n, (m, n) ∈ vModes I.nlat I.nlon → ∀ y : ℝ, rootL n / I.rsphere / 2 * (2 * I.rsphere / rootL n * y) = y := by
    intro m n hp y
    have := (rootL_pos (mem_vModes.mp hp).2.1).ne'
    field_simp
  constructor
  · funext m n
    by_cases hp : (m, n) ∈ vModes I.nlat I.nlon
    · unfold vrtOf onModes
      rw [if_pos hp, if_pos hp]
      simp only [key m n hp]
      apply Complex.ext
      · rw [Complex.re_ofReal_mul]; exact fac m n hp _
      · rw [Complex.im_ofReal_mul]; exact fac m n hp _
    · rw [onVector_vrt _ m n hp, hz m n hp]
  · funext m n
    by_cases hp : (m, n) ∈ vModes I.nlat I.nlon
    · unfold divOf onModes
      rw [if_pos hp, if_pos hp]
      simp only [key m n hp]
      apply Complex.ext
      · rw [Complex.re_ofReal_mul]; have := fac m n hp (d m n).re; linarith
      · rw [Complex.im_ofReal_mul]; have := fac m n hp (d m n).im; linarith
    · rw [onVector_div _ m n hp, hd m n hp]

/-- For a band-limited wind the diagnostics are exact, at every truncation at least the degree of the wind: `vrtdiv`
returns its vorticity and divergence, `helmholtz` its irrotational and non-divergent parts, which add up to it, and
`getuv` of its spectra returns it. -/
theorem C154_exact_partial (hG : Good I (extra ++ [2])) {K : ℕ} (hE : Spec.Exact I K) {u v : NDArr ℝ}
    {U V : List ℕ → ℝ → ℝ → ℝ} {t : Option ℤ} {T T' : ℕ} (hu : Spec.Samples I extra u U) (hv : Spec.Samples I extra v V)
    (hW : ∀ e, Spec.BandWind I.rsphere T (U e) (V e)) (h1 : T + 2 ≤ I.nlat) (h2 : 2 * T < I.nlon)
    (ht : Spec.Truncation I.nlat t T') (hTT : T ≤ T') :
    ∃ Z D Uc Vc Up Vp : List ℕ → ℝ → ℝ → ℝ, ∃ z d uc vc up vp ut vt, ∃ zs ds,
      (vrtdiv I u v t = .ok (z, d) ∧ Spec.Samples I extra z Z ∧ Spec.Samples I extra d D) ∧
      (helmholtz I u v t = .ok (uc, vc, up, vp) ∧ Spec.Samples I extra uc Uc ∧ Spec.Samples I extra vc Vc ∧
        Spec.Samples I extra up Up ∧ Spec.Samples I extra vp Vp) ∧
      (getvrtdivspec I u v t = .ok (zs, ds) ∧ getuv I zs ds = .ok (ut, vt) ∧ ut.Eqv u ∧ vt.Eqv v) ∧
      ∀ e, InB extra e → ∀ φ l, U e φ l = Uc e φ l + Up e φ l ∧ V e φ l = Vc e φ l + Vp e φ l ∧
        (Real.cos φ ≠ 0 →
          Spec.HasVorticity I.rsphere (U e) (V e) φ l (Z e φ l) ∧ Spec.HasDivergence I.rsphere (U e) (V e) φ l (D e φ l) ∧
          Spec.HasVorticity I.rsphere (Uc e) (Vc e) φ l 0 ∧ Spec.HasDivergence I.rsphere (Up e) (Vp e) φ l 0) := by
  choose z d mz md hU hV using hW
  have hG1 := hG.of_pair
  have ha := hG.pos.ne'
  have hT := truncation_lt hG1 ht
  set z' : List ℕ → ℕ → ℕ → ℂ := fun e => onlyOn (Spec.modes T) (z e) with hz'
  set d' : List ℕ → ℕ → ℕ → ℂ := fun e => onlyOn (Spec.modes T) (d e) with hd'
  have hsub := modes_sub (I := I) h1 h2 hTT
  have onV : ∀ (x : List ℕ → ℕ → ℕ → ℂ) (e : List ℕ), Spec.OnVector I.nlat I.nlon (onlyOn (Spec.modes T) (x e)) := by
    intro x e m n hp
    unfold onlyOn
    rw [if_neg]
    intro hc
    exact hp (usedV_sub T' (hsub hc))
  have rM : ∀ x : List ℕ → ℕ → ℕ → ℂ, (∀ e, Spec.RealMean (x e)) → ∀ e, Spec.RealMean (onlyOn (Spec.modes T) (x e)) := by
    intro x hx e n
    unfold onlyOn
    split_ifs
    · exact hx e n
    · rfl
  have hUV : ∀ e, U e = uOn I.rsphere (usedV I T') (z' e) (d' e) ∧ V e = vOn I.rsphere (usedV I T') (z' e) (d' e) := by
    intro e
    constructor
    · rw [hU e]; funext φ l; exact (on_onlyOn _ hsub _ _ φ l).1.symm
    · rw [hV e]; funext φ l; exact (on_onlyOn _ hsub _ _ φ l).2.symm
  have hUV' : ∀ e, U e = uOn I.rsphere (vModes I.nlat I.nlon) (z' e) (d' e) ∧ V e = vOn I.rsphere (vModes I.nlat I.nlon) (z' e) (d' e) := by
    intro e
    constructor
    · rw [hU e]; funext φ l; exact (on_onlyOn _ (hsub.trans (usedV_sub T')) _ _ φ l).1.symm
    · rw [hV e]; funext φ l; exact (on_onlyOn _ (hsub.trans (usedV_sub T')) _ _ φ l).2.symm
  obtain ⟨zs, ds, e1, hz, hd⟩ := getvrtdivspec_ok hG1 hu.1 hv.1 ht
  have hz2 : Spec.IsSpectrum T' extra zs z' := hz.congr fun e he m n _ _ => by
    rw [(exact_spectra hE ha hu hv he (onV z e) (onV d e) (rM z mz e) (rM d md e) (hUV' e).1 (hUV' e).2).1]
  have hd2 : Spec.IsSpectrum T' extra ds d' := hd.congr fun e he m n _ _ => by
    rw [(exact_spectra hE ha hu hv he (onV z e) (onV d e) (rM z mz e) (rM d md e) (hUV' e).1 (hUV' e).2).2]
  obtain ⟨zg, dg, e2, sz, sd⟩ := spectogrdPair_ok hG hz2 hd2 hT
  obtain ⟨px, vp, up, e3, e4, hp, svp, sup⟩ := grad_invlap_ok hG1 hz2 hT
  obtain ⟨cx, uc, vc, e5, e6, hc, suc, svc⟩ := grad_invlap_ok hG1 hd2 hT
  obtain ⟨ut, vt, e8, sut, svt⟩ := getuv_ok hG1 hz2 hd2 hT
  refine ⟨fun e => Spec.seriesOn (usedS I T') (z' e), fun e => Spec.seriesOn (usedS I T') (d' e),
    fun e => uOn I.rsphere (usedV I T') (fun _ _ => 0) (d' e), fun e => vOn I.rsphere (usedV I T') (fun _ _ => 0) (d' e),
    fun e => uOn I.rsphere (usedV I T') (z' e) (fun _ _ => 0), fun e => vOn I.rsphere (usedV I T') (z' e) (fun _ _ => 0),
    zg, dg, uc, vc, negG up, vp, ut, vt, zs, ds, ⟨?_, sz, sd⟩, ⟨?_, suc, svc, ?_, ?_⟩, ⟨e1, e8, ?_, ?_⟩, ?_⟩
  · unfold vrtdiv
    rw [e1]
    simp only [bind, Except.bind, e2]
  · unfold helmholtz
    rw [e1]
    simp only [bind, Except.bind, e3, e5, e4, e6, pure, Except.pure]
  · exact (isGrid_neg sup).congr fun e _ i j _ _ => by rw [(on_rot _ _ _ _ _).2, neg_neg]
  · exact svp.congr fun e _ i j _ _ => (on_rot _ _ _ _ _).1
  · refine isGrid_eqv sut (hu.congr fun e _ i j _ _ => ?_)
    rw [(hUV e).1]
  · refine isGrid_eqv svt (hv.congr fun e _ i j _ _ => ?_)
    rw [(hUV e).2]
  · intro e _ φ l
    have add := on_add I.rsphere (usedV I T') (fun _ _ => 0) (d' e) (z' e) (fun _ _ => 0) φ l
    simp only [zero_add, add_zero] at add
    have gh := helmholtz_on (I := I) ha T' (onV z e) (onV d e) φ l
    refine ⟨by rw [(hUV e).1]; exact add.1, by rw [(hUV e).2]; exact add.2, fun hc => ⟨?_, ?_, (gh hc).1, (gh hc).2.2.1⟩⟩
    · rw [(hUV e).1, (hUV e).2]
      show Spec.HasVorticity _ _ _ φ l (Spec.seriesOn (usedS I T') (onlyOn (Spec.modes T) (z e)) φ l)
      rw [series_onVector (onV z e)]
      exact on_vorticity _ ha _ (usedV_deg T') _ _ φ l hc
    · rw [(hUV e).1, (hUV e).2]
      show Spec.HasDivergence _ _ _ φ l (Spec.seriesOn (usedS I T') (onlyOn (Spec.modes T) (d e)) φ l)
      rw [series_onVector (onV d e)]
      exact on_divergence _ ha _ (usedV_deg T') _ _ φ l hc

/-! ### C158: scalar fields -/

theorem sampled_ext {F G : ℝ → ℝ → ℝ} (h : ∀ i < I.nlat, ∀ j < I.nlon, F (I.lat i) (I.lon j) = G (I.lat i) (I.lon j)) :
    Spec.sampled I F = Spec.sampled I G := by
  funext i j
  unfold Spec.sampled
  split_ifs with hc
  · exact h i hc.1 j hc.2
  · rfl

/-- Series over the triangle as series over the modes of the scalar transforms. -/
theorem series_as {T : ℕ} (h1 : T < I.nlat) (h2 : 2 * T < I.nlon) (x : ℕ → ℕ → ℂ) (φ l : ℝ) :
    Spec.series T x φ l = Spec.seriesOn (sModes I.nlat I.nlon) (onlyOn (Spec.triangle T) x) φ l := by
  unfold Spec.series Spec.seriesOn
  refine Finset.sum_subset_zero_on_sdiff ?_ ?_ ?_
  · rintro ⟨m, n⟩ hp
    rw [mem_triangle] at hp
    rw [mem_sModes]
    omega
  · rintro ⟨m, n⟩ hp
    have : (m, n) ∉ Spec.triangle T := (Finset.mem_sdiff.mp hp).2
    simp [onlyOn, this]
  · rintro ⟨m, n⟩ hp
    simp only [onlyOn, hp, if_true]

/-- Series with the imaginary parts of the zonal coefficients dropped. -/
noncomputable def realMean (x : ℕ → ℕ → ℂ) : ℕ → ℕ → ℂ := fun m n => if m = 0 then ((x m n).re : ℂ) else x m n

theorem series_realMean (M : Finset (ℕ × ℕ)) (x : ℕ → ℕ → ℂ) (φ l : ℝ) :
    Spec.seriesOn M (realMean x) φ l = Spec.seriesOn M x φ l := by
  unfold Spec.seriesOn
  refine Finset.sum_congr rfl ?_
  rintro ⟨m, n⟩ _
  unfold realMean
  simp only
  by_cases hm : m = 0
  · subst hm; simp
  · simp [hm]

/-- The spectrum `grdtospec` finds of the values of a band-limited field. -/
theorem grdtospec_exact (hG : Good I extra) {K T T' : ℕ} (hE : Spec.Exact I K) (hK : T ≤ K) (h1 : T < I.nlat) (h2 : 2 * T < I.nlon)
    {g : NDArr ℝ} {x : List ℕ → ℕ → ℕ → ℂ} (hg : Spec.Samples I extra g fun e => Spec.series T (x e)) {t : Option ℤ}
    (ht : Spec.Truncation I.nlat t T') (h3 : T' ≤ I.nlon / 2) :
    ∃ s, grdtospec I g t = .ok s ∧ Spec.IsSpectrum T' extra s fun e => onlyOn (Spec.triangle T) (realMean (x e)) := by
  obtain ⟨s, e1, hs⟩ := grdtospec_ok hG hg.1 ht h3
  have hT' := truncation_lt hG ht
  refine ⟨s, e1, hs.congr fun e he m n hmn hn => ?_⟩
  set y := onlyOn (Spec.triangle T) (realMean (x e)) with hy
  have hb : Spec.Band K I.nlon y := by
    intro a b hc
    rw [hy]; unfold onlyOn
    rw [if_neg]
    rw [mem_triangle]
    omega
  have hm : Spec.RealMean y := by
    intro n
    rw [hy]; unfold onlyOn realMean
    split_ifs with _ h0
    · exact Complex.ofReal_im _
    · exact absurd rfl h0
    · rfl
  have hp : (m, n) ∈ sModes I.nlat I.nlon := by rw [mem_sModes]; omega
  have key := hE.scalar y hb hm m n hp
  have e2 : Spec.cut I.nlat I.nlon g e = Spec.sampled I (Spec.seriesOn (sModes I.nlat I.nlon) y) := by
    rw [cut_sampled hg he]
    refine sampled_ext fun i _ j _ => ?_
    rw [hy, ← series_as h1 h2]
    exact (series_realMean _ _ _ _).symm
  rw [e2, key]
  apply Complex.ext
  · rw [Complex.re_ofReal_mul]; show (0.5 : ℝ) * (2 * (y m n).re) = (y m n).re; norm_num; ring
  · rw [Complex.im_ofReal_mul]; show (0.5 : ℝ) * (2 * (y m n).im) = (y m n).im; norm_num; ring

/-- `grdtospec` is the inverse of `spectogrd` on spectra that leave room for the grid. -/
theorem C158_roundtrip_partial (hG : Good I extra) {K T : ℕ} (hE : Spec.Exact I K) (hK : T ≤ K) (h1 : T < I.nlat) (h2 : 2 * T < I.nlon)
    {s : NDArr ℂ} {x : List ℕ → ℕ → ℕ → ℂ} (hs : Spec.IsSpectrum T extra s x) (hr : ∀ e, Spec.RealMean (x e)) :
    ∃ g s', spectogrd I s = .ok g ∧ grdtospec I g (some T) = .ok s' ∧ s'.shape = s.shape ∧
      ∀ e, InB extra e → ∀ m n, m ≤ n → n ≤ T → s'.get (Spectral.Spec.index T m n :: e) = s.get (Spectral.Spec.index T m n :: e) := by
  obtain ⟨g, e1, hg⟩ := spectogrd_ok hG hs h1
  rw [usedS_eq h1 (by omega)] at hg
  obtain ⟨s', e2, hs'⟩ := grdtospec_exact hG hE hK h1 h2 (x := x) hg (t := some T) (T' := T) (Or.inr ⟨rfl, h1⟩) (by omega)
  refine ⟨g, s', e1, e2, hs'.1.trans hs.1.symm, fun e he m n hm hn => ?_⟩
  rw [hs'.2 e he m n hm hn, hs.2 e he m n hm hn]
  show onlyOn (Spec.triangle T) (realMean (x e)) m n = x e m n
  unfold onlyOn realMean
  rw [if_pos (mem_triangle.mpr ⟨hm, hn⟩)]
  split_ifs with h0
  · subst h0
    apply Complex.ext
    · simp
    · simp [hr e n]
  · rfl

/-- `truncate` leaves band-limited fields unchanged. -/
theorem C158_truncate_partial (hG : Good I extra) {K T T' : ℕ} (hE : Spec.Exact I K) (hK : T ≤ K) (h1 : T < I.nlat) (h2 : 2 * T < I.nlon)
    {g : NDArr ℝ} {x : List ℕ → ℕ → ℕ → ℂ} (hg : Spec.Samples I extra g fun e => Spec.series T (x e)) {t : Option ℤ}
    (ht : Spec.Truncation I.nlat t T') (h3 : T' ≤ I.nlon / 2) (hTT : T ≤ T') :
    ∃ g', truncate I g t = .ok g' ∧ g'.Eqv g := by
  obtain ⟨s, e1, hs⟩ := grdtospec_exact hG hE hK h1 h2 hg ht h3
  have hT' := truncation_lt hG ht
  obtain ⟨g', e2, hg'⟩ := spectogrd_ok hG hs hT'
  refine ⟨g', ?_, isGrid_eqv (hg'.congr fun e he i j _ _ => ?_) hg⟩
  · unfold truncate
    rw [e1]
    simp only [bind, Except.bind, e2]
  · rw [usedS_eq hT' h3]
    refine Eq.trans ?_ (series_realMean (Spec.triangle T) (x e) (I.lat i) (I.lon j))
    unfold Spec.seriesOn
    symm
    refine Finset.sum_subset_zero_on_sdiff ?_ ?_ ?_
    · rintro ⟨m, n⟩ hp
      rw [mem_triangle] at hp ⊢
      omega
    · rintro ⟨m, n⟩ hp
      have : (m, n) ∉ Spec.triangle T := (Finset.mem_sdiff.mp hp).2
      simp [onlyOn, this]
    · rintro ⟨m, n⟩ hp
      simp only [onlyOn, hp, if_true]

/-- Truncating twice is truncating once. -/
theorem C158_idempotent_partial (hG : Good I extra) {K T : ℕ} (hE : Spec.Exact I K) (hK : T ≤ K) (h2 : 2 * T < I.nlon)
    {g : NDArr ℝ} (hg : g.shape = I.nlat :: I.nlon :: extra) {t : Option ℤ} (ht : Spec.Truncation I.nlat t T) :
    ∃ g' g'', truncate I g t = .ok g' ∧ truncate I g' t = .ok g'' ∧ g''.Eqv g' := by
  have hT := truncation_lt hG ht
  obtain ⟨s, e1, hs⟩ := grdtospec_ok hG hg ht (by omega)
  obtain ⟨g', e2, hg'⟩ := spectogrd_ok hG hs hT
  rw [usedS_eq hT (by omega)] at hg'
  obtain ⟨g'', e3, he⟩ := C158_truncate_partial hG hE hK hT h2 (x := fun e m n =>
    ((0.5 : ℝ) : ℂ) * (⟨(I.anaS (Spec.cut I.nlat I.nlon g e) m n).1, (I.anaS (Spec.cut I.nlat I.nlon g e) m n).2⟩ : ℂ)) hg' ht (by omega) (le_refl T)
  refine ⟨g', g'', ?_, e3, he⟩
  unfold truncate
  rw [e1]
  simp only [bind, Except.bind, e2]

/-- `gradient` of a band-limited field is its gradient. -/
theorem C152_gradient_partial (hG : Good I extra) {K T T' : ℕ} (hE : Spec.Exact I K) (hK : T ≤ K) (h1 : T + 2 ≤ I.nlat) (h2 : 2 * T < I.nlon)
    {g : NDArr ℝ} {x : List ℕ → ℕ → ℕ → ℂ} (hg : Spec.Samples I extra g fun e => Spec.series T (x e)) {t : Option ℤ}
    (ht : Spec.Truncation I.nlat t T') (h3 : T' ≤ I.nlon / 2) (hTT : T ≤ T') :
    ∃ u v, ∃ U V : List ℕ → ℝ → ℝ → ℝ, gradient I g t = .ok (u, v) ∧ Spec.Samples I extra u U ∧ Spec.Samples I extra v V ∧
      ∀ e φ l, Real.cos φ ≠ 0 → Spec.HasGradient I.rsphere (Spec.series T (x e)) φ l (U e φ l) (V e φ l) := by
  obtain ⟨s, e1, hs⟩ := grdtospec_exact hG hE hK (by omega) h2 hg ht h3
  have hT' := truncation_lt hG ht
  obtain ⟨u, v, e2, hu, hv⟩ := getgrad_ok hG hs hT'
  refine ⟨u, v, _, _, ?_, hu, hv, fun e φ l hc => ?_⟩
  · unfold gradient
    rw [e1]
    simp only [bind, Except.bind, e2]
  · have gr := on_gradient I.rsphere hG.pos.ne' (usedV I T') (usedV_deg T') (onlyOn (Spec.triangle T) (realMean (x e))) φ l hc
    -- the series over the modes used and the mean
    have eq : Spec.series T (x e) = fun φ l => Spec.seriesOn (usedV I T') (onlyOn (Spec.triangle T) (realMean (x e))) φ l
        + Spec.seriesOn {(0, 0)} (realMean (x e)) 0 0 := by
      funext φ l
      have a1 : Spec.seriesOn (usedV I T') (onlyOn (Spec.triangle T) (realMean (x e))) φ l
          = Spec.seriesOn (Spec.modes T) (realMean (x e)) φ l := by
        unfold Spec.seriesOn
        symm
        refine Finset.sum_subset_zero_on_sdiff (modes_sub h1 h2 hTT) ?_ ?_
        · rintro ⟨m, n⟩ hp
          have hp := Finset.mem_sdiff.mp hp
          have : (m, n) ∉ Spec.triangle T := by
            intro hc
            refine hp.2 ?_
            rw [mem_triangle] at hc
            rw [mem_modes]
            exact ⟨hc.1, hc.2, usedV_deg T' _ hp.1⟩
          simp [onlyOn, this]
        · rintro ⟨m, n⟩ hp
          have : (m, n) ∈ Spec.triangle T := (Finset.mem_filter.mp hp).1
          simp only [onlyOn, this, if_true]
      rw [a1]
      show Spec.seriesOn (Spec.triangle T) (x e) φ l = _
      rw [← series_realMean]
      unfold Spec.seriesOn Spec.modes
      rw [← Finset.sum_filter_add_sum_filter_not (Spec.triangle T) (fun p => 1 ≤ p.2)]
      congr 1
      have : (Spec.triangle T).filter (fun p => ¬ 1 ≤ p.2) = {(0, 0)} := by
        ext ⟨m, n⟩
        simp only [Finset.mem_filter, mem_triangle, Finset.mem_singleton, Prod.mk.injEq]
        omega
      rw [this, Finset.sum_singleton, Finset.sum_singleton]
      have hp : ∀ θ, pbar 0 0 θ = norm 0 0 := by intro θ; unfold pbar rod; simp
      simp [hp]
    obtain ⟨dl, dφ, g1, g2, g3, g4⟩ := gr
    rw [eq]
    exact ⟨dl, dφ, g1.add_const _, g2.add_const _, g3, g4⟩

/-- Non-vacuity: a 6 by 12 regular grid with exact analyses up to degree 4, and a wind of degree 4. -/
example : ∃ I : Inst, Good I ([3] ++ [2]) ∧ Spec.Exact I 4 ∧ 4 + 2 ≤ I.nlat ∧ 2 * 4 < I.nlon ∧
    Spec.BandWind I.rsphere 4 (uOn I.rsphere (Spec.modes 4) (Spec.single 1 2 Complex.I) (Spec.single 2 4 1))
      (vOn I.rsphere (Spec.modes 4) (Spec.single 1 2 Complex.I) (Spec.single 2 4 1)) := by
  set J : Inst := ⟨6, 12, 1, .regular, .stored, fun i => Real.pi / 2 - i * (Real.pi / (((6 : ℕ) : ℝ) - 1)), fun _ _ _ => 0, fun _ _ _ _ => 0,
    fun _ _ _ _ => 0, fun _ _ _ _ => 0⟩ with hJ
  have hreg : Spec.Regular J := ⟨rfl, fun _ _ => rfl⟩
  have hrows := hreg.rows (by rw [hJ]; norm_num)
  have hc := card_interior hrows
  obtain ⟨I, h1, h2, h3, h4, h5, h6, hE⟩ := exact_exists J hrows (by rw [hJ]; norm_num) (by rw [hJ]; norm_num) (K := 4)
    (by rw [hJ]; norm_num) (by simp only [hJ] at hc ⊢; omega)
  refine ⟨I, ⟨by rw [h1, hJ]; norm_num, by rw [h2, hJ]; norm_num, by rw [h3, hJ]; norm_num, by norm_num, by rw [h1, h2, hJ]; norm_num⟩, hE,
    by rw [h1, hJ], by rw [h2, hJ]; norm_num, _, _, ?_, ?_, rfl, rfl⟩
  · intro n; unfold Spec.single; simp
  · intro n; unfold Spec.single; simp

end Skyborn.Sphere
