/-
Consistency of the `VectorWind` diagnostics among each other, for every wind.
-/
import Verif.Sphere.WindProps

namespace Skyborn.Sphere

open Skyborn Skyborn.Spectral

variable {I : Inst} {extra : List ℕ}

/-! ### C155: vorticity, divergence, potentials and the two parts of the wind -/

/-- The relations of a Helmholtz decomposition on the sphere of radius `a`: vorticity `Z`, divergence `D`, streamfunction
`P`, velocity potential `X`, irrotational part `(Uc, Vc)`, non-divergent part `(Up, Vp)`. -/
def Spec.Helmholtz (a : ℝ) (Z D P X Uc Vc Up Vp : ℝ → ℝ → ℝ) : Prop :=
  ∀ φ l, Real.cos φ ≠ 0 →
    Spec.HasVorticity a Uc Vc φ l 0 ∧ Spec.HasDivergence a Uc Vc φ l (D φ l) ∧
    Spec.HasDivergence a Up Vp φ l 0 ∧ Spec.HasVorticity a Up Vp φ l (Z φ l) ∧
    Spec.HasGradient a X φ l (Uc φ l) (Vc φ l) ∧ Spec.HasGradient a P φ l (Vp φ l) (-(Up φ l))

theorem series_zero (M : Finset (ℕ × ℕ)) (φ l : ℝ) : Spec.seriesOn M (fun _ _ => 0) φ l = 0 := by
  unfold Spec.seriesOn; simp

theorem helmholtz_on (ha : I.rsphere ≠ 0) (T : ℕ) {z d : ℕ → ℕ → ℂ} (hz : Spec.OnVector I.nlat I.nlon z)
    (hd : Spec.OnVector I.nlat I.nlon d) :
    Spec.Helmholtz I.rsphere (Spec.seriesOn (usedS I T) z) (Spec.seriesOn (usedS I T) d)
      (Spec.seriesOn (usedS I T) fun m n => if n = 0 then 0 else ((-(I.rsphere ^ 2) / (n * (n + 1)) : ℝ) : ℂ) * z m n)
      (Spec.seriesOn (usedS I T) fun m n => if n = 0 then 0 else ((-(I.rsphere ^ 2) / (n * (n + 1)) : ℝ) : ℂ) * d m n)
      (uOn I.rsphere (usedV I T) (fun _ _ => 0) d) (vOn I.rsphere (usedV I T) (fun _ _ => 0) d)
      (uOn I.rsphere (usedV I T) z fun _ _ => 0) (vOn I.rsphere (usedV I T) z fun _ _ => 0) := by
  intro φ l hc
  have g1 := on_vorticity I.rsphere ha (usedV I T) (usedV_deg T) (fun _ _ => 0) d φ l hc
  have g2 := on_divergence I.rsphere ha (usedV I T) (usedV_deg T) (fun _ _ => 0) d φ l hc
  have g3 := on_divergence I.rsphere ha (usedV I T) (usedV_deg T) z (fun _ _ => 0) φ l hc
  have g4 := on_vorticity I.rsphere ha (usedV I T) (usedV_deg T) z (fun _ _ => 0) φ l hc
  have g5 := invlapspec_series hd ha T φ l hc
  have g6 := invlapspec_series hz ha T φ l hc
  rw [series_zero] at g1 g3
  rw [(on_rot _ _ _ _ _).1, (on_rot _ _ _ _ _).2] at g6
  rw [series_onVector hz, series_onVector hd]
  exact ⟨g1, g2, g3, g4, g5, g6⟩

theorem isGrid_neg {g : NDArr ℝ} {a b : ℕ} {f : List ℕ → ℕ → ℕ → ℝ} (h : Spec.IsGrid a b extra g f) :
    Spec.IsGrid a b extra (negG g) fun e i j => - f e i j :=
  ⟨h.1, fun e he i j hi hj => by show - g.get _ = _; rw [h.2 e he i j hi hj]⟩

/-- For every wind, `vrtdiv`, `sfvp` and `helmholtz` at one truncation return the values on the grid of fields related as
in a Helmholtz decomposition, and the two parts add up to the wind `getuv` makes of the spectra of vorticity and
divergence. -/
theorem C155_helmholtz (hG : Good I (extra ++ [2])) {u v : NDArr ℝ} {t : Option ℤ} {T : ℕ}
    (hu : u.shape = I.nlat :: I.nlon :: extra) (hv : v.shape = I.nlat :: I.nlon :: extra)
    (ht : Spec.Truncation I.nlat t T) :
    ∃ Z D P X Uc Vc Up Vp : List ℕ → ℝ → ℝ → ℝ, ∃ z d p x uc vc up vp ut vt, ∃ zs ds,
      (∀ e, Spec.Helmholtz I.rsphere (Z e) (D e) (P e) (X e) (Uc e) (Vc e) (Up e) (Vp e)) ∧
      (vrtdiv I u v t = .ok (z, d) ∧ Spec.Samples I extra z Z ∧ Spec.Samples I extra d D) ∧
      (sfvp I u v t = .ok (p, x) ∧ Spec.Samples I extra p P ∧ Spec.Samples I extra x X) ∧
      (helmholtz I u v t = .ok (uc, vc, up, vp) ∧ Spec.Samples I extra uc Uc ∧ Spec.Samples I extra vc Vc ∧
        Spec.Samples I extra up Up ∧ Spec.Samples I extra vp Vp) ∧
      (getvrtdivspec I u v t = .ok (zs, ds) ∧ getuv I zs ds = .ok (ut, vt) ∧
        Spec.Samples I extra ut (fun e φ l => Uc e φ l + Up e φ l) ∧
        Spec.Samples I extra vt (fun e φ l => Vc e φ l + Vp e φ l)) := by
  have hG1 := hG.of_pair
  have hT := truncation_lt hG1 ht
  obtain ⟨zs, ds, e1, hz, hd⟩ := getvrtdivspec_ok hG1 hu hv ht
  obtain ⟨z, d, e2, sz, sd⟩ := spectogrdPair_ok hG hz hd hT
  obtain ⟨px, vp, up, e3, e4, hp, svp, sup⟩ := grad_invlap_ok hG1 hz hT
  obtain ⟨cx, uc, vc, e5, e6, hc, suc, svc⟩ := grad_invlap_ok hG1 hd hT
  obtain ⟨p, x, e7, sp, sx⟩ := spectogrdPair_ok hG hp hc hT
  obtain ⟨ut, vt, e8, sut, svt⟩ := getuv_ok hG1 hz hd hT
  refine ⟨_, _, _, _, _, _, _, _, z, d, p, x, uc, vc, negG up, vp, ut, vt, zs, ds, fun e => helmholtz_on hG.pos.ne' T
      (onVector_vrt _) (onVector_div _), ⟨?_, sz, sd⟩, ⟨?_, sp, sx⟩, ⟨?_, suc, svc, ?_, ?_⟩, ⟨e1, e8, ?_, ?_⟩⟩
  · unfold vrtdiv
    rw [e1]
    simp only [bind, Except.bind, e2]
  · unfold sfvp
    rw [e1]
    simp only [bind, Except.bind, e3, e5, e7]
  · unfold helmholtz
    rw [e1]
    simp only [bind, Except.bind, e3, e5, e4, e6, pure, Except.pure]
  · exact (isGrid_neg sup).congr fun e _ i j _ _ => by rw [(on_rot _ _ _ _ _).2, neg_neg]
  · exact svp.congr fun e _ i j _ _ => (on_rot _ _ _ _ _).1
  · refine sut.congr fun e _ i j _ _ => ?_
    have := (on_add I.rsphere (usedV I T) (fun _ _ => 0) (divOf I fun m n =>
        ((I.anaV (southOf I v e) (Spec.cut I.nlat I.nlon u e) m n).1,
          (I.anaV (southOf I v e) (Spec.cut I.nlat I.nlon u e) m n).2.1)) (vrtOf I fun m n =>
        (I.anaV (southOf I v e) (Spec.cut I.nlat I.nlon u e) m n).2.2) (fun _ _ => 0) (I.lat i) (I.lon j)).1
    simp only [zero_add, add_zero] at this
    exact this
  · refine svt.congr fun e _ i j _ _ => ?_
    have := (on_add I.rsphere (usedV I T) (fun _ _ => 0) (divOf I fun m n =>
        ((I.anaV (southOf I v e) (Spec.cut I.nlat I.nlon u e) m n).1,
          (I.anaV (southOf I v e) (Spec.cut I.nlat I.nlon u e) m n).2.1)) (vrtOf I fun m n =>
        (I.anaV (southOf I v e) (Spec.cut I.nlat I.nlon u e) m n).2.2) (fun _ _ => 0) (I.lat i) (I.lon j)).2
    simp only [zero_add, add_zero] at this
    exact this

/-! ### C153: the methods that compute one quantity and the methods that compute two -/

/-- The analyses of one part return what the analysis of both returns. -/
structure Spec.Agree (I : Inst) : Prop where
  div : ∀ v w m n, (m, n) ∈ vModes I.nlat I.nlon → I.anaDiv v w m n = ((I.anaV v w m n).1, (I.anaV v w m n).2.1)
  vrt : ∀ v w m n, (m, n) ∈ vModes I.nlat I.nlon → I.anaVrt v w m n = (I.anaV v w m n).2.2

theorem isGrid_eqv {g h : NDArr ℝ} {f : List ℕ → ℕ → ℕ → ℝ} {a b : ℕ} (hg : Spec.IsGrid a b extra g f)
    (hh : Spec.IsGrid a b extra h f) : g.Eqv h := by
  refine ⟨hg.1.trans hh.1.symm, fun idx hin => ?_⟩
  rw [hg.1] at hin
  match idx, hin with
  | i :: j :: e, hin => rw [hg.2 e hin.2.2 i j hin.1 hin.2.1, hh.2 e hin.2.2 i j hin.1 hin.2.1]

theorem vrtOf_agree (hA : Spec.Agree I) (v w : ℕ → ℕ → ℝ) :
    vrtOf I (I.anaVrt v w) = vrtOf I fun m n => (I.anaV v w m n).2.2 := by
  funext m n
  unfold vrtOf onModes
  split_ifs with h
  · beta_reduce; rw [hA.vrt v w m n h]
  · rfl

theorem divOf_agree (hA : Spec.Agree I) (v w : ℕ → ℕ → ℝ) :
    divOf I (I.anaDiv v w) = divOf I fun m n => ((I.anaV v w m n).1, (I.anaV v w m n).2.1) := by
  funext m n
  unfold divOf onModes
  split_ifs with h
  · beta_reduce; rw [hA.div v w m n h]
  · rfl

/-- `vorticity`, `divergence`, `streamfunction`, `velocitypotential`, `irrotationalcomponent` and
`nondivergentcomponent` return the arrays `vrtdiv`, `sfvp` and `helmholtz` return: when the analyses of one part agree
with the analysis of both, and, for the quantities made of the divergence, on stored regular grids with at most 24 slices. -/
theorem C153_singles_partial (hG : Good I (extra ++ [2])) (hA : Spec.Agree I) {u v : NDArr ℝ} {t : Option ℤ} {T : ℕ}
    (hu : u.shape = I.nlat :: I.nlon :: extra) (hv : v.shape = I.nlat :: I.nlon :: extra)
    (ht : Spec.Truncation I.nlat t T) :
    ∃ z d p x uc vc up vp, vrtdiv I u v t = .ok (z, d) ∧ sfvp I u v t = .ok (p, x) ∧
      helmholtz I u v t = .ok (uc, vc, up, vp) ∧
      (∃ z' p' up' vp', vorticity I u v t = .ok z' ∧ streamfunction I u v t = .ok p' ∧
        nondivergent I u v t = .ok (up', vp') ∧ z'.Eqv z ∧ p'.Eqv p ∧ up'.Eqv up ∧ vp'.Eqv vp) ∧
      (¬ (I.grid = .regular ∧ I.leg = .stored ∧ 24 < extra.prod) →
        ∃ d' x' uc' vc', divergence I u v t = .ok d' ∧ velocitypotential I u v t = .ok x' ∧
          irrotational I u v t = .ok (uc', vc') ∧ d'.Eqv d ∧ x'.Eqv x ∧ uc'.Eqv uc ∧ vc'.Eqv vc) := by
  have hG1 := hG.of_pair
  have hT := truncation_lt hG1 ht
  obtain ⟨zs, ds, e1, hz, hd⟩ := getvrtdivspec_ok hG1 hu hv ht
  obtain ⟨z, d, e2, sz, sd⟩ := spectogrdPair_ok hG hz hd hT
  obtain ⟨px, vp, up, e3, e4, hp, svp, sup⟩ := grad_invlap_ok hG1 hz hT
  obtain ⟨cx, uc, vc, e5, e6, hc, suc, svc⟩ := grad_invlap_ok hG1 hd hT
  obtain ⟨p, x, e7, sp, sx⟩ := spectogrdPair_ok hG hp hc hT
  refine ⟨z, d, p, x, uc, vc, negG up, vp, ?_, ?_, ?_, ?_, fun hn => ?_⟩
  · unfold vrtdiv
    rw [e1]
    simp only [bind, Except.bind, e2]
  · unfold sfvp
    rw [e1]
    simp only [bind, Except.bind, e3, e5, e7]
  · unfold helmholtz
    rw [e1]
    simp only [bind, Except.bind, e3, e5, e4, e6, pure, Except.pure]
  · obtain ⟨zs', f1, hz'⟩ := getvrtspec_ok hG1 hu hv ht
    simp only [vrtOf_agree hA] at hz'
    obtain ⟨z', f2, sz'⟩ := spectogrd_ok hG1 hz' hT
    obtain ⟨px', vp', up', f3, f4, hp', svp', sup'⟩ := grad_invlap_ok hG1 hz' hT
    obtain ⟨p', f5, sp'⟩ := spectogrd_ok hG1 hp' hT
    refine ⟨z', p', negG up', vp', ?_, ?_, ?_, isGrid_eqv sz' sz, isGrid_eqv sp' sp, isGrid_eqv (isGrid_neg sup') (isGrid_neg sup),
      isGrid_eqv svp' svp⟩
    · unfold vorticity
      rw [f1]
      simp only [bind, Except.bind, f2]
    · unfold streamfunction
      rw [f1]
      simp only [bind, Except.bind, f3, f5]
    · unfold nondivergent
      rw [f1]
      simp only [bind, Except.bind, f3, f4, pure, Except.pure]
  · obtain ⟨ds', f1, hd'⟩ := getdivspec_ok hG1 hu hv ht hn
    simp only [divOf_agree hA] at hd'
    obtain ⟨d', f2, sd'⟩ := spectogrd_ok hG1 hd' hT
    obtain ⟨cx', uc', vc', f3, f4, hc', suc', svc'⟩ := grad_invlap_ok hG1 hd' hT
    obtain ⟨x', f5, sx'⟩ := spectogrd_ok hG1 hc' hT
    refine ⟨d', x', uc', vc', ?_, ?_, ?_, isGrid_eqv sd' sd, isGrid_eqv sx' sx, isGrid_eqv suc' suc, isGrid_eqv svc' svc⟩
    · unfold divergence
      rw [f1]
      simp only [bind, Except.bind, f2]
    · unfold velocitypotential
      rw [f1]
      simp only [bind, Except.bind, f3, f5]
    · unfold irrotational
      rw [f1]
      simp only [bind, Except.bind, f3, f4]

/-- On stored regular grids with more than 24 slices `divergence`, `velocitypotential` and `irrotationalcomponent` raise,
while `vrtdiv`, `sfvp` and `helmholtz` return the same quantities. -/
theorem C153_singles_false (hG : Good I (extra ++ [2])) (hg : I.grid = .regular) (hl : I.leg = .stored)
    (h24 : 24 < extra.prod) {u v : NDArr ℝ} {t : Option ℤ} {T : ℕ}
    (hu : u.shape = I.nlat :: I.nlon :: extra) (hv : v.shape = I.nlat :: I.nlon :: extra)
    (ht : Spec.Truncation I.nlat t T) :
    (∃ z d, vrtdiv I u v t = .ok (z, d)) ∧ (∃ p x, sfvp I u v t = .ok (p, x)) ∧
    (∃ uc vc up vp, helmholtz I u v t = .ok (uc, vc, up, vp)) ∧
    ∃ e, divergence I u v t = .error (.err e) ∧ velocitypotential I u v t = .error (.err e) ∧
      irrotational I u v t = .error (.err e) := by
  obtain ⟨_, _, _, _, _, _, _, _, z, d, p, x, uc, vc, up, vp, _, _, _, _, -, ⟨h1, -⟩, ⟨h2, -⟩, ⟨h3, -⟩, -⟩ :=
    C155_helmholtz hG hu hv ht
  refine ⟨⟨z, d, h1⟩, ⟨p, x, h2⟩, ⟨uc, vc, up, vp, h3⟩, ?_⟩
  have hG1 := hG.of_pair
  have hrun := (hG1.run .div).2.2.2
  have hne : vectorAnalysis I.grid I.leg .div I.nlat I.nlon extra.prod ≠ .ok () := by
    intro hc
    exact (hrun.mp hc) ⟨hg, hl, rfl, h24⟩
  obtain ⟨y, y', e1, -, -⟩ := validateWind_ok (I := I) hu hv
  obtain ⟨e, he⟩ : ∃ e, vectorAnalysis I.grid I.leg .div I.nlat I.nlon extra.prod = .error e := by
    cases hcase : vectorAnalysis I.grid I.leg .div I.nlat I.nlon extra.prod with
    | ok a => exact absurd (by rw [hcase]) hne
    | error e => exact ⟨e, rfl⟩
  have hdiv : getdivspec I u v t = .error (.err e) := by
    unfold getdivspec
    rw [e1]
    simp only [bind, Except.bind, ntrunc_ok ht, he, raise]
  refine ⟨e, ?_, ?_, ?_⟩
  · unfold divergence; rw [hdiv]; rfl
  · unfold velocitypotential; rw [hdiv]; rfl
  · unfold irrotational; rw [hdiv]; rfl

/-- Non-vacuity: a 5 by 8 grid with 25 slices, and an instance whose analyses agree. -/
example : ∃ I : Inst, Good I ([25] ++ [2]) ∧ I.grid = .regular ∧ I.leg = .stored ∧ Spec.Agree I :=
  ⟨⟨5, 8, 1, .regular, .stored, fun i => Real.pi / 2 - i * (Real.pi / 4), fun _ _ _ => 0, fun f _ m n => (f m n, 1, 2, 3),
    fun f _ m n => (f m n, 1), fun _ _ _ _ => (2, 3)⟩, ⟨by norm_num, by norm_num, by norm_num, by norm_num, by norm_num⟩, rfl, rfl,
    ⟨fun _ _ _ _ _ => rfl, fun _ _ _ _ _ => rfl⟩⟩

end Skyborn.Sphere
