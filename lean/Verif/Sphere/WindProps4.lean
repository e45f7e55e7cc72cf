/-
Planetary vorticity, absolute vorticity, the Rossby wave source, and which input `VectorWind` accepts.
-/
import Verif.Sphere.WindProps3
import Verif.Sphere.LenProps

namespace Skyborn.Sphere

open Skyborn Skyborn.Spectral

variable {I : Inst} {extra : List ℕ}

/-! ### C157: planetary and absolute vorticity -/

/-- `planetaryvorticity` and `absolutevorticity` use the rows of the transforms on Gaussian grids and on regular grids
with an odd number of rows (the documented regular grids with rows on the poles). -/
theorem latitude_rows (hL : I.grid = .gaussian ∨ Spec.Regular I ∧ I.nlat % 2 = 1) {i : ℕ} (hi : i < I.nlat) :
    latitude I i = I.lat i := by
  unfold latitude
  rcases hL with h | ⟨h, ho⟩
  · rw [h]
  · rw [h.1, h.2 i hi]
    simp only [ho, if_true]
    ring

/-- `planetaryvorticity` is `2Ω sin φ` on the rows of the grid and `absolutevorticity` adds it to `vorticity`: on Gaussian
grids and on regular grids with an odd number of rows. -/
theorem C157_planetary_partial (hG : Good I extra) (hL : I.grid = .gaussian ∨ Spec.Regular I ∧ I.nlat % 2 = 1)
    {u v : NDArr ℝ} {t : Option ℤ} {T : ℕ} (hu : u.shape = I.nlat :: I.nlon :: extra)
    (hv : v.shape = I.nlat :: I.nlon :: extra) (ht : Spec.Truncation I.nlat t T) (omega : Option ℝ) :
    Spec.Samples I extra (planetaryvorticity I u omega) (fun _ φ _ => 2 * omega.getD (7292 / 100000000) * Real.sin φ) ∧
    ∃ z g, ∃ Z : List ℕ → ℝ → ℝ → ℝ, vorticity I u v t = .ok z ∧ Spec.Samples I extra z Z ∧
      absolutevorticity I u v omega t = .ok g ∧
      Spec.Samples I extra g (fun e φ l => Z e φ l + 2 * omega.getD (7292 / 100000000) * Real.sin φ) := by
  refine ⟨⟨hu, fun e he i j hi hj => ?_⟩, ?_⟩
  · unfold planetaryvorticity broadcastRows coriolis omegaOf
    simp only [List.headD_cons, latitude_rows hL hi]
  · obtain ⟨zs, e1, hz⟩ := getvrtspec_ok hG hu hv ht
    obtain ⟨z, e2, sz⟩ := spectogrd_ok hG hz (truncation_lt hG ht)
    refine ⟨z, addG z (broadcastRows u.shape (coriolis I (omegaOf omega))), _, ?_, sz, ?_, ⟨sz.1, fun e he i j hi hj => ?_⟩⟩
    · unfold vorticity
      rw [e1]
      simp only [bind, Except.bind, e2]
    · unfold absolutevorticity
      rw [e1]
      simp only [bind, Except.bind, e2, pure, Except.pure]
    · unfold addG broadcastRows coriolis omegaOf
      simp only [List.headD_cons, latitude_rows hL hi]
      rw [sz.2 e he i j hi hj]

/-- On every regular grid with an even number of rows `planetaryvorticity` is wrong on every row: the rows of the
transforms are `π/(nlat-1)` apart and include the poles, its latitudes are `π/nlat` apart and do not. -/
theorem C157_planetary_false (hG : Good I extra) (hR : Spec.Regular I) (he : I.nlat % 2 = 0) {u : NDArr ℝ}
    (hu : u.shape = I.nlat :: I.nlon :: extra) (omega : ℝ) (ho : omega ≠ 0) :
    ∀ i j e, InB u.shape (i :: j :: e) →
      (planetaryvorticity I u (some omega)).get (i :: j :: e) ≠ 2 * omega * Real.sin (I.lat i) := by
  intro i j e hin
  rw [hu] at hin
  have hi : i < I.nlat := hin.1
  have hlat := hG.lat
  have hp := Real.pi_pos
  unfold planetaryvorticity broadcastRows coriolis omegaOf
  simp only [List.headD_cons, Option.getD_some]
  intro hc
  have hs := mul_left_cancel₀ (show (2 * omega : ℝ) ≠ 0 by simp [ho]) hc
  have hn : (3 : ℝ) ≤ I.nlat := by exact_mod_cast hlat
  have hi' : (i : ℝ) + 1 ≤ I.nlat := by exact_mod_cast hi
  have h0 : (0 : ℝ) ≤ i := Nat.cast_nonneg i
  have hl : latitude I i = Real.pi / 2 - Real.pi * (((i : ℝ) + 1 / 2) / I.nlat) := by
    unfold latitude
    rw [hR.1]
    simp only [he]
    norm_num
    field_simp
    ring
  have hl' : I.lat i = Real.pi / 2 - Real.pi * ((i : ℝ) / ((I.nlat : ℝ) - 1)) := by
    rw [hR.2 i hi]; ring
  have b1 : 0 ≤ ((i : ℝ) + 1 / 2) / I.nlat ∧ ((i : ℝ) + 1 / 2) / I.nlat ≤ 1 :=
    ⟨by positivity, by rw [div_le_one (by linarith)]; linarith⟩
  have b2 : 0 ≤ (i : ℝ) / ((I.nlat : ℝ) - 1) ∧ (i : ℝ) / ((I.nlat : ℝ) - 1) ≤ 1 :=
    ⟨div_nonneg h0 (by linarith), by rw [div_le_one (by linarith)]; linarith⟩
  have key : latitude I i = I.lat i := by
    refine Real.injOn_sin ⟨?_, ?_⟩ ⟨?_, ?_⟩ hs
    · rw [hl]; nlinarith [b1.1, b1.2]
    · rw [hl]; nlinarith [b1.1, b1.2]
    · rw [hl']; nlinarith [b2.1, b2.2]
    · rw [hl']; nlinarith [b2.1, b2.2]
  rw [hl, hl'] at key
  have k2 : ((i : ℝ) + 1 / 2) / I.nlat = (i : ℝ) / ((I.nlat : ℝ) - 1) := by
    have : Real.pi * (((i : ℝ) + 1 / 2) / I.nlat) = Real.pi * ((i : ℝ) / ((I.nlat : ℝ) - 1)) := by linarith
    exact mul_left_cancel₀ hp.ne' this
  rw [div_eq_div_iff (by linarith) (by linarith)] at k2
  have k3 : (I.nlat : ℝ) = 2 * i + 1 := by linarith
  have k4 : I.nlat = 2 * i + 1 := by exact_mod_cast k3
  omega

/-! ### C156: the Rossby wave source -/

theorem pbar_zero_one (θ : ℝ) : pbar 0 1 θ = Real.sqrt (3 / 2) * Real.cos θ := by
  have hr : rod 1 1 = Polynomial.C 2 * Polynomial.X := by
    unfold rod
    rw [Function.iterate_one, pow_one]
    simp
    norm_num
    rfl
  unfold pbar norm
  simp only [Nat.add_zero, hr, Polynomial.eval_mul, Polynomial.eval_C, Polynomial.eval_X, pow_zero]
  have : ((2 * ((1 : ℕ) : ℝ) + 1) * ((1 - 0 : ℕ).factorial : ℝ) / (2 * ((1 + 0 : ℕ).factorial : ℝ))) = 3 / 2 := by
    norm_num
  rw [this]
  norm_num
  ring

/-- The coefficients of `2Ω sin φ`. -/
noncomputable def coriolisSpec (omega : ℝ) : ℕ → ℕ → ℂ := Spec.single 0 1 ((2 * omega / Real.sqrt (3 / 2) : ℝ) : ℂ)

theorem coriolis_series (omega φ l : ℝ) : Spec.series 1 (coriolisSpec omega) φ l = 2 * omega * Real.sin φ := by
  have hs : Real.sqrt (3 / 2) ≠ 0 := (Real.sqrt_pos.mpr (by norm_num)).ne'
  unfold coriolisSpec
  rw [series_single (by omega) (le_refl 1), pbar_zero_one, Real.cos_pi_div_two_sub]
  simp only [if_true, Nat.cast_zero, zero_mul, Complex.exp_zero, mul_one, Complex.ofReal_re]
  field_simp

theorem divergence_mul {a : ℝ} {f U V : ℝ → ℝ → ℝ} {φ l D gx gy : ℝ} (ha : a ≠ 0) (hc : Real.cos φ ≠ 0)
    (hD : Spec.HasDivergence a U V φ l D) (hf : Spec.HasGradient a f φ l gx gy) :
    Spec.HasDivergence a (fun φ l => f φ l * U φ l) (fun φ l => f φ l * V φ l) φ l
      (f φ l * D + U φ l * gx + V φ l * gy) := by
  obtain ⟨du, dv, h1, h2, rfl⟩ := hD
  obtain ⟨dl, dφ, g1, g2, rfl, rfl⟩ := hf
  refine ⟨_, _, g1.mul h1, ((g2.mul h2).congr_of_eventuallyEq (Filter.Eventually.of_forall fun y => ?_)), ?_⟩
  · simp only [Pi.mul_apply]; ring
  · field_simp
    ring

theorem good_nil (hG : Good I extra) : Good I [] := by
  obtain ⟨h1, h2, h3, h4, h5⟩ := hG
  refine ⟨h1, h2, h3, by simp, le_trans (Nat.mul_le_mul_left _ ?_) h5⟩
  have : 4 * ([] : List ℕ).prod * I.nlon ≤ 4 * extra.prod * I.nlon := Nat.mul_le_mul_right _ (by simp; omega)
  omega

/-- The spectrum of the planetary vorticity. -/
theorem planetarySpec_ok (hG : Good I extra) {K : ℕ} (hE : Spec.Exact I K) (hK : 1 ≤ K)
    (hL : I.grid = .gaussian ∨ Spec.Regular I ∧ I.nlat % 2 = 1) {t : Option ℤ} {T : ℕ} (ht : Spec.Truncation I.nlat t T)
    (h3 : T ≤ I.nlon / 2) (omega : ℝ) :
    ∃ s, planetarySpec I omega t = .ok s ∧ Spec.IsSpectrum T [] s fun _ => coriolisSpec omega := by
  have hT := truncation_lt hG ht
  have h0 := good_nil hG
  have hs : Spec.Samples I [] (broadcastRows [I.nlat, I.nlon] (coriolis I omega)) fun _ => Spec.series 1 (coriolisSpec omega) := by
    refine ⟨rfl, fun e he i j hi hj => ?_⟩
    show _ = Spec.series 1 (coriolisSpec omega) (I.lat i) (I.lon j)
    rw [coriolis_series]
    unfold broadcastRows coriolis
    simp only [List.headD_cons, latitude_rows hL hi]
  have hlat := hG.lat
  have hlon := hG.lon
  obtain ⟨s, e1, h1⟩ := grdtospec_exact h0 hE hK (by omega) (by omega) (x := fun _ => coriolisSpec omega) hs
    (t := some (T : ℤ)) (T' := T) (Or.inr ⟨rfl, hT⟩) h3
  refine ⟨s, ?_, h1.congr fun e he m n hm hn => ?_⟩
  · unfold planetarySpec
    rw [ntrunc_ok ht]
    simp only [bind, Except.bind]
    exact e1
  · unfold onlyOn realMean coriolisSpec Spec.single
    by_cases hmn : m = 0 ∧ n = 1
    · obtain ⟨rfl, rfl⟩ := hmn
      rw [if_pos (mem_triangle.mpr ⟨by omega, by omega⟩)]
      simp only [and_self, if_true, Complex.ofReal_re]
    · simp [hmn]

theorem series_add (M : Finset (ℕ × ℕ)) (x y : ℕ → ℕ → ℂ) (φ l : ℝ) :
    Spec.seriesOn M (fun m n => x m n + y m n) φ l = Spec.seriesOn M x φ l + Spec.seriesOn M y φ l := by
  unfold Spec.seriesOn
  rw [← Finset.sum_add_distrib]
  refine Finset.sum_congr rfl fun p _ => ?_
  rw [add_mul, Complex.add_re]; ring

theorem coriolis_used (hG : Good I extra) {T : ℕ} (hT : 1 ≤ T) (omega φ l : ℝ) :
    Spec.seriesOn (usedV I T) (coriolisSpec omega) φ l = 2 * omega * Real.sin φ := by
  rw [← coriolis_series omega φ l]
  unfold Spec.series Spec.seriesOn
  rw [Finset.sum_eq_single (0, 1), Finset.sum_eq_single (0, 1)]
  · rintro ⟨m, n⟩ _ hne
    have : coriolisSpec omega m n = 0 := by
      unfold coriolisSpec Spec.single
      rw [if_neg]; rintro ⟨rfl, rfl⟩; exact hne rfl
    simp [this]
  · intro hc; exact absurd (mem_triangle.mpr ⟨by omega, by omega⟩) hc
  · rintro ⟨m, n⟩ _ hne
    have : coriolisSpec omega m n = 0 := by
      unfold coriolisSpec Spec.single
      rw [if_neg]; rintro ⟨rfl, rfl⟩; exact hne rfl
    simp [this]
  · intro hc
    have h1 := hG.lat
    have h2 := hG.lon
    exact absurd (mem_usedV.mpr (by omega)) hc

/-- `rossbywavesource` is minus the divergence of the product of absolute vorticity and irrotational wind, those of
`vrtdiv` and `helmholtz`: where the analysis recovers the planetary vorticity, at truncations from 1 to `nlon/2`, on
Gaussian grids and on regular grids with an odd number of rows. -/
theorem C156_rws_partial (hG : Good I (extra ++ [2])) {K : ℕ} (hE : Spec.Exact I K) (hK : 1 ≤ K)
    (hL : I.grid = .gaussian ∨ Spec.Regular I ∧ I.nlat % 2 = 1) {u v : NDArr ℝ} {t : Option ℤ} {T : ℕ}
    (hu : u.shape = I.nlat :: I.nlon :: extra) (hv : v.shape = I.nlat :: I.nlon :: extra)
    (ht : Spec.Truncation I.nlat t T) (h1 : 1 ≤ T) (h3 : T ≤ I.nlon / 2) (omega : Option ℝ) :
    ∃ Z D Uc Vc S : List ℕ → ℝ → ℝ → ℝ, ∃ z d uc vc up vp s,
      (vrtdiv I u v t = .ok (z, d) ∧ Spec.Samples I extra z Z ∧ Spec.Samples I extra d D) ∧
      (helmholtz I u v t = .ok (uc, vc, up, vp) ∧ Spec.Samples I extra uc Uc ∧ Spec.Samples I extra vc Vc) ∧
      (rossbywavesource I u v t omega = .ok s ∧ Spec.Samples I extra s S) ∧
      ∀ e φ l, Real.cos φ ≠ 0 →
        Spec.HasVorticity I.rsphere (Uc e) (Vc e) φ l 0 ∧ Spec.HasDivergence I.rsphere (Uc e) (Vc e) φ l (D e φ l) ∧
        Spec.HasDivergence I.rsphere (fun φ l => (Z e φ l + 2 * omega.getD (7292 / 100000000) * Real.sin φ) * Uc e φ l)
          (fun φ l => (Z e φ l + 2 * omega.getD (7292 / 100000000) * Real.sin φ) * Vc e φ l) φ l (- S e φ l) := by
  have hG1 := hG.of_pair
  have hT := truncation_lt hG1 ht
  have ha := hG.pos.ne'
  obtain ⟨zs, ds, e1, hz', hd'⟩ := getvrtdivspec_ok hG1 hu hv ht
  obtain ⟨zz, hz, onz⟩ : ∃ zz, Spec.IsSpectrum T extra zs zz ∧ ∀ e, Spec.OnVector I.nlat I.nlon (zz e) :=
    ⟨_, hz', fun e => onVector_vrt _⟩
  obtain ⟨dd, hd, ond⟩ : ∃ dd, Spec.IsSpectrum T extra ds dd ∧ ∀ e, Spec.OnVector I.nlat I.nlon (dd e) :=
    ⟨_, hd', fun e => onVector_div _⟩
  clear hz' hd'
  obtain ⟨z, d, e2, sz, sd⟩ := spectogrdPair_ok hG hz hd hT
  obtain ⟨px, vp, up, e3, e4, hp, svp, sup⟩ := grad_invlap_ok hG1 hz hT
  obtain ⟨cx, uc, vc, e5, e6, hc, suc, svc⟩ := grad_invlap_ok hG1 hd hT
  obtain ⟨fs, e7, hf⟩ := planetarySpec_ok hG1 hE hK hL ht h3 (omegaOf omega)
  have hsum : Spec.IsSpectrum T extra (addRows zs fs) fun e m n => zz e m n + coriolisSpec (omegaOf omega) m n := by
    refine ⟨hz.1, fun e he m n hm hn => ?_⟩
    show zs.get _ + fs.get _ = _
    rw [hz.2 e he m n hm hn]
    congr 1
    simp only [List.headD_cons]
    exact hf.2 [] trivial m n hm hn
  obtain ⟨ex, ey, e8, sx, sy⟩ := getgrad_ok hG1 hsum hT
  refine ⟨fun e => Spec.seriesOn (usedS I T) (zz e), fun e => Spec.seriesOn (usedS I T) (dd e),
    fun e => uOn I.rsphere (usedV I T) (fun _ _ => 0) (dd e), fun e => vOn I.rsphere (usedV I T) (fun _ _ => 0) (dd e),
    fun e φ l => - (Spec.seriesOn (usedS I T) (zz e) φ l + 2 * omegaOf omega * Real.sin φ) * Spec.seriesOn (usedS I T) (dd e) φ l
      - (uOn I.rsphere (usedV I T) (fun _ _ => 0) (dd e) φ l * uOn I.rsphere (usedV I T) (fun _ _ => 0)
          (fun m n => ((-(n * (n + 1)) / I.rsphere ^ 2 : ℝ) : ℂ) * (zz e m n + coriolisSpec (omegaOf omega) m n)) φ l
        + vOn I.rsphere (usedV I T) (fun _ _ => 0) (dd e) φ l * vOn I.rsphere (usedV I T) (fun _ _ => 0)
          (fun m n => ((-(n * (n + 1)) / I.rsphere ^ 2 : ℝ) : ℂ) * (zz e m n + coriolisSpec (omegaOf omega) m n)) φ l),
    z, d, uc, vc, negG up, vp, rwsOf (addG z (broadcastRows u.shape (coriolis I (omegaOf omega)))) d uc ex vc ey,
    ⟨?_, sz, sd⟩, ⟨?_, suc, svc⟩, ⟨?_, ?_⟩, ?_⟩
  · unfold vrtdiv
    rw [e1]
    simp only [bind, Except.bind, e2]
  · unfold helmholtz
    rw [e1]
    simp only [bind, Except.bind, e3, e5, e4, e6, pure, Except.pure]
  · unfold rossbywavesource
    rw [e1]
    simp only [bind, Except.bind, e2, e5, e6, e7, e8, pure, Except.pure]
  · refine ⟨sz.1, fun e he i j hi hj => ?_⟩
    simp only [rwsOf, addG, broadcastRows, List.headD_cons, coriolis, latitude_rows hL hi]
    rw [sz.2 e he i j hi hj, sd.2 e he i j hi hj, suc.2 e he i j hi hj, svc.2 e he i j hi hj, sx.2 e he i j hi hj, sy.2 e he i j hi hj]
  · intro e φ l hcos
    have gh := helmholtz_on (I := I) ha T (onz e) (ond e) φ l hcos
    refine ⟨gh.1, gh.2.1, ?_⟩
    have gg := on_gradient I.rsphere ha (usedV I T) (usedV_deg T) (fun m n => zz e m n + coriolisSpec (omegaOf omega) m n) φ l hcos
    have eq : Spec.seriesOn (usedV I T) (fun m n => zz e m n + coriolisSpec (omegaOf omega) m n)
        = fun φ l => Spec.seriesOn (usedS I T) (zz e) φ l + 2 * omega.getD (7292 / 100000000) * Real.sin φ := by
      funext φ l
      rw [series_add, series_onVector (onz e), coriolis_used hG1 h1]
      rfl
    rw [eq] at gg
    have := divergence_mul ha hcos gh.2.1 gg
    convert this using 1
    unfold omegaOf
    ring

/-- At truncations above `nlon/2`, which the default is on every grid with more rows than half the columns plus one, the
Rossby wave source, the gradient and the truncation are made of coefficients no analysis has written, although `vrtdiv`
and `helmholtz` are defined. -/
theorem C156_rws_false (hG : Good I (extra ++ [2])) {u v : NDArr ℝ} {t : Option ℤ} {T : ℕ}
    (hu : u.shape = I.nlat :: I.nlon :: extra) (hv : v.shape = I.nlat :: I.nlon :: extra)
    (ht : Spec.Truncation I.nlat t T) (hT : I.nlon / 2 < T) (omega : Option ℝ) :
    rossbywavesource I u v t omega = .error .undefined ∧ gradient I u t = .error .undefined ∧
      truncate I u t = .error .undefined ∧ (∃ p, vrtdiv I u v t = .ok p) ∧ ∃ q, helmholtz I u v t = .ok q := by
  have hG1 := hG.of_pair
  have hT' := truncation_lt hG1 ht
  obtain ⟨zs, ds, e1, hz, hd⟩ := getvrtdivspec_ok hG1 hu hv ht
  obtain ⟨z, d, e2, sz, sd⟩ := spectogrdPair_ok hG hz hd hT'
  obtain ⟨px, vp, up, e3, e4, hp, svp, sup⟩ := grad_invlap_ok hG1 hz hT'
  obtain ⟨cx, uc, vc, e5, e6, hc, suc, svc⟩ := grad_invlap_ok hG1 hd hT'
  have e7 : planetarySpec I (omegaOf omega) t = .error .undefined := by
    unfold planetarySpec
    rw [ntrunc_ok ht]
    exact grdtospec_undefined (good_nil hG) rfl (Or.inr ⟨rfl, hT'⟩) hT
  refine ⟨?_, ?_, ?_, ⟨(z, d), ?_⟩, ⟨(uc, vc, negG up, vp), ?_⟩⟩
  · unfold rossbywavesource
    rw [e1]
    simp only [bind, Except.bind, e2, e5, e6, e7]
  · unfold gradient
    rw [grdtospec_undefined hG1 hu ht hT]
    rfl
  · unfold truncate
    rw [grdtospec_undefined hG1 hu ht hT]
    rfl
  · unfold vrtdiv
    rw [e1]
    simp only [bind, Except.bind, e2]
  · unfold helmholtz
    rw [e1]
    simp only [bind, Except.bind, e3, e5, e4, e6, pure, Except.pure]

/-! ### C159: what the constructor accepts -/

/-- Every element of `x` is a finite number. -/
def Spec.Finite (x : NDArr Cell) : Prop := ∀ idx, InB x.shape idx → ∃ r, x.get idx = .num r

/-- Some element of `x` is missing or NaN. -/
def Spec.Missing (x : NDArr Cell) : Prop := ∃ idx, InB x.shape idx ∧ x.get idx = .nan

/-- `VectorWind` accepts exactly pairs of finite arrays of one shape with at least 3 rows and 4 columns, a known grid
(upper and lower case alike), a positive radius, a known option for the Legendre functions (lower case only), and, for
stored Gaussian functions, at most `nlon/2 + 2` rows; it keeps the numbers. Missing values are reported before infinities,
and both before anything else. Up to 1280 rows. -/
theorem C159_accept_partial (u v : NDArr Cell) (gridtype : String) (rsphere : ℚ) (legfunc : String)
    (hmax : ∀ nlat nlon rest, u.shape = nlat :: nlon :: rest → nlat ≤ 1280 ∧ nlon ≤ 1073741824) :
    ((∃ r, accept u v gridtype rsphere legfunc = .ok r) ↔
      Spec.Finite u ∧ Spec.Finite v ∧ u.shape = v.shape ∧ 0 < rsphere ∧
      (gridtype.toLower = "regular" ∨ gridtype.toLower = "gaussian") ∧ (legfunc = "stored" ∨ legfunc = "computed") ∧
      ∃ nlat nlon rest, u.shape = nlat :: nlon :: rest ∧ 3 ≤ nlat ∧ 4 ≤ nlon ∧
        ¬ (gridtype.toLower = "gaussian" ∧ legfunc = "stored" ∧ nlon / 2 + 2 < nlat)) ∧
    (accept u v gridtype rsphere legfunc = .error .missing ↔ Spec.Missing u ∨ Spec.Missing v) ∧
    (accept u v gridtype rsphere legfunc = .error .infinite ↔
      ¬ (Spec.Finite u ∧ Spec.Finite v) ∧ ¬ (Spec.Missing u ∨ Spec.Missing v)) ∧
    ∀ g l x y, accept u v gridtype rsphere legfunc = .ok (g, l, x, y) →
      (g = .gaussian ↔ gridtype.toLower = "gaussian") ∧ (l = .stored ↔ legfunc = "stored") ∧
      x.shape = u.shape ∧ y.shape = v.shape ∧ (∀ idx, InB u.shape idx → u.get idx = .num (x.get idx)) ∧
      ∀ idx, InB v.shape idx → v.get idx = .num (y.get idx) := by
  classical
  have hbad : ∀ x : NDArr Cell, (∃ idx, InB x.shape idx ∧ ∀ r, x.get idx ≠ .num r) ↔ ¬ Spec.Finite x := by
    intro x
    unfold Spec.Finite
    push Not
    rfl
  have hmiss : ∀ x : NDArr Cell, Spec.Missing x → ¬ Spec.Finite x := by
    rintro x ⟨idx, h1, h2⟩ hf
    obtain ⟨r, h3⟩ := hf idx h1
    rw [h2] at h3; exact Cell.noConfusion h3
  have hval : ∀ x : NDArr Cell, Spec.Finite x → ∀ idx, InB x.shape idx → x.get idx = .num ((x.get idx).val) := by
    intro x hx idx h
    obtain ⟨r, hr⟩ := hx idx h
    rw [hr]; rfl
  unfold accept
  simp only [hbad, ← not_and_or]
  change _ ∧ _ ∧ _ ∧ _
  by_cases hf : Spec.Finite u ∧ Spec.Finite v
  swap
  · rw [if_pos hf]
    by_cases hm : Spec.Missing u ∨ Spec.Missing v
    · have hm' := hm
      unfold Spec.Missing at hm'
      rw [if_pos hm']
      simp [hf, hm]
      tauto
    · have hm' := hm
      unfold Spec.Missing at hm'
      rw [if_neg hm']
      simp [hf, hm]
      tauto
  rw [if_neg (not_not.mpr hf)]
  have hm : ¬ (Spec.Missing u ∨ Spec.Missing v) := by
    rintro (h | h)
    · exact hmiss u h hf.1
    · exact hmiss v h hf.2
  by_cases hs : u.shape = v.shape
  swap
  · rw [if_pos hs]; simp [hf, hm, hs]
  rw [if_neg (not_not.mpr hs)]
  match hsh : u.shape with
  | [] => simp [hf, hm]
  | [a] => simp [hf, hm]
  | nlat :: nlon :: rest =>
    obtain ⟨m1, m2⟩ := hmax nlat nlon rest hsh
    simp only
    by_cases hsz : nlat < 3 ∨ nlon < 4
    · rw [if_pos hsz]; simp [hf, hm]; intros; omega
    rw [if_neg hsz]
    have hc := fun g l => C149_construct_partial g l (nlon : ℤ) (nlat : ℤ) rsphere (by omega) (by omega) (by omega) (by omega)
    unfold gridOf legOf
    by_cases hr : rsphere ≤ 0
    · have hr' : ¬ 0 < rsphere := not_lt.mpr hr
      split_ifs <;> simp [hf, hm, hr, hr']
    have hr' : 0 < rsphere := not_le.mp hr
    have hc := fun g l => C149_construct_partial g l (nlon : ℤ) (nlat : ℤ) rsphere (by omega) (by omega) (by omega) (by omega) hr'
    have hex : ∀ g l, construct g l (nlon : ℤ) (nlat : ℤ) rsphere ≠ .ok () →
        ∃ er, construct g l (nlon : ℤ) (nlat : ℤ) rsphere = .error er := by
      intro g l h
      cases hq : construct g l (nlon : ℤ) (nlat : ℤ) rsphere with
      | error er => exact ⟨er, rfl⟩
      | ok x => exact absurd (by rw [hq]) h
    have hvs : v.shape = nlat :: nlon :: rest := hs.symm.trans hsh
    have hu' := hval u hf.1
    have hv' := hval v hf.2
    rw [hsh] at hu'
    rw [hvs] at hv'
    have h3 : 3 ≤ nlat := by omega
    have h4 : 4 ≤ nlon := by omega
    by_cases g1 : gridtype.toLower = "regular"
    · by_cases l1 : legfunc = "stored"
      · have := (hc .regular .stored).2 (by simp)
        simp [hf, hm, hr, hr', g1, l1, this, hvs, h3, h4]
        rintro _ _ _ _ rfl rfl rfl rfl
        exact ⟨by simp, by simp, rfl, rfl, hu', hv'⟩
      · by_cases l2 : legfunc = "computed"
        · have := (hc .regular .computed).2 (by simp)
          simp [hf, hm, hr, hr', g1, l2, this, hvs, h3, h4]
          rintro _ _ _ _ rfl rfl rfl rfl
          exact ⟨by simp, by simp, rfl, rfl, hu', hv'⟩
        · simp [hf, hm, hr, hr', g1, l1, l2]
    · by_cases g2 : gridtype.toLower = "gaussian"
      · by_cases l1 : legfunc = "stored"
        · by_cases hk : nlon / 2 + 2 < nlat
          · obtain ⟨er, this⟩ := hex .gaussian .stored (by rw [Ne, hc]; simp; omega)
            simp [hf, hm, hr, hr', g2, l1, this]
            omega
          · have := (hc .gaussian .stored).2 (by simp; omega)
            simp [hf, hm, hr, hr', g2, l1, this, hvs, h3, h4]
            refine ⟨by omega, ?_⟩
            rintro _ _ _ _ rfl rfl rfl rfl
            exact ⟨by simp, by simp, rfl, rfl, hu', hv'⟩
        · by_cases l2 : legfunc = "computed"
          · have := (hc .gaussian .computed).2 (by simp)
            simp [hf, hm, hr, hr', g2, l2, this, hvs, h3, h4]
            rintro _ _ _ _ rfl rfl rfl rfl
            exact ⟨by simp, by simp, rfl, rfl, hu', hv'⟩
          · simp [hf, hm, hr, hr', g2, l1, l2]
      · simp [hf, hm, g1, g2]

/-- Non-vacuity: a wind `VectorWind` accepts, and one it refuses for missing data. -/
example : (∃ r, accept ⟨[73, 144, 3], fun idx => .num idx.length⟩ ⟨[73, 144, 3], fun _ => .num 1⟩ "Regular" 6371200 "stored" = .ok r) ∧
    accept ⟨[73, 144], fun idx => if idx = [0, 1] then .nan else .inf true⟩ ⟨[1], fun _ => .num 1⟩ "none" 0 "stored" = .error .missing := by
  constructor
  · refine (C159_accept_partial _ _ _ _ _ ?_).1.2 ⟨fun _ _ => ⟨_, rfl⟩, fun _ _ => ⟨_, rfl⟩, rfl, by norm_num, Or.inl (String.toList_inj.mp (by simp [String.toLower])), Or.inl rfl,
      73, 144, [3], rfl, by omega, by omega, by omega⟩
    intro a b r h
    simp only [List.cons.injEq] at h
    omega
  · refine (C159_accept_partial _ _ _ _ _ ?_).2.1.2 (Or.inl ⟨[0, 1], by simp [InB], by simp⟩)
    intro a b r h
    simp only [List.cons.injEq] at h
    omega

/-- Non-vacuity of `C156_rws_partial` and `C157_planetary_partial`: a 7 by 12 regular grid with exact analyses. -/
example : ∃ I : Inst, Good I ([3] ++ [2]) ∧ Spec.Exact I 5 ∧ (I.grid = .gaussian ∨ Spec.Regular I ∧ I.nlat % 2 = 1) ∧
    Spec.Truncation I.nlat none 6 ∧ 6 ≤ I.nlon / 2 := by
  set J : Inst := ⟨7, 12, 1, .regular, .stored, fun i => Real.pi / 2 - i * (Real.pi / (((7 : ℕ) : ℝ) - 1)), fun _ _ _ => 0, fun _ _ _ _ => 0,
    fun _ _ _ _ => 0, fun _ _ _ _ => 0⟩ with hJ
  have hreg : Spec.Regular J := ⟨rfl, fun _ _ => rfl⟩
  have hrows := hreg.rows (by rw [hJ]; norm_num)
  have hc := card_interior hrows
  obtain ⟨I, h1, h2, h3, h4, h5, h6, hE⟩ := exact_exists J hrows (by rw [hJ]; norm_num) (by rw [hJ]; norm_num) (K := 5)
    (by rw [hJ]; norm_num) (by simp only [hJ] at hc ⊢; omega)
  refine ⟨I, ⟨by rw [h1, hJ]; norm_num, by rw [h2, hJ]; norm_num, by rw [h3, hJ]; norm_num, by norm_num, by rw [h1, h2, hJ]; norm_num⟩, hE,
    Or.inr ⟨⟨by rw [h4, hJ], ?_⟩, by rw [h1, hJ]; norm_num⟩, Or.inl ⟨rfl, by rw [h1, hJ]; norm_num⟩, by rw [h2, hJ]; norm_num⟩
  intro i hi
  rw [h6, h1, hJ]

/-- Non-vacuity of `C156_rws_false`: the default truncation of a 7 by 8 grid. -/
example : ∃ I : Inst, Good I ([3] ++ [2]) ∧ Spec.Truncation I.nlat none 6 ∧ I.nlon / 2 < 6 :=
  ⟨⟨7, 8, 1, .regular, .stored, fun _ => 0, fun _ _ _ => 0, fun _ _ _ _ => 0, fun _ _ _ _ => 0, fun _ _ _ _ => 0⟩,
    ⟨by norm_num, by norm_num, by norm_num, by norm_num, by norm_num⟩, Or.inl ⟨rfl, rfl⟩, by norm_num⟩

end Skyborn.Sphere
