/-
C238, C240, C242: labels the code ignores or leaves unturned.
-/
import Verif.WindXr.Witness

namespace Skyborn.WindXr

open Skyborn Windspharm Sphere

theorem gradient_unique {a : ℝ} {f : ℝ → ℝ → ℝ} {φ l gx gy gx' gy' : ℝ} (h : Spec.HasGradient a f φ l gx gy) (h' : Spec.HasGradient a f φ l gx' gy') :
    gx = gx' ∧ gy = gy' := by
  obtain ⟨d, e, h1, h2, rfl, rfl⟩ := h
  obtain ⟨d', e', h1', h2', rfl, rfl⟩ := h'
  rw [h1.unique h1', h2.unique h2']
  exact ⟨rfl, rfl⟩

theorem pbar_one_one (θ : ℝ) : pbar 1 1 θ = Real.sqrt (3 / 4) * Real.sin θ := by
  have hr : rod 1 2 = Polynomial.C 2 := by
    unfold rod
    simp only [pow_one, Function.iterate_succ, Function.iterate_zero, Function.comp, id]
    simp
    rw [show (2 : ℝ) = 1 + 1 by norm_num, Polynomial.C_add, Polynomial.C_1]
  unfold pbar Sphere.norm
  rw [hr]
  simp only [Polynomial.eval_C, pow_one]
  have : ((2 * ((1 : ℕ) : ℝ) + 1) * ((1 - 1 : ℕ).factorial : ℝ) / (2 * ((1 + 1 : ℕ).factorial : ℝ))) = 3 / 4 := by
    norm_num [Nat.factorial]
  rw [this]
  norm_num
  ring

/-- The coefficients of `s cos φ sin λ`. -/
noncomputable def waveSpec (s : ℝ) : ℕ → ℕ → ℂ := Spec.single 1 1 (((-(s / (2 * Real.sqrt (3 / 4))) : ℝ) : ℂ) * Complex.I)

theorem wave_series (s φ l : ℝ) : Spec.series 1 (waveSpec s) φ l = s * Real.cos φ * Real.sin l := by
  have hs : Real.sqrt (3 / 4) ≠ 0 := (Real.sqrt_pos.mpr (by norm_num)).ne'
  unfold waveSpec
  rw [series_single (le_refl 1) (le_refl 1), pbar_one_one, Real.sin_pi_div_two_sub]
  have : ((((-(s / (2 * Real.sqrt (3 / 4))) : ℝ) : ℂ) * Complex.I) * Complex.exp (((1 : ℕ) : ℂ) * l * Complex.I)).re = s / (2 * Real.sqrt (3 / 4)) * Real.sin l := by
    rw [Nat.cast_one, one_mul, Complex.exp_mul_I]
    simp only [← Complex.ofReal_cos, ← Complex.ofReal_sin, Complex.mul_re, Complex.mul_im, Complex.add_re, Complex.add_im, Complex.ofReal_re, Complex.ofReal_im,
      Complex.I_re, Complex.I_im]
    ring
  rw [this]
  simp
  field_simp

/-- The gradient the object returns for a field with other labels, at the middle row and the first column. -/
theorem odd_labels {I : Inst} (i1 : I.nlat = 3) (i2 : I.nlon = 4) (i3 : I.rsphere = 1) (i6 : I.lat = fun i : ℕ => Real.pi / 2 - i * (Real.pi / 2))
    (hE : Spec.Exact I 1) {lib : Grid → Leg → ℕ → ℕ → ℚ → Inst} (hlib : Spec.Lib lib) {gauss : ℕ → Option (ℕ → ℝ)} {u v : WArr ℝ Cell} (hu : Spec.Proper u)
    (hv : Spec.Proper v) {legfunc : String} {gridtype : Option String} {w : WObj ℝ} (hw : construct lib gauss u v 1 legfunc gridtype = .ok w)
    (hI : w.inst = I) {lats lons : List ℝ} (hl : lats.length = 3) (hm : lons.length = 4) (h0 : lats.getD 1 0 = 0) (h0' : lons.getD 0 0 = 0) (y y' : ℕ → ℕ → ℂ)
    (hFF : ∀ i < 3, ∀ j < 4, Spec.series 1 y (Spec.rad (lats.getD (Spec.turn lats i) 0)) (Spec.rad (lons.getD j 0)) =
      Spec.series 1 y' (I.lat i) (I.lon j)) :
    ∃ gx gy, run w [.gradient (made lats lons (Spec.series 1 y)) none] = [.ok [gx, gy]] ∧
      ∃ a b, Spec.HasGradient 1 (Spec.series 1 y') 0 0 a b ∧
      ∀ X Y : List ℕ → ℝ → ℝ → ℝ, (∀ e φ l, Real.cos φ ≠ 0 → Spec.HasGradient 1 (Spec.series 1 y) φ l (X e φ l) (Y e φ l)) →
        Spec.SampledAt some gx "lat" "lon" X → Spec.SampledAt some gy "lat" "lon" Y → Spec.HasGradient 1 (Spec.series 1 y) 0 0 a b := by
  subst hI
  set x := made lats lons (Spec.series 1 y) with hx'
  have hx := made_proper hl hm (Spec.series 1 y)
  have hf := made_frame hl hm (Spec.series 1 y)
  rw [← hx'] at hx hf
  have hp := placed hx hf
  have sz := made_size (lats := lats) (lons := lons) (Spec.series 1 y)
  rw [← hx'] at sz
  have hG : Good w.inst (Spec.extra x "lat" "lon" ++ [2]) := by rw [hx', made_extra]; exact good3 i1 i2 i3
  obtain ⟨z, hz, hall⟩ := (C242_fields_partial hlib hu hv hw hx hf (by simp [hx', made]) none).2 (made_numbers _) (by rw [sz.1, i1]) (by rw [sz.2, i2]) hG
  have hs : Spec.Samples w.inst [] z fun _ => Spec.series 1 y' := by
    refine ⟨by rw [hz.shape, sz.1, sz.2, i1, i2, hx', made_rest]; rfl, fun e he i j hi hj => ?_⟩
    rw [i1] at hi
    rw [i2] at hj
    match e, he with
    | [], _ =>
    obtain ⟨f, k1, k2, k3, k4⟩ := point_of (e := []) hx hp.memLat hp.memLon hp.ne (i := Spec.turn lats i) (j := j) (by rw [sz.1]; exact turn_lt hl hi) (by rw [sz.2]; exact hj)
      (by rw [hx', made_extra]; trivial)
    have e1 := hz.value f k1
    rw [k4, k2, k3, hx', made_at, k2, k3, turn_turn hl hi] at e1
    injection e1 with e1
    rw [← e1]
    exact hFF i hi j hj
  obtain ⟨a, b, X', Y', e1, q1, q2, q3⟩ := C152_gradient_partial (T' := 2) (good3 i1 i2 i3).of_pair hE (le_refl 1) (by rw [i1]) (by rw [i2]; norm_num) hs
    (t := none) (Or.inl ⟨rfl, by rw [i1]⟩) (by rw [i2]) (by norm_num)
  obtain ⟨res, hres, hR⟩ := (hall [.gradient x none] 0).1 rfl
  simp only [Spec.answer, e1] at hR
  obtain ⟨outs, rfl, hL, -⟩ := hR
  obtain ⟨o1, l1, L1, rest1, rfl⟩ := List.forall₂_cons_left_iff.mp hL
  obtain ⟨o2, l2, L2, rest2, rfl⟩ := List.forall₂_cons_left_iff.mp rest1
  have := List.forall₂_nil_left_iff.mp rest2
  subst this
  refine ⟨o1, o2, ?_, X' [] 0 0, Y' [] 0 0, ?_, ?_⟩
  · unfold run session at hres ⊢
    simp only [session, List.getElem?_cons_zero, Option.some.injEq] at hres
    rw [hres]; rfl
  · have := q3 [] 0 0 (by simp)
    rw [i3] at this; exact this
  · intro X Y hXY h1 h2
    obtain ⟨f, k1, k2, k3, k4⟩ := point_of (e := []) hx hp.memLat hp.memLon hp.ne (i := 1) (j := 0) (by rw [sz.1]; norm_num) (by rw [sz.2]; norm_num)
      (by rw [hx', made_extra]; trivial)
    have ht1 : Spec.turn lats 1 = 1 := by unfold Spec.turn; rw [hl]; split <;> rfl
    have fin : ∀ {r : NDArr ℝ} {out : WArr ℝ ℝ} {G G' : List ℕ → ℝ → ℝ → ℝ}, Spec.Labels x "lat" "lon" lats out r → Spec.Samples w.inst [] r G' →
        Spec.SampledAt some out "lat" "lon" G → G [] 0 0 = G' [] 0 0 := by
      intro r out G G' L S hG'
      have v := L.value f k1
      have mv : (out.dims.map fun d => Spec.move "lat" lats d (f d)) = out.dims.map f := by
        apply List.map_congr_left
        intro d _
        unfold Spec.move
        by_cases e : d = "lat"
        · rw [if_pos e, e, k2, ht1]
        · rw [if_neg e]
      have : Spec.at out (fun d => Spec.move "lat" lats d (f d)) = Spec.at out f := by unfold Spec.at; rw [mv]
      rw [this, k2, k3, k4, ht1, S.2 [] trivial 1 0 (by rw [i1]; norm_num) (by rw [i2]; norm_num)] at v
      have hl0 : w.inst.lat 1 = 0 := by rw [i6]; norm_num
      have hl1 : w.inst.lon 0 = 0 := by unfold Inst.lon; simp
      simp only [hl0, hl1] at v
      have hpo : Spec.Point out f := fun d hd => by rw [L.size d (L.dims ▸ hd)]; exact k1 d (L.dims ▸ hd)
      obtain ⟨c, c1, -, -, c2⟩ := L.coord "lat" hp.memLat _ hf.isLat.2.1
      obtain ⟨d, d1, -, -, d2⟩ := L.coord "lon" hp.memLon _ ((carries_iff hx.names).mpr (made_lon _).symm)
      have g := hG' c d c1 d1 f hpo
      have x1 := c2 1 (by rw [sz.1]; norm_num)
      have x2 := d2 0 (by rw [sz.2]; norm_num)
      simp only [Spec.move, if_pos, ht1] at x1
      rw [show Spec.move "lat" lats "lon" 0 = 0 from if_neg (by decide)] at x2
      rw [v, k2, k3, List.getD_eq_getElem?_getD, List.getD_eq_getElem?_getD, x1, x2, ← List.getD_eq_getElem?_getD, ← List.getD_eq_getElem?_getD, h0, h0', rad_zero,
        L.dims, k4] at g
      injection g with g
      exact g.symm
    rw [← fin L1 q1 h1, ← fin L2 q2 h2]
    exact hXY [] 0 0 (by simp)

/-- What C242 would say of every labelled field whose rows and columns are as many as the wind's: the gradient is right at the labels. -/
def Spec.GradientAtLabels (w : WObj ℝ) (x : WArr ℝ Cell) (F : ℝ → ℝ → ℝ) : Prop :=
  ∃ X Y : List ℕ → ℝ → ℝ → ℝ, (∀ e φ l, Real.cos φ ≠ 0 → Spec.HasGradient w.inst.rsphere F φ l (X e φ l) (Y e φ l)) ∧
    ∃ gx gy, run w [.gradient x none] = [.ok [gx, gy]] ∧ Spec.SampledAt some gx "lat" "lon" X ∧ Spec.SampledAt some gy "lat" "lon" Y

/-- C242 fails when the latitudes of the field are not those of the wind: they are never compared. The field `sin φ` labelled 30, 0, -30 gets
half its gradient at the equator. -/
theorem C242_latitudes_false : ∃ (lib : Grid → Leg → ℕ → ℕ → ℚ → Inst) (u v x : WArr ℝ Cell) (w : WObj ℝ), Spec.Lib lib ∧ Spec.Proper u ∧
    Spec.Proper v ∧ Spec.Proper x ∧ construct lib (fun _ => none) u v 1 "stored" (some "regular") = .ok w ∧ Spec.OnGrid w.inst u "lat" "lon" ∧
    Spec.Exact w.inst 1 ∧ (∃ c, Spec.Frame x "lat" "lon" c ∧ c ∈ x.coords) ∧ Spec.size x "lat" = w.inst.nlat ∧ Spec.size x "lon" = w.inst.nlon ∧
    Spec.SampledAt Spec.cell x "lat" "lon" (fun _ φ _ => Real.sin φ) ∧ (∃ gx gy, run w [.gradient x none] = [.ok [gx, gy]]) ∧
    ¬ Spec.GradientAtLabels w x fun φ _ => Real.sin φ := by
  obtain ⟨I, i1, i2, i3, i4, i5, i6, hE⟩ := inst3
  obtain ⟨w, hw, rfl⟩ := made_construct i1 i2 i3 i4 i5 (fun _ => none) (fun _ _ => 0) (fun _ _ => 0)
  have hs : Spec.series 1 (coriolisSpec (1 / 2)) = fun φ _ => Real.sin φ := by funext φ l; rw [coriolis_series]; ring
  have s30 : Real.sin (Spec.rad 30) = 1 / 2 := by rw [show Spec.rad 30 = Real.pi / 6 by unfold Spec.rad; ring, Real.sin_pi_div_six]
  obtain ⟨gx, gy, e1, a, b, h1, h2⟩ := odd_labels i1 i2 i3 i6 hE (libOf_lib _) (made_proper (lats := lats0) (lons := lons0) rfl rfl _) (made_proper (lats := lats0) (lons := lons0) rfl rfl _) hw rfl
    (lats := [30, 0, -30]) (lons := lons0) rfl rfl rfl rfl (coriolisSpec (1 / 2)) (coriolisSpec (1 / 4)) (by
      intro i hi j hj
      rw [coriolis_series, coriolis_series, i6]
      have ht : Spec.turn ([30, 0, -30] : List ℝ) i = i := by unfold Spec.turn; rw [if_neg (by norm_num)]
      rw [ht]
      interval_cases i
      · show 2 * (1 / 2) * Real.sin (Spec.rad 30) = _; rw [s30]; norm_num
      · show 2 * (1 / 2) * Real.sin (Spec.rad 0) = _; rw [rad_zero]; norm_num
      · show 2 * (1 / 2) * Real.sin (Spec.rad (-30)) = _
        rw [show Spec.rad (-30) = -Spec.rad 30 by unfold Spec.rad; ring, Real.sin_neg, s30]
        have : Real.pi / 2 - ((2 : ℕ) : ℝ) * (Real.pi / 2) = -(Real.pi / 2) := by push_cast; ring
        beta_reduce
        rw [this, Real.sin_neg, Real.sin_pi_div_two]; norm_num)
  rw [hs] at e1 h2
  refine ⟨_, _, _, made [30, 0, -30] lons0 fun φ _ => Real.sin φ, w, libOf_lib _, made_proper rfl rfl _, made_proper rfl rfl _, made_proper rfl rfl _, hw, made_onGrid i6 _, hE,
    ⟨_, made_frame rfl rfl _, by simp [made]⟩, by rw [(made_size _).1, i1], by rw [(made_size _).2, i2], made_sampled rfl rfl _, ⟨gx, gy, e1⟩, ?_⟩
  rintro ⟨X, Y, q1, gx', gy', q2, q3, q4⟩
  rw [e1] at q2
  simp only [List.cons.injEq, Except.ok.injEq, and_true] at q2
  obtain ⟨rfl, rfl⟩ := q2
  rw [i3] at q1
  have g1 := (h2 X Y q1 q3 q4)
  have t1 : Spec.HasGradient 1 (fun φ _ => Real.sin φ) 0 0 0 1 :=
    ⟨0, 1, hasDerivAt_const _ _, by simpa using Real.hasDerivAt_sin 0, by simp, by simp⟩
  have t2 : Spec.HasGradient 1 (Spec.series 1 (coriolisSpec (1 / 4))) 0 0 0 (1 / 2) := by
    have : Spec.series 1 (coriolisSpec (1 / 4)) = fun φ _ => 1 / 2 * Real.sin φ := by funext φ l; rw [coriolis_series]; ring
    rw [this]
    exact ⟨0, 1 / 2, hasDerivAt_const _ _, by have := (Real.hasDerivAt_sin 0).const_mul (1 / 2 : ℝ); rwa [Real.cos_zero, mul_one] at this, by simp, by simp⟩
  have := (gradient_unique h1 t2).2
  have := (gradient_unique g1 t1).2
  linarith

/-- C240 fails when the longitudes do not go eastwards from 0 in equal steps: longitude labels are never read. Of the field `cos φ sin λ` labelled 0, 270, 180, 90
the zonal gradient comes out with the wrong sign. -/
theorem C240_longitudes_false : ∃ (lib : Grid → Leg → ℕ → ℕ → ℚ → Inst) (u v x : WArr ℝ Cell) (w : WObj ℝ), Spec.Lib lib ∧ Spec.Proper u ∧
    Spec.Proper v ∧ Spec.Proper x ∧ construct lib (fun _ => none) u v 1 "stored" (some "regular") = .ok w ∧ Spec.OnGrid w.inst u "lat" "lon" ∧
    Spec.Exact w.inst 1 ∧ (∃ c, Spec.Frame x "lat" "lon" c ∧ c ∈ x.coords ∧ c ∈ u.coords) ∧
    (∃ c, Spec.Carries x "lon" c ∧ c.vals = [0, 270, 180, 90]) ∧ Spec.size x "lon" = w.inst.nlon ∧
    Spec.SampledAt Spec.cell x "lat" "lon" (fun _ φ l => Real.cos φ * Real.sin l) ∧ (∃ gx gy, run w [.gradient x none] = [.ok [gx, gy]]) ∧
    ¬ Spec.GradientAtLabels w x fun φ l => Real.cos φ * Real.sin l := by
  obtain ⟨I, i1, i2, i3, i4, i5, i6, hE⟩ := inst3
  obtain ⟨w, hw, rfl⟩ := made_construct i1 i2 i3 i4 i5 (fun _ => none) (fun _ _ => 0) (fun _ _ => 0)
  have hs : Spec.series 1 (waveSpec 1) = fun φ l => Real.cos φ * Real.sin l := by funext φ l; rw [wave_series]; ring
  have s270 : Real.sin (Spec.rad 270) = -1 := by
    rw [show Spec.rad 270 = -(Real.pi / 2) + 2 * Real.pi by unfold Spec.rad; ring, Real.sin_add_two_pi, Real.sin_neg, Real.sin_pi_div_two]
  have s180 : Real.sin (Spec.rad 180) = 0 := by rw [show Spec.rad 180 = Real.pi by unfold Spec.rad; ring, Real.sin_pi]
  obtain ⟨gx, gy, e1, a, b, h1, h2⟩ := odd_labels i1 i2 i3 i6 hE (libOf_lib _) (made_proper (lats := lats0) (lons := lons0) rfl rfl _) (made_proper (lats := lats0) (lons := lons0) rfl rfl _) hw rfl
    (lats := lats0) (lons := [0, 270, 180, 90]) rfl rfl rfl rfl (waveSpec 1) (waveSpec (-1)) (by
      intro i hi j hj
      rw [wave_series, wave_series]
      have hg := made_onGrid i6 (fun _ _ => 0) _ _ (carries_coordOf _ _) (carries_coordOf _ _)
      rw [made_lat, made_lon, (made_size _).1, (made_size _).2] at hg
      have hl := hg.1 (Spec.turn lats0 i) (turn_lt rfl hi)
      rw [turn_turn (n := 3) rfl hi] at hl
      dsimp only at hl
      rw [hl]
      have hlon : ∀ j : ℕ, w.inst.lon j = Spec.rad (90 * j) := by intro j; unfold Inst.lon Spec.rad; rw [i2]; push_cast; ring
      rw [hlon]
      have key : Real.sin (Spec.rad ([0, 270, 180, 90].getD j 0)) = - Real.sin (Spec.rad (90 * j)) := by
        interval_cases j
        · show Real.sin (Spec.rad 0) = _; norm_num [rad_zero]
        · show Real.sin (Spec.rad 270) = _; rw [s270]; norm_num [rad_90]
        · show Real.sin (Spec.rad 180) = _; norm_num [s180]
        · show Real.sin (Spec.rad 90) = _; norm_num [rad_90, s270]
      rw [key]; ring)
  rw [hs] at e1 h2
  have hp := made_proper (lats := lats0) (lons := [0, 270, 180, 90]) rfl rfl fun φ l => Real.cos φ * Real.sin l
  refine ⟨_, _, _, made lats0 [0, 270, 180, 90] fun φ l => Real.cos φ * Real.sin l, w, libOf_lib _, made_proper rfl rfl _, made_proper rfl rfl _, hp, hw, made_onGrid i6 _, hE,
    ⟨_, made_frame rfl rfl _, by simp [made], by simp [made]⟩, ⟨_, (carries_iff hp.names).mpr (made_lon _).symm, rfl⟩, by rw [(made_size _).2, i2], made_sampled rfl rfl _, ⟨gx, gy, e1⟩, ?_⟩
  rintro ⟨X, Y, q1, gx', gy', q2, q3, q4⟩
  rw [e1] at q2
  simp only [List.cons.injEq, Except.ok.injEq, and_true] at q2
  obtain ⟨rfl, rfl⟩ := q2
  rw [i3] at q1
  have g1 := (h2 X Y q1 q3 q4)
  have t : ∀ s : ℝ, Spec.HasGradient 1 (fun φ l => s * Real.cos φ * Real.sin l) 0 0 s 0 := by
    intro s
    refine ⟨s, 0, ?_, ?_, by simp, by simp⟩
    · simpa using (Real.hasDerivAt_sin 0).const_mul (s * Real.cos 0)
    · simpa using hasDerivAt_const (0 : ℝ) (0 : ℝ)
  have t2 := t (-1)
  have t1 := t 1
  have : Spec.series 1 (waveSpec (-1)) = fun φ l => -1 * Real.cos φ * Real.sin l := by funext φ l; rw [wave_series]
  rw [← this] at t2
  simp only [one_mul] at t1
  have := (gradient_unique h1 t2).1
  have := (gradient_unique g1 t1).1
  linarith

/-- A wind without coordinates; in every row its number. -/
noncomputable def bare : WArr ℝ Cell := ⟨["lat", "lon"], ⟨[3, 4], fun i => .num ((i.getD 0 0 : ℕ) : ℝ)⟩, [], none, []⟩

theorem bare_proper : Spec.Proper bare := ⟨by simp [bare], rfl, by simp [bare], by simp [bare]⟩

theorem bare_size : Spec.size bare "lat" = 3 ∧ Spec.size bare "lon" = 4 := by
  constructor <;> simp [Spec.size, bare, List.idxOf, List.findIdx_cons]

theorem bare_lat : coordOf bare "lat" = ⟨"lat", [0, 1, 2], none, none⟩ := by
  have := bare_size.1
  unfold Spec.size at this
  simp only [coordOf, bare, List.find?_nil] at this ⊢
  rw [this]
  simp [List.range_succ]

theorem bare_lon : coordOf bare "lon" = ⟨"lon", [0, 1, 2, 3], none, none⟩ := by
  have := bare_size.2
  unfold Spec.size at this
  simp only [coordOf, bare, List.find?_nil] at this ⊢
  rw [this]
  simp [List.range_succ]

theorem bare_frame : Spec.Frame bare "lat" "lon" ⟨"lat", [0, 1, 2], none, none⟩ := by
  have hp := bare_proper
  refine ⟨⟨by simp [bare], (carries_iff hp.names).mpr bare_lat.symm, by simp [Spec.LatLike], ?_⟩,
    ⟨_, by simp [bare], (carries_iff hp.names).mpr bare_lon.symm, by simp [Spec.LonLike], ?_⟩, by decide,
    by rw [bare_size.1]; norm_num⟩
  · intro d hd c' hc' hL
    rw [carries_iff hp.names] at hc'
    simp only [bare, List.mem_cons, List.not_mem_nil, or_false] at hd
    rcases hd with rfl | rfl
    · rfl
    · rw [hc', bare_lon] at hL; simp [Spec.LatLike] at hL
  · intro d hd c' hc' hL
    rw [carries_iff hp.names] at hc'
    simp only [bare, List.mem_cons, List.not_mem_nil, or_false] at hd
    rcases hd with rfl | rfl
    · rw [hc', bare_lat] at hL; simp [Spec.LonLike] at hL
    · rfl

/-- C238 fails for winds without a latitude coordinate, their grid named: the rows, numbered 0, 1, 2, count as going north and are turned over, but the
numbers are not. Asked for the wind it was given, the object returns it upside down under the same labels. -/
theorem C238_labels_false : ∃ (lib : Grid → Leg → ℕ → ℕ → ℚ → Inst) (u : WArr ℝ Cell) (w : WObj ℝ), Spec.Lib lib ∧ Spec.Proper u ∧ u.coords = [] ∧
    construct lib (fun _ => none) u u 1 "stored" (some "regular") = .ok w ∧ ∃ out, run w [.u] = [.ok [out]] ∧ out.dims = u.dims ∧
      (∀ d ∈ u.dims, (coordOf out d).vals = (coordOf u d).vals) ∧
      ∃ f, Spec.Point u f ∧ Spec.at u f ≠ .num (Spec.at out f) := by
  obtain ⟨I, i1, i2, i3, i4, i5, i6, hE⟩ := inst3
  have hu := bare_proper
  have hf := bare_frame
  obtain ⟨w, hw⟩ := (C241_accept_partial (libOf I) (fun _ => none) hu hu 1 "stored" (some "regular") (by
      intro lat lon c h
      obtain ⟨rfl, rfl, rfl⟩ := frame_unique hu hf h
      rw [bare_size.1, bare_size.2]; norm_num)).1.mpr
    ⟨rfl, fun _ _ => rfl, by
      intro d hd c c' h1 h2
      rw [carries_unique hu.names h1 h2], fun _ _ => ⟨_, rfl⟩, fun _ _ => ⟨_, rfl⟩, by norm_num, Or.inl rfl, "lat", "lon", _, .regular, hf,
      by rw [bare_size.1], by rw [bare_size.2], Or.inl ⟨lower_regular, rfl⟩, by rintro ⟨h, -⟩; cases h⟩
  obtain ⟨lat, lon, c, hh, -⟩ := holds hu hu hw
  obtain ⟨rfl, rfl, rfl⟩ := frame_unique hu hf hh.frame
  have hasc : asc (⟨"lat", [0, 1, 2], none, none⟩ : Coord ℝ) = true := by unfold asc; norm_num
  have hord : order bare "lat" "lon" = ["lat", "lon"] := by simp [order, bare, Spec.rest]
  have hish : w.ishape = [3, 4] := by
    rw [hh.ishape]
    have hL := lay_arranged hu (placed hu hf) (asc := asc (⟨"lat", [0, 1, 2], none, none⟩ : Coord ℝ)) rfl
    unfold order
    rw [hL.1, List.map_cons, List.map_cons, bare_size.1, bare_size.2]
    simp [bare, Spec.rest]
  have hco : w.coords = [⟨"lat", [0, 1, 2], none, none⟩, ⟨"lon", [0, 1, 2, 3], none, none⟩] := by
    rw [hh.coords, hasc, hord]
    unfold dimCoords
    show [coordOf _ "lat", coordOf _ "lon"] = _
    have hpm : (["lat", "lon"] : List String).Perm (turned bare "lat" true).dims := List.Perm.refl _
    rw [coordOf_transpose (turned_proper hu _ _) hpm (by simp [turned, reverse, bare]), coordOf_transpose (turned_proper hu _ _) hpm (by simp [turned, reverse, bare])]
    unfold turned
    rw [if_pos rfl, coordOf_reverse hu, coordOf_reverse hu, if_neg (by simp [bare]), if_neg (by simp [bare]), bare_lat, bare_lon]
  have hre : w.reorder = ["lat", "lon"] := by rw [hh.reorder]; rfl
  have hsh : w.u.shape = [3, 4] := by
    rw [hh.hu.shape, bare_size.1, bare_size.2]; simp [bare, Spec.rest]
  have hval : w.u.get [2, 0] = 0 := by
    have := hh.hu.value (fun _ => 0) (by intro d hd; simp only [bare, List.mem_cons, List.not_mem_nil, or_false] at hd; rcases hd with rfl | rfl <;> simp [bare_size])
    have ht : Spec.turn ([0, 1, 2] : List ℝ) 0 = 2 := by unfold Spec.turn; rw [if_pos (by norm_num)]; rfl
    rw [ht] at this
    have hr : Spec.rest bare.dims "lat" "lon" = [] := by simp [bare, Spec.rest]
    rw [hr] at this
    have h0 : Spec.at bare (fun _ => 0) = .num 0 := by simp [Spec.at, bare]
    rw [h0] at this
    injection this with this
    exact this.symm
  obtain ⟨d, e1, e2, e3⟩ := reshape_same hsh
  set out : WArr ℝ ℝ := transposeTo ⟨["lat", "lon"], d, w.coords, some "u", attrs3 "m s**-1" "eastward_wind" "eastward_component_of_wind"⟩ ["lat", "lon"] with hout
  have hpr : Spec.Proper (⟨["lat", "lon"], d, w.coords, some "u", attrs3 "m s**-1" "eastward_wind" "eastward_component_of_wind"⟩ : WArr ℝ ℝ) := by
    refine ⟨by simp, by simp [e2], ?_, by simp [hco]⟩
    intro c hc
    rw [hco] at hc
    simp only [List.mem_cons, List.not_mem_nil, or_false] at hc
    rcases hc with rfl | rfl <;> simp [e2, List.idxOf, List.findIdx_cons]
  refine ⟨libOf I, bare, w, libOf_lib I, hu, rfl, hw, out, ?_, rfl, ?_, fun d => if d = "lat" then 2 else 0, ?_, ?_⟩
  · have : labelled w.ishape w.coords w.reorder w.u (some "u") (attrs3 "m s**-1" "eastward_wind" "eastward_component_of_wind") = .ok out := by
      unfold labelled
      rw [hish, e1, hre]
      simp only [hout, hco, List.map_cons, List.map_nil]
    show [labelAll w [w.u] _] = _
    unfold labelAll
    simp only [XQuery.labels, List.zip_cons_cons, List.zip_nil_right, List.mapM_cons, List.mapM_nil, this, bind, Except.bind, pure, Except.pure]
  · intro n hn
    rw [hout, coordOf_transpose hpr (List.Perm.refl _) hn]
    simp only [bare, List.mem_cons, List.not_mem_nil, or_false] at hn
    rcases hn with rfl | rfl
    · rw [bare_lat]; simp [coordOf, hco]
    · rw [bare_lon]; simp [coordOf, hco]
  · intro n hn
    simp only [bare, List.mem_cons, List.not_mem_nil, or_false] at hn
    beta_reduce
    rcases hn with rfl | rfl
    · rw [if_pos rfl, bare_size.1]; norm_num
    · rw [if_neg (by decide), bare_size.2]; norm_num
  · have hL := lay_transposeTo hpr.dims (lay hpr) (List.Perm.refl _)
    have h0 : Spec.at bare (fun d => if d = "lat" then 2 else 0) = .num 2 := by simp [Spec.at, bare]
    have h1 : Spec.at out (fun d => if d = "lat" then 2 else 0) = 0 := by
      have := hL.2 (fun d => if d = "lat" then 2 else 0) (by
        intro n hn
        simp only [List.mem_cons, List.not_mem_nil, or_false] at hn
        rcases hn with rfl | rfl <;> simp [Spec.size, e2, List.idxOf, List.findIdx_cons])
      unfold Spec.at at this ⊢
      rw [hout]
      refine this.trans ?_
      show d.get [2, 0] = 0
      rw [e3 _ (by simp [InB]), hval]
    rw [h0, h1]
    intro e
    injection e with e
    norm_num at e

end Skyborn.WindXr
