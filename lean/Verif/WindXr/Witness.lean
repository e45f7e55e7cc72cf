/-
Winds and fields on a small labelled grid: the hypotheses of C238-C242 can be met, and where the properties fail without them.
-/
import Verif.WindXr.Exact

namespace Skyborn.WindXr

open Skyborn Windspharm Sphere

/-- A field on labels, longitude first: three latitudes, four longitudes. -/
noncomputable def made (lats lons : List ℝ) (F : ℝ → ℝ → ℝ) : WArr ℝ Cell :=
  ⟨["lon", "lat"], ⟨[4, 3], fun i => .num (F (Spec.rad (lats.getD (i.getD 1 0) 0)) (Spec.rad (lons.getD (i.getD 0 0) 0)))⟩,
    [⟨"lat", lats, none, none⟩, ⟨"lon", lons, none, none⟩], none, []⟩

section
variable {lats lons : List ℝ} (hl : lats.length = 3) (hm : lons.length = 4) (F : ℝ → ℝ → ℝ)

theorem made_size : Spec.size (made lats lons F) "lat" = 3 ∧ Spec.size (made lats lons F) "lon" = 4 := by
  constructor <;> simp [Spec.size, made, List.idxOf, List.findIdx_cons]

include hl hm in
theorem made_proper : Spec.Proper (made lats lons F) := by
  refine ⟨by simp [made], rfl, ?_, by simp [made]⟩
  intro c hc
  simp only [made, List.mem_cons, List.not_mem_nil, or_false] at hc
  rcases hc with rfl | rfl
  · exact ⟨by simp [made], by simp [made, hl, List.idxOf, List.findIdx_cons]⟩
  · exact ⟨by simp [made], by simp [made, hm, List.idxOf, List.findIdx_cons]⟩

theorem made_lat : coordOf (made lats lons F) "lat" = ⟨"lat", lats, none, none⟩ := by simp [coordOf, made]
theorem made_lon : coordOf (made lats lons F) "lon" = ⟨"lon", lons, none, none⟩ := by simp [coordOf, made]

include hl hm in
theorem made_frame : Spec.Frame (made lats lons F) "lat" "lon" ⟨"lat", lats, none, none⟩ := by
  have hp := made_proper hl hm F
  refine ⟨⟨by simp [made], (carries_iff hp.names).mpr (made_lat F).symm, by simp [Spec.LatLike], ?_⟩,
    ⟨⟨"lon", lons, none, none⟩, by simp [made], (carries_iff hp.names).mpr (made_lon F).symm, by simp [Spec.LonLike], ?_⟩, by decide,
    by rw [(made_size F).1]; norm_num⟩
  · intro d hd c' hc' hL
    rw [carries_iff hp.names] at hc'
    simp only [made, List.mem_cons, List.not_mem_nil, or_false] at hd
    rcases hd with rfl | rfl
    · rw [hc', made_lon] at hL; simp [Spec.LatLike] at hL
    · rfl
  · intro d hd c' hc' hL
    rw [carries_iff hp.names] at hc'
    simp only [made, List.mem_cons, List.not_mem_nil, or_false] at hd
    rcases hd with rfl | rfl
    · rfl
    · rw [hc', made_lat] at hL; simp [Spec.LonLike] at hL

theorem made_numbers : Spec.AllNumbers (made lats lons F) := fun _ _ => ⟨_, rfl⟩

theorem made_at (f : String → ℕ) : Spec.at (made lats lons F) f = .num (F (Spec.rad (lats.getD (f "lat") 0)) (Spec.rad (lons.getD (f "lon") 0))) := rfl

include hl hm in
theorem made_sampled : Spec.SampledAt Spec.cell (made lats lons F) "lat" "lon" fun _ => F := by
  intro c c' hc hc' f _
  have hp := made_proper hl hm F
  rw [carries_iff hp.names] at hc hc'
  rw [hc, hc', made_lat, made_lon, made_at]
  rfl

end

theorem made_rest {lats lons : List ℝ} (F : ℝ → ℝ → ℝ) : Spec.rest (made lats lons F).dims "lat" "lon" = [] := by
  simp [Spec.rest, made]

theorem made_extra {lats lons : List ℝ} (F : ℝ → ℝ → ℝ) : Spec.extra (made lats lons F) "lat" "lon" = [] := by
  unfold Spec.extra; rw [made_rest]; rfl

/-- The labels of the grid, rows south to north. -/
def lats0 : List ℝ := [-90, 0, 90]
/-- Eastwards from Greenwich. -/
def lons0 : List ℝ := [0, 90, 180, 270]

/-- Transforms on three regular rows with exact analyses exist. -/
theorem inst3 : ∃ I : Inst, I.nlat = 3 ∧ I.nlon = 4 ∧ I.rsphere = 1 ∧ I.grid = .regular ∧ I.leg = .stored ∧
    I.lat = (fun i : ℕ => Real.pi / 2 - i * (Real.pi / 2)) ∧ Spec.Exact I 1 := by
  set J : Inst := ⟨3, 4, 1, .regular, .stored, fun i => Real.pi / 2 - i * (Real.pi / (((3 : ℕ) : ℝ) - 1)), fun _ _ _ => 0, fun _ _ _ _ => 0,
    fun _ _ _ _ => 0, fun _ _ _ _ => 0⟩ with hJ
  have hreg : Spec.Regular J := ⟨rfl, fun _ _ => rfl⟩
  have hrows := hreg.rows (by rw [hJ])
  have hc := card_interior hrows
  obtain ⟨I, h1, h2, h3, h4, h5, h6, hE⟩ := exact_exists J hrows (by rw [hJ]) (by rw [hJ]) (K := 1) (by rw [hJ]; norm_num)
    (by simp only [hJ] at hc ⊢; omega)
  exact ⟨I, h1, h2, h3, h4, h5, by rw [h6, hJ]; norm_num, hE⟩

/-- The transform objects made for each grid. -/
noncomputable def libOf (I : Inst) : Grid → Leg → ℕ → ℕ → ℚ → Inst := fun g l n m r =>
  { I with nlat := n, nlon := m, rsphere := r, grid := g, leg := l }

theorem libOf_lib (I : Inst) : Spec.Lib (libOf I) := fun _ _ _ _ _ => ⟨rfl, rfl, rfl, rfl, rfl⟩


/-- Winds on that grid are accepted, and the transform is the given one. -/
theorem made_construct {I : Inst} (i1 : I.nlat = 3) (i2 : I.nlon = 4) (i3 : I.rsphere = 1) (i4 : I.grid = .regular) (i5 : I.leg = .stored)
    (gauss : ℕ → Option (ℕ → ℝ)) (U V : ℝ → ℝ → ℝ) :
    ∃ w, construct (libOf I) gauss (made lats0 lons0 U) (made lats0 lons0 V) 1 "stored" (some "regular") = .ok w ∧ w.inst = I := by
  have hu := made_proper (lats := lats0) (lons := lons0) rfl rfl U
  have hv := made_proper (lats := lats0) (lons := lons0) rfl rfl V
  have hf := made_frame (lats := lats0) (lons := lons0) rfl rfl U
  obtain ⟨w, hw⟩ := (C241_accept_partial (libOf I) gauss hu hv 1 "stored" (some "regular") (by
      intro lat lon c h
      obtain ⟨rfl, rfl, rfl⟩ := frame_unique hu hf h
      rw [(made_size U).1, (made_size U).2]; norm_num)).1.mpr
    ⟨rfl, by
      intro d hd
      simp only [made, List.mem_cons, List.not_mem_nil, or_false] at hd
      rcases hd with rfl | rfl
      · rw [(made_size U).2, (made_size V).2]
      · rw [(made_size U).1, (made_size V).1], by
      intro d hd c c' h1 h2
      rw [carries_iff hu.names] at h1
      rw [carries_iff hv.names] at h2
      simp only [made, List.mem_cons, List.not_mem_nil, or_false] at hd
      rcases hd with rfl | rfl
      · rw [h1, h2, made_lon, made_lon]
      · rw [h1, h2, made_lat, made_lat], made_numbers U, made_numbers V, by norm_num, Or.inl rfl, "lat", "lon", _, .regular, hf,
      by rw [(made_size U).1], by rw [(made_size U).2], Or.inl ⟨lower_regular, rfl⟩, by rintro ⟨h, -⟩; cases h⟩
  refine ⟨w, hw, ?_⟩
  obtain ⟨lat, lon, c, hh, g, s, l, hg, hgs, hlg, hr, hi⟩ := holds hu hv hw
  obtain ⟨rfl, rfl, rfl⟩ := frame_unique hu hf hh.frame
  rw [(made_size U).1, (made_size U).2] at hi
  unfold gridName at hg
  simp only [lower_regular, true_or, if_true, Except.ok.injEq] at hg
  subst hg
  unfold gridOf at hgs
  rw [if_pos lower_regular] at hgs
  injection hgs with hgs
  have : l = .stored := by
    have e : legOf "stored" = some .stored := rfl
    rw [e] at hlg; injection hlg with hlg; exact hlg.symm
  subst this hgs
  rw [hi]
  unfold libOf
  obtain ⟨a, b, c, d, e, f, g1, g2, g3, g4⟩ := I
  simp only at i1 i2 i3 i4 i5
  subst i1 i2 i3 i4 i5
  simp

theorem rad_zero : Spec.rad 0 = 0 := by simp [Spec.rad]
theorem rad_90 : Spec.rad 90 = Real.pi / 2 := by unfold Spec.rad; ring
theorem rad_n90 : Spec.rad (-90) = -(Real.pi / 2) := by unfold Spec.rad; ring

/-- Its labels are those of the grid. -/
theorem made_onGrid {I : Inst} (h6 : I.lat = fun i : ℕ => Real.pi / 2 - i * (Real.pi / 2)) (F : ℝ → ℝ → ℝ) :
    Spec.OnGrid I (made lats0 lons0 F) "lat" "lon" := by
  intro c c' hc hc'
  have hp := made_proper (lats := lats0) (lons := lons0) rfl rfl F
  rw [carries_iff hp.names] at hc hc'
  rw [hc, hc', made_lat, made_lon, (made_size F).1, (made_size F).2]
  have ht : ∀ k, Spec.turn lats0 k = 2 - k := by intro k; unfold Spec.turn; rw [if_pos (by norm_num [lats0])]; rfl
  constructor
  · intro k hk
    rw [ht, h6]
    interval_cases k
    · show Spec.rad (-90) = _; rw [rad_n90]; norm_num; ring
    · show Spec.rad 0 = _; rw [rad_zero]; norm_num
    · show Spec.rad 90 = _; rw [rad_90]; norm_num
  · intro j hj
    interval_cases j <;> norm_num [lons0]

theorem good3 {I : Inst} (i1 : I.nlat = 3) (i2 : I.nlon = 4) (i3 : I.rsphere = 1) : Good I ([] ++ [2]) :=
  ⟨by rw [i1], by rw [i2], by rw [i3]; norm_num, by norm_num, by rw [i1, i2]; norm_num⟩

/-- Hypotheses of C238 and C240 can be met: a rotating wind, sampled at labels given longitude first, south to north. -/
example : ∃ (lib : Grid → Leg → ℕ → ℕ → ℚ → Inst) (u v : WArr ℝ Cell) (w : WObj ℝ) (c : Coord ℝ) (U V : ℝ → ℝ → ℝ), Spec.Lib lib ∧ Spec.Proper u ∧
    Spec.Proper v ∧ construct lib (fun _ => none) u v 1 "stored" (some "regular") = .ok w ∧ Spec.Frame u "lat" "lon" c ∧ c ∈ u.coords ∧
    Spec.OnGrid w.inst u "lat" "lon" ∧ Spec.Exact w.inst 1 ∧ Good w.inst (Spec.extra u "lat" "lon" ++ [2]) ∧
    Spec.SampledAt Spec.cell u "lat" "lon" (fun _ => U) ∧ Spec.SampledAt Spec.cell v "lat" "lon" (fun _ => V) ∧
    Spec.BandWind (1 : ℚ) 1 U V ∧ 1 + 2 ≤ Spec.size u "lat" ∧ 2 * 1 < Spec.size u "lon" ∧ Spec.Truncation (Spec.size u "lat") none 2 ∧
    U (Real.pi / 4) 0 = uOn 1 (Spec.modes 1) (Spec.single 0 1 1) (fun _ _ => 0) (Real.pi / 4) 0 := by
  obtain ⟨I, i1, i2, i3, i4, i5, i6, hE⟩ := inst3
  obtain ⟨w, hw, rfl⟩ := made_construct i1 i2 i3 i4 i5 (fun _ => none) (uOn 1 (Spec.modes 1) (Spec.single 0 1 1) fun _ _ => 0)
    (vOn 1 (Spec.modes 1) (Spec.single 0 1 1) fun _ _ => 0)
  refine ⟨_, _, _, w, _, _, _, libOf_lib _, made_proper rfl rfl _, made_proper rfl rfl _, hw, made_frame rfl rfl _, by simp [made], made_onGrid i6 _, hE,
    by rw [made_extra]; exact good3 i1 i2 i3, made_sampled rfl rfl _, made_sampled rfl rfl _,
    ⟨Spec.single 0 1 1, fun _ _ => 0, ?_, ?_, by norm_num, by norm_num⟩, by rw [(made_size _).1], by rw [(made_size _).2]; norm_num,
    Or.inl ⟨rfl, by rw [(made_size _).1]⟩, rfl⟩
  · intro n; unfold Spec.single; split_ifs <;> simp
  · intro n; rfl

end Skyborn.WindXr
