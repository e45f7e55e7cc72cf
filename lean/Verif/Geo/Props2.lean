/-
Properties C97–C101: cyclic detection, symmetry, linearity, missing data and speed of the geostrophic wind functions.
-/
import Verif.Geo.Props

namespace Skyborn.Geo
open Skyborn Windspharm

variable (f32 : ℝ → ℝ) (r0 : Rows) (zz0 : ℕ → ℕ → ℝ) (out0 : ℕ → Wind)

/-! ## C97: which longitude grids are cyclic -/

/-- C97: a uniform grid of `n ≥ 3` longitudes covering the globe without repeating its first point is recognised as cyclic. -/
theorem C97_uniform (n : ℕ) (hn : 3 ≤ n) (lam : ℝ) : isCyclic ((List.range n).map fun k : ℕ => lam + 360 * (k : ℝ) / n) = true := by
  rw [isCyclic_iff]
  have hg : ∀ k, k < n → ((List.range n).map fun k : ℕ => lam + 360 * (k : ℝ) / n).getD k 0 = lam + 360 * (k : ℝ) / n := by
    intro k hk; rw [List.getD_eq_getElem _ _ (by simpa using hk)]; simp
  unfold Spec.Cyclic
  simp only [List.length_map, List.length_range]
  refine ⟨hn, Or.inl ?_⟩
  rw [hg _ (by omega), hg _ (by omega)]
  have hn0 : (n : ℝ) ≠ 0 := by positivity
  have hn1 : (n : ℝ) - 1 ≠ 0 := by
    have : (3 : ℝ) ≤ n := by exact_mod_cast hn
    linarith
  rw [Nat.cast_sub (by omega)]
  have : (lam + 360 * ((n : ℝ) - ((1 : ℕ) : ℝ)) / n - (lam + 360 * ((0 : ℕ) : ℝ) / n) +
      (lam + 360 * ((n : ℝ) - ((1 : ℕ) : ℝ)) / n - (lam + 360 * ((0 : ℕ) : ℝ) / n)) / ((n : ℝ) - 1) - 360) = 0 := by
    push_cast; field_simp; ring
  rw [this]; norm_num

/-- C97: a regional grid, whose span plus one mean step is at most 359 degrees, is not. -/
theorem C97_regional (lon : List ℝ) (hspan : 0 ≤ lon.getD (lon.length - 1) 0 - lon.getD 0 0)
    (hreg : (lon.getD (lon.length - 1) 0 - lon.getD 0 0) + (lon.getD (lon.length - 1) 0 - lon.getD 0 0) / ((lon.length : ℝ) - 1) ≤ 359) :
    isCyclic lon = false := by
  rw [← Bool.not_eq_true, isCyclic_iff]
  rintro ⟨h3, h⟩
  simp only [] at h
  have h3' : (3 : ℝ) ≤ lon.length := by exact_mod_cast h3
  have hst : 0 ≤ (lon.getD (lon.length - 1) 0 - lon.getD 0 0) / ((lon.length : ℝ) - 1) := div_nonneg hspan (by linarith)
  rcases h with h | h
  · have := (abs_lt.mp h).1; linarith
  · have := (abs_lt.mp h).1; linarith

example : 0 ≤ ([100, 120, 140] : List ℝ).getD (3 - 1) 0 - ([100, 120, 140] : List ℝ).getD 0 0 ∧
    (([100, 120, 140] : List ℝ).getD (3 - 1) 0 - ([100, 120, 140] : List ℝ).getD 0 0) +
      (([100, 120, 140] : List ℝ).getD (3 - 1) 0 - ([100, 120, 140] : List ℝ).getD 0 0) / (((3 : ℕ) : ℝ) - 1) ≤ 359 := by norm_num

/-- A longitude circle of four points, without and with the repeated point. -/
noncomputable def ring4 : List ℝ := [0, 90, 180, 270]
@[inherit_doc ring4]
noncomputable def ring5 : List ℝ := [0, 90, 180, 270, 360]
/-- A wave on it: 0, 1, 0, -1, 0. -/
noncomputable def wave (k : List ℕ) : ℝ := if k.getD 1 0 = 1 then 1 else if k.getD 1 0 = 3 then -1 else 0

theorem coef_ne : Spec.g / Spec.coriolis 30 ≠ 0 := by
  have : Spec.coriolis 30 = Spec.Ω := by
    unfold Spec.coriolis Spec.toRad
    rw [show (30 : ℝ) * (Real.pi / 180) = Real.pi / 6 by ring, Real.sin_pi_div_six]; ring
  rw [this]; unfold Spec.g Spec.Ω; norm_num

theorem cos_ne : Real.cos (Spec.toRad 30) ≠ 0 := by
  unfold Spec.toRad
  rw [show (30 : ℝ) * (Real.pi / 180) = Real.pi / 6 by ring, Real.cos_pi_div_six]; positivity

/-- C97 is false of the code in one respect: a grid that repeats its first longitude at the end (0 and 360) is treated as cyclic without dropping
the repeated column, so at the seam the difference spans one interval but is divided by two: the meridional wind there is half of what the
same field gives without the repeated column. -/
theorem C97_false : ¬ ∀ (m : ℕ) (lon : List ℝ) (lat : List ℝ) (z : NDArr ℝ) (missing : ℝ), lon.length = m + 1 → lat.length = 2 → 3 ≤ m →
    lat.Pairwise (· < ·) → lon.getD m 0 = lon.getD 0 0 + 360 → z.shape = [2, m + 1] → (∀ i, z.get [i, m] = z.get [i, 0]) →
    ∀ u v u' v', geostrophicWind id z lon lat ['y', 'x'] missing r0 zz0 out0 = .ok (u, v) →
      geostrophicWind id ⟨[2, m], z.get⟩ (lon.take m) lat ['y', 'x'] missing r0 zz0 out0 = .ok (u', v') → v.get [0, 0] = v'.get [0, 0] := by
  intro h
  have hN : ∀ m, Named ['y', 'x'] [2, m].length 0 1 := fun m =>
    ⟨⟨by decide, by decide, by decide, by decide, by decide, by simp⟩, by decide, by decide, by simp⟩
  have c4 : Spec.Cyclic ring4 := by
    refine ⟨by norm_num [ring4], Or.inl ?_⟩; norm_num [ring4]
  have c5 : Spec.Cyclic ring5 := by
    refine ⟨by norm_num [ring5], Or.inr ?_⟩; norm_num [ring5]
  obtain ⟨u, v, e, -, -, hv⟩ := C93_wind id r0 zz0 out0 ⟨[2, 5], wave⟩ ring5 [30, 60] ['y', 'x'] (-999) (hN 5) rfl rfl
    (by simp) (by simp [ring5]) (by norm_num)
  obtain ⟨u', v', e', -, -, hv'⟩ := C93_wind id r0 zz0 out0 ⟨[2, 4], wave⟩ ring4 [30, 60] ['y', 'x'] (-999) (hN 4) rfl rfl
    (by simp) (by simp [ring4]) (by norm_num)
  have key := h 4 ring5 [30, 60] ⟨[2, 5], wave⟩ (-999) rfl rfl (by norm_num) (by norm_num) (by norm_num [ring5]) rfl (by intro i; simp [wave])
    u v u' v' e e'
  rw [(hv [0, 0] (by simp [InB])).2 (by tauto), (hv' [0, 0] (by simp [InB])).2 (by tauto)] at key
  have husable : Spec.Usable (([30, 60] : List ℝ).getD 0 0) := by norm_num [Spec.Usable, abs_of_pos]
  unfold Spec.meridional at key
  simp only [List.getD_cons_zero] at husable key
  rw [if_pos husable, if_pos husable] at key
  rw [show decide (Spec.Cyclic ring5) = true by simpa using c5, show decide (Spec.Cyclic ring4) = true by simpa using c4,
    show ring5.length = 5 from rfl, show ring4.length = 4 from rfl, show ([0, 0] : List ℕ).getD 1 0 = 0 from rfl] at key
  have d5 : Spec.diff (-999) (Spec.slice (fun k => id (wave k)) 0 1 [0, 0] 0 (Spec.east 5 true 0))
      (Spec.slice (fun k => id (wave k)) 0 1 [0, 0] 0 (Spec.west 5 true 0)) = some 1 := by
    rw [diff_some] <;> norm_num [Spec.east, Spec.west, Spec.slice, wave]
  have d4 : Spec.diff (-999) (Spec.slice (fun k => id (wave k)) 0 1 [0, 0] 0 (Spec.east 4 true 0))
      (Spec.slice (fun k => id (wave k)) 0 1 [0, 0] 0 (Spec.west 4 true 0)) = some 2 := by
    rw [diff_some] <;> norm_num [Spec.east, Spec.west, Spec.slice, wave]
  rw [d5, d4] at key
  simp only [Option.map_some, Option.getD_some, Spec.intervals, if_true] at key
  have hstep : ring5.getD 1 0 - ring5.getD 0 0 = 90 ∧ ring4.getD 1 0 - ring4.getD 0 0 = 90 := by norm_num [ring4, ring5]
  rw [hstep.1, hstep.2] at key
  have hD : Spec.radius * Real.cos (Spec.toRad 30) * Spec.toRad (((2 : ℕ) : ℝ) * 90) ≠ 0 := by
    refine mul_ne_zero (mul_ne_zero (by norm_num [Spec.radius]) cos_ne) ?_
    unfold Spec.toRad; have := Real.pi_pos; positivity
  have := mul_left_cancel₀ coef_ne key
  rw [div_left_inj' hD] at this
  norm_num at this

/-! ## C98: turning the globe -/

theorem east_shift {m j s : ℕ} : (Spec.east m true j + s) % m = Spec.east m true ((j + s) % m) := by
  simp only [Spec.east, if_true, Nat.mod_add_mod]
  congr 1; omega

theorem west_shift {m j s : ℕ} (hm : 1 ≤ m) : (Spec.west m true j + s) % m = Spec.west m true ((j + s) % m) := by
  simp only [Spec.west, if_true, Nat.mod_add_mod]
  rw [show (j + s) % m + m - 1 = (j + s) % m + (m - 1) by omega, Nat.mod_add_mod]
  congr 1; omega

/-- C98: on a cyclic grid, rotating the heights by `s` columns rotates both wind components by `s` columns: no column is special. -/
theorem C98_rotation (z z' : NDArr ℝ) (lon lon' lat : List ℝ) (order : List Char) (missing : ℝ) {y x : ℕ} (s : ℕ)
    (hN : Named order z.shape.length y x) (hlat : lat.length = z.shape.getD y 0) (hlon : lon.length = z.shape.getD x 0)
    (hn : 2 ≤ lat.length) (hinc : lat.Pairwise (· < ·)) (hs : z'.shape = z.shape) (hl' : lon'.length = lon.length) (hc : Spec.Cyclic lon)
    (hc' : Spec.Cyclic lon') (hstep : lon'.getD 1 0 - lon'.getD 0 0 = lon.getD 1 0 - lon.getD 0 0)
    (hz : ∀ idx, InB z.shape idx → z'.get idx = z.get (idx.set x ((idx.getD x 0 + s) % lon.length))) :
    ∃ u v u' v', geostrophicWind f32 z lon lat order missing r0 zz0 out0 = .ok (u, v) ∧
      geostrophicWind f32 z' lon' lat order missing r0 zz0 out0 = .ok (u', v') ∧
      ∀ idx, InB z.shape idx → u'.get idx = u.get (idx.set x ((idx.getD x 0 + s) % lon.length)) ∧
        v'.get idx = v.get (idx.set x ((idx.getD x 0 + s) % lon.length)) := by
  have hm : 2 ≤ lon.length := by have := hc.1; omega
  obtain ⟨u, v, e, -, -, h⟩ := wind_asc f32 z lon lat order missing r0 zz0 out0 hN hlat hlon hn hm hinc
  obtain ⟨u', v', e', -, -, h'⟩ := wind_asc f32 z' lon' lat order missing r0 zz0 out0 (y := y) (x := x) (by rw [hs]; exact hN)
    (by rw [hs]; exact hlat) (by rw [hs, hl']; exact hlon) hn (by omega) hinc
  refine ⟨u, v, u', v', e, e', fun idx hidx => ?_⟩
  have hb := inB_iff.mp hidx
  have hi : idx.getD y 0 < lat.length := by rw [hlat]; exact hb.2 y hN.ylt
  have hj : idx.getD x 0 < lon.length := by rw [hlon]; exact hb.2 x hN.xlt
  have hxl : x < idx.length := by rw [hb.1]; exact hN.xlt
  have hyl : y < idx.length := by rw [hb.1]; exact hN.ylt
  set j' := (idx.getD x 0 + s) % lon.length with hj'
  have hj'lt : j' < lon.length := Nat.mod_lt _ (by omega)
  have hin : InB z.shape (idx.set x j') := by
    refine inB_iff.mpr ⟨by simpa using hb.1, fun d hd => ?_⟩
    rw [getD_set]
    split
    · rename_i q; rw [q.1, ← hlon]; exact hj'lt
    · exact hb.2 d hd
  obtain ⟨a1, a2⟩ := h _ hin
  obtain ⟨b1, b2⟩ := h' idx (by rw [hs]; exact hidx)
  have gy : (idx.set x j').getD y 0 = idx.getD y 0 := by rw [getD_set, if_neg (by have := hN.xy; tauto)]
  have gx : (idx.set x j').getD x 0 = j' := by rw [getD_set, if_pos ⟨rfl, hxl⟩]
  have sl : ∀ a b, Spec.slice (fun k => f32 (z.get k)) y x (idx.set x j') a b = Spec.slice (fun k => f32 (z.get k)) y x idx a b := by
    intro a b
    unfold Spec.slice
    rw [List.set_comm _ _ hN.xy, List.set_set, List.set_comm _ _ (Ne.symm hN.xy)]
  have sl' : ∀ a b, a < lat.length → b < lon.length → Spec.slice (fun k => f32 (z'.get k)) y x idx a b =
      Spec.slice (fun k => f32 (z.get k)) y x idx a ((b + s) % lon.length) := by
    intro a b ha hb'
    unfold Spec.slice
    beta_reduce
    rw [hz _ (inB_set hidx (hlat ▸ ha) (hlon ▸ hb'))]
    rw [getD_set, if_pos ⟨rfl, by simpa using hxl⟩, List.set_set]
  rw [gy, gx] at a1 a2
  rw [show Spec.slice (fun k => f32 (z.get k)) y x (idx.set x j') = Spec.slice (fun k => f32 (z.get k)) y x idx from funext₂ sl] at a1 a2
  rw [show decide (Spec.Cyclic lon) = true by simpa using hc] at a2
  rw [show decide (Spec.Cyclic lon') = true by simpa using hc', hstep, hl'] at b2
  have hz1 : Spec.zonal lat.length (Spec.slice (fun k => f32 (z'.get k)) y x idx) (fun a => lat.getD a 0) missing (idx.getD y 0) (idx.getD x 0) =
      Spec.zonal lat.length (Spec.slice (fun k => f32 (z.get k)) y x idx) (fun a => lat.getD a 0) missing (idx.getD y 0) j' := by
    unfold Spec.zonal
    rw [sl' _ _ (north_lt hi) hj, sl' _ _ (south_lt hi) hj]
  have hz2 : Spec.meridional lon.length true (Spec.slice (fun k => f32 (z'.get k)) y x idx) (fun a => lat.getD a 0) (lon.getD 1 0 - lon.getD 0 0)
      missing (idx.getD y 0) (idx.getD x 0) =
      Spec.meridional lon.length true (Spec.slice (fun k => f32 (z.get k)) y x idx) (fun a => lat.getD a 0) (lon.getD 1 0 - lon.getD 0 0)
        missing (idx.getD y 0) j' := by
    unfold Spec.meridional
    rw [sl' _ _ hi (east_lt true hj), sl' _ _ hi (west_lt true hj), east_shift, west_shift (by omega)]
    rfl
  rw [hz1] at b1
  rw [hz2] at b2
  refine ⟨b1.trans a1.symm, b2.trans (Eq.trans ?_ a2.symm)⟩
  unfold reportV
  rw [if_neg (by simp), if_neg (by simp)]

/-! ## C99: linearity -/

theorem zonal_lin {n : ℕ} {z1 z2 z3 : ℕ → ℕ → ℝ} {lat : ℕ → ℝ} {missing α β : ℝ} {i j : ℕ}
    (hz : ∀ a, z3 a j = α * z1 a j + β * z2 a j) {a1 a2 a3 : ℝ} (h1 : Spec.zonal n z1 lat missing i j = some a1)
    (h2 : Spec.zonal n z2 lat missing i j = some a2) (h3 : Spec.zonal n z3 lat missing i j = some a3) : a3 = α * a1 + β * a2 := by
  unfold Spec.zonal at h1 h2 h3
  by_cases hu : Spec.Usable (lat i)
  · rw [if_pos hu] at h1 h2 h3
    have dd : ∀ {a b k r x : ℝ}, (Spec.diff missing a b).map (fun d => k * (d / r)) = some x → x = k * ((a - b) / r) := by
      intro a b k r x h
      by_cases hab : a ≠ missing ∧ b ≠ missing
      · rw [diff_some hab.1 hab.2] at h; simpa using h.symm
      · rw [diff_none hab] at h; simp at h
    rw [dd h1, dd h2, dd h3, hz, hz]
    ring
  · rw [if_neg hu] at h1; simp at h1

theorem meridional_lin {m : ℕ} {cyc : Bool} {z1 z2 z3 : ℕ → ℕ → ℝ} {lat : ℕ → ℝ} {dlon missing α β : ℝ} {i j : ℕ}
    (hz : ∀ b, z3 i b = α * z1 i b + β * z2 i b) {a1 a2 a3 : ℝ} (h1 : Spec.meridional m cyc z1 lat dlon missing i j = some a1)
    (h2 : Spec.meridional m cyc z2 lat dlon missing i j = some a2) (h3 : Spec.meridional m cyc z3 lat dlon missing i j = some a3) :
    a3 = α * a1 + β * a2 := by
  unfold Spec.meridional at h1 h2 h3
  by_cases hu : Spec.Usable (lat i)
  · rw [if_pos hu] at h1 h2 h3
    have dd : ∀ {a b k r x : ℝ}, (Spec.diff missing a b).map (fun d => k * (d / r)) = some x → x = k * ((a - b) / r) := by
      intro a b k r x h
      by_cases hab : a ≠ missing ∧ b ≠ missing
      · rw [diff_some hab.1 hab.2] at h; simpa using h.symm
      · rw [diff_none hab] at h; simp at h
    rw [dd h1, dd h2, dd h3, hz, hz]
    ring
  · rw [if_neg hu] at h1; simp at h1

theorem reportV_some {m : ℕ} {cyc : Bool} {j : ℕ} {missing x : ℝ} {mer : Option ℝ} (h : x = reportV m cyc j missing mer) (hx : x ≠ missing) :
    mer = some x := by
  unfold reportV at h
  split at h
  · exact absurd h hx
  · cases mer with
    | none => exact absurd h hx
    | some a => rw [h]; rfl

/-- C99: the winds depend linearly on the heights: wherever none of the three results is missing, the wind of `α z₁ + β z₂` is
`α` times the wind of `z₁` plus `β` times the wind of `z₂`. (Without rounding, so `f32` is the identity.) -/
theorem C99_linear (z1 z2 z3 : NDArr ℝ) (lon lat : List ℝ) (order : List Char) (missing α β : ℝ) {y x : ℕ}
    (hN : Named order z1.shape.length y x) (hlat : lat.length = z1.shape.getD y 0) (hlon : lon.length = z1.shape.getD x 0)
    (hn : 2 ≤ lat.length) (hm : 2 ≤ lon.length) (hinc : lat.Pairwise (· < ·)) (h2 : z2.shape = z1.shape) (h3 : z3.shape = z1.shape)
    (hz : ∀ idx, z3.get idx = α * z1.get idx + β * z2.get idx) :
    ∃ u1 v1 u2 v2 u3 v3, geostrophicWind id z1 lon lat order missing r0 zz0 out0 = .ok (u1, v1) ∧
      geostrophicWind id z2 lon lat order missing r0 zz0 out0 = .ok (u2, v2) ∧
      geostrophicWind id z3 lon lat order missing r0 zz0 out0 = .ok (u3, v3) ∧ ∀ idx, InB z1.shape idx →
        (u1.get idx ≠ missing → u2.get idx ≠ missing → u3.get idx ≠ missing → u3.get idx = α * u1.get idx + β * u2.get idx) ∧
        (v1.get idx ≠ missing → v2.get idx ≠ missing → v3.get idx ≠ missing → v3.get idx = α * v1.get idx + β * v2.get idx) := by
  obtain ⟨u1, v1, e1, -, -, p1⟩ := wind_asc id z1 lon lat order missing r0 zz0 out0 hN hlat hlon hn hm hinc
  obtain ⟨u2, v2, e2, -, -, p2⟩ := wind_asc id z2 lon lat order missing r0 zz0 out0 (y := y) (x := x) (by rw [h2]; exact hN)
    (by rw [h2]; exact hlat) (by rw [h2]; exact hlon) hn hm hinc
  obtain ⟨u3, v3, e3, -, -, p3⟩ := wind_asc id z3 lon lat order missing r0 zz0 out0 (y := y) (x := x) (by rw [h3]; exact hN)
    (by rw [h3]; exact hlat) (by rw [h3]; exact hlon) hn hm hinc
  refine ⟨u1, v1, u2, v2, u3, v3, e1, e2, e3, fun idx hidx => ?_⟩
  obtain ⟨a1, b1⟩ := p1 idx hidx
  obtain ⟨a2, b2⟩ := p2 idx (by rw [h2]; exact hidx)
  obtain ⟨a3, b3⟩ := p3 idx (by rw [h3]; exact hidx)
  have hsl : ∀ a b, Spec.slice (fun k => id (z3.get k)) y x idx a b =
      α * Spec.slice (fun k => id (z1.get k)) y x idx a b + β * Spec.slice (fun k => id (z2.get k)) y x idx a b := fun a b => hz _
  have gd : ∀ {o : Option ℝ} {t : ℝ}, t = o.getD missing → t ≠ missing → o = some t := by
    intro o t h hne
    cases o with
    | none => exact absurd h hne
    | some a => rw [h]; rfl
  exact ⟨fun n1 n2 n3 => zonal_lin (fun a => hsl a _) (gd a1 n1) (gd a2 n2) (gd a3 n3),
    fun n1 n2 n3 => meridional_lin (fun b => hsl _ b) (reportV_some b1 n1) (reportV_some b2 n2) (reportV_some b3 n3)⟩

/-- C99: a uniform height field has no wind: zero at every usable latitude, missing at the equator and the poles. -/
theorem C99_uniform (c : ℝ) (shape : List ℕ) (lon lat : List ℝ) (order : List Char) (missing : ℝ) {y x : ℕ}
    (hN : Named order shape.length y x) (hlat : lat.length = shape.getD y 0) (hlon : lon.length = shape.getD x 0)
    (hn : 2 ≤ lat.length) (hm : 2 ≤ lon.length) (hinc : lat.Pairwise (· < ·)) (hc : f32 c ≠ missing) :
    ∃ u v, geostrophicWind f32 ⟨shape, fun _ => c⟩ lon lat order missing r0 zz0 out0 = .ok (u, v) ∧ ∀ idx, InB shape idx →
      (Spec.Usable (lat.getD (idx.getD y 0) 0) → u.get idx = 0 ∧ v.get idx = 0) ∧
      (¬ Spec.Usable (lat.getD (idx.getD y 0) 0) → u.get idx = missing ∧ v.get idx = missing) := by
  obtain ⟨u, v, e, -, -, h⟩ := wind_asc f32 ⟨shape, fun _ => c⟩ lon lat order missing r0 zz0 out0 hN hlat hlon hn hm hinc
  refine ⟨u, v, e, fun idx hidx => ?_⟩
  obtain ⟨h1, h2⟩ := h idx hidx
  unfold Spec.zonal at h1
  unfold Spec.meridional at h2
  simp only [Spec.slice, diff_some hc hc] at h1 h2
  constructor
  · intro hu
    rw [if_pos hu] at h1 h2
    simp only [sub_self, zero_div, mul_zero, Option.map_some, Option.getD_some] at h1 h2
    refine ⟨h1, h2.trans ?_⟩
    unfold reportV
    split
    · rename_i q; have := Option.some.inj q.2; linarith
    · rfl
  · intro hu
    rw [if_neg hu] at h1 h2
    refine ⟨h1, h2.trans ?_⟩
    unfold reportV
    rw [if_neg (by simp)]; rfl

/-! ## C100: missing data stays local -/

/-- C100: the zonal wind depends only on the two heights north and south of the point, the meridional wind only on the two heights east and west
(at the edge of the grid one of the two is the point itself): changing any other datum, in particular marking it missing, changes nothing;
and if one of the two is missing so is the result. -/
theorem C100_local (z z' : NDArr ℝ) (lon lat : List ℝ) (order : List Char) (missing : ℝ) {y x : ℕ}
    (hN : Named order z.shape.length y x) (hlat : lat.length = z.shape.getD y 0) (hlon : lon.length = z.shape.getD x 0)
    (hn : 2 ≤ lat.length) (hm : 2 ≤ lon.length) (hinc : lat.Pairwise (· < ·)) (hs : z'.shape = z.shape) :
    ∃ u v u' v', geostrophicWind f32 z lon lat order missing r0 zz0 out0 = .ok (u, v) ∧
      geostrophicWind f32 z' lon lat order missing r0 zz0 out0 = .ok (u', v') ∧ ∀ idx, InB z.shape idx →
        let N := idx.set y (Spec.north lat.length (idx.getD y 0))
        let S := idx.set y (Spec.south (idx.getD y 0))
        let E := idx.set x (Spec.east lon.length (decide (Spec.Cyclic lon)) (idx.getD x 0))
        let W := idx.set x (Spec.west lon.length (decide (Spec.Cyclic lon)) (idx.getD x 0))
        (z'.get N = z.get N → z'.get S = z.get S → u'.get idx = u.get idx) ∧
        (z'.get E = z.get E → z'.get W = z.get W → v'.get idx = v.get idx) ∧
        (f32 (z.get N) = missing ∨ f32 (z.get S) = missing → u.get idx = missing) ∧
        (f32 (z.get E) = missing ∨ f32 (z.get W) = missing → v.get idx = missing) := by
  obtain ⟨u, v, e, -, -, h⟩ := wind_asc f32 z lon lat order missing r0 zz0 out0 hN hlat hlon hn hm hinc
  obtain ⟨u', v', e', -, -, h'⟩ := wind_asc f32 z' lon lat order missing r0 zz0 out0 (y := y) (x := x) (by rw [hs]; exact hN)
    (by rw [hs]; exact hlat) (by rw [hs]; exact hlon) hn hm hinc
  refine ⟨u, v, u', v', e, e', fun idx hidx => ?_⟩
  obtain ⟨a1, a2⟩ := h idx hidx
  obtain ⟨b1, b2⟩ := h' idx (by rw [hs]; exact hidx)
  have hb := inB_iff.mp hidx
  have hxl : x < idx.length := by rw [hb.1]; exact hN.xlt
  have hyl : y < idx.length := by rw [hb.1]; exact hN.ylt
  have setx : ∀ a, (idx.set y a).set x (idx.getD x 0) = idx.set y a := by
    intro a
    rw [List.set_comm _ _ hN.xy.symm]
    congr 1
    rw [List.getD_eq_getElem _ _ hxl]; simp
  have sety : ∀ b, (idx.set y (idx.getD y 0)).set x b = idx.set x b := by
    intro b
    congr 1
    rw [List.getD_eq_getElem _ _ hyl]; simp
  have slx : ∀ (g : List ℕ → ℝ) a, Spec.slice g y x idx a (idx.getD x 0) = g (idx.set y a) := by
    intro g a; unfold Spec.slice; rw [setx]
  have sly : ∀ (g : List ℕ → ℝ) b, Spec.slice g y x idx (idx.getD y 0) b = g (idx.set x b) := by
    intro g a; unfold Spec.slice; rw [sety]
  unfold Spec.zonal at a1 b1
  unfold Spec.meridional at a2 b2
  simp only [slx] at a1 b1
  simp only [sly] at a2 b2
  refine ⟨fun q1 q2 => ?_, fun q1 q2 => ?_, fun q => ?_, fun q => ?_⟩
  · rw [a1, b1, q1, q2]
  · rw [a2, b2, q1, q2]
  · rw [a1, diff_none (by tauto)]
    split <;> rfl
  · rw [a2, diff_none (by tauto)]
    unfold reportV
    rw [if_neg (by split <;> simp)]
    split <;> rfl

/-- C100 is false of the code when the missing value is not a float32 number: the field is cast to float32 before the comparison, so a height equal
to `missing_value = -999.9` is used as the height -999.9000244140625 m. -/
theorem C100_false (hf : f32 (-999.9) = -999.9000244140625) (h0 : f32 0 = 0) :
    ¬ ∀ (z : NDArr ℝ) (lon lat : List ℝ) (missing : ℝ), z.shape = [lat.length, lon.length] → 2 ≤ lat.length → 2 ≤ lon.length →
      lat.Pairwise (· < ·) → ∀ u v, geostrophicWind f32 z lon lat ['y', 'x'] missing r0 zz0 out0 = .ok (u, v) → ∀ idx, InB z.shape idx →
      z.get (idx.set 0 (Spec.north lat.length (idx.getD 0 0))) = missing → u.get idx = missing := by
  intro h
  have hN : Named ['y', 'x'] [2, 2].length 0 1 :=
    ⟨⟨by decide, by decide, by decide, by decide, by decide, by decide⟩, by decide, by decide, by decide⟩
  obtain ⟨u, v, e, -, -, hu⟩ := C93_wind f32 r0 zz0 out0 ⟨[2, 2], fun k => if k.getD 0 0 = 1 then -999.9 else 0⟩ [0, 10] [30, 60] ['y', 'x'] (-999.9)
    hN rfl rfl (by simp) (by simp) (by norm_num)
  have h1 := h _ _ _ _ rfl (by simp) (by simp) (by norm_num) u v e [0, 0] (by simp [InB]) (by simp [Spec.north])
  have h2 := (hu [0, 0] (by simp [InB])).1
  rw [h1] at h2
  unfold Spec.zonal at h2
  simp only [List.getD_cons_zero] at h2
  rw [if_pos (by norm_num [Spec.Usable, abs_of_pos])] at h2
  simp only [Spec.slice, Spec.north, Spec.south] at h2
  rw [diff_some (by simp [hf]; norm_num) (by simp [h0]; norm_num)] at h2
  have hcor : Spec.g / Spec.coriolis 30 = 9.80616 / 7.292e-5 := by
    unfold Spec.coriolis Spec.toRad Spec.g Spec.Ω
    rw [show (30 : ℝ) * (Real.pi / 180) = Real.pi / 6 by ring, Real.sin_pi_div_six]; norm_num
  simp [hf, h0] at h2
  rw [hcor] at h2
  have hpos : (0 : ℝ) < 9.80616 / 7.292e-5 * (999.9000244140625 / (Spec.radius * Spec.toRad (60 - 30))) := by
    have := Real.pi_pos
    unfold Spec.radius Spec.toRad
    positivity
  rw [neg_div] at h2
  linarith

/-- Rounding to float32 is such a function at these two points (`numpy.float32(-999.9) = -999.9000244140625`). -/
example : ∃ f32 : ℝ → ℝ, f32 (-999.9) = -999.9000244140625 ∧ f32 0 = 0 :=
  ⟨fun a => if a = 0 then 0 else -999.9000244140625, by norm_num, by simp⟩

/-! ## C101: speed -/

/-- C101: the speed is the non-negative number whose square is `u² + v²`, at least as large as either component in size, and is missing as soon as
one component is. -/
theorem C101_speed (u v : NDArr ℝ) (missing : ℝ) :
    (speed u v missing).shape = u.shape ∧ ∀ idx,
      (u.get idx ≠ missing → v.get idx ≠ missing → 0 ≤ (speed u v missing).get idx ∧
        (speed u v missing).get idx ^ 2 = u.get idx ^ 2 + v.get idx ^ 2 ∧ |u.get idx| ≤ (speed u v missing).get idx ∧
        |v.get idx| ≤ (speed u v missing).get idx) ∧
      (u.get idx = missing ∨ v.get idx = missing → (speed u v missing).get idx = missing) := by
  refine ⟨rfl, fun idx => ⟨fun h1 h2 => ?_, fun h => ?_⟩⟩
  · simp only [speed, if_neg h1, if_neg h2, if_neg (show ¬ (u.get idx = missing ∨ v.get idx = missing) by tauto)]
    refine ⟨Real.sqrt_nonneg _, Real.sq_sqrt (by positivity), ?_, ?_⟩
    · exact Real.abs_le_sqrt (by nlinarith [sq_nonneg (v.get idx)])
    · exact Real.abs_le_sqrt (by nlinarith [sq_nonneg (u.get idx)])
  · simp only [speed, if_pos h]

end Skyborn.Geo
