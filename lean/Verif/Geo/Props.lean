/-
Properties C93–C101: the geostrophic wind functions.
-/
import Verif.Geo.Api
import Mathlib.Tactic.IntervalCases

namespace Skyborn.Geo
open Skyborn Windspharm

variable (f32 : ℝ → ℝ) (r0 : Rows) (zz0 : ℕ → ℕ → ℝ) (out0 : ℕ → Wind)

/-! ## C93: the formula -/

/-- C93: for latitudes from south to north, the call succeeds, both results have the shape of the input, and every element is the
geostrophic wind of its horizontal field (missing where the specification has no value). The meridional formula is stated for every element
except those at the end columns of a non-cyclic grid whose exact wind is twice the missing value (`C93_collision`). -/
theorem C93_wind (z : NDArr ℝ) (lon lat : List ℝ) (order : List Char) (missing : ℝ) {y x : ℕ} (hN : Named order z.shape.length y x)
    (hlat : lat.length = z.shape.getD y 0) (hlon : lon.length = z.shape.getD x 0) (hn : 2 ≤ lat.length) (hm : 2 ≤ lon.length)
    (hinc : lat.Pairwise (· < ·)) :
    ∃ u v, geostrophicWind f32 z lon lat order missing r0 zz0 out0 = .ok (u, v) ∧ u.shape = z.shape ∧ v.shape = z.shape ∧
      ∀ idx, InB z.shape idx →
        let field := Spec.slice (fun k => f32 (z.get k)) y x idx
        let i := idx.getD y 0
        let j := idx.getD x 0
        let mer := Spec.meridional lon.length (decide (Spec.Cyclic lon)) field (fun a => lat.getD a 0) (lon.getD 1 0 - lon.getD 0 0) missing i j
        u.get idx = (Spec.zonal lat.length field (fun a => lat.getD a 0) missing i j).getD missing ∧
        (¬ (¬ Spec.Cyclic lon ∧ (j = 0 ∨ j = lon.length - 1) ∧ mer = some (2 * missing)) → v.get idx = mer.getD missing) := by
  obtain ⟨u, v, e, hu, hv, h⟩ := wind_asc f32 z lon lat order missing r0 zz0 out0 hN hlat hlon hn hm hinc
  refine ⟨u, v, e, hu, hv, fun idx hidx => ?_⟩
  obtain ⟨h1, h2⟩ := h idx hidx
  refine ⟨h1, fun hne => ?_⟩
  rw [h2]
  unfold reportV
  rw [if_neg]
  rintro ⟨⟨g1, g2⟩, g3⟩
  exact hne ⟨by simpa using g1, g2, g3⟩

/-- C93, the exception: there the result is the missing value. -/
theorem C93_collision (z : NDArr ℝ) (lon lat : List ℝ) (order : List Char) (missing : ℝ) {y x : ℕ} (hN : Named order z.shape.length y x)
    (hlat : lat.length = z.shape.getD y 0) (hlon : lon.length = z.shape.getD x 0) (hn : 2 ≤ lat.length) (hm : 2 ≤ lon.length)
    (hinc : lat.Pairwise (· < ·)) (hc : ¬ Spec.Cyclic lon) {u v : NDArr ℝ}
    (e : geostrophicWind f32 z lon lat order missing r0 zz0 out0 = .ok (u, v)) {idx : List ℕ} (hidx : InB z.shape idx)
    (hj : idx.getD x 0 = 0 ∨ idx.getD x 0 = lon.length - 1)
    (hv : Spec.meridional lon.length false (Spec.slice (fun k => f32 (z.get k)) y x idx) (fun a => lat.getD a 0)
      (lon.getD 1 0 - lon.getD 0 0) missing (idx.getD y 0) (idx.getD x 0) = some (2 * missing)) : v.get idx = missing := by
  obtain ⟨u', v', e', -, -, h⟩ := wind_asc f32 z lon lat order missing r0 zz0 out0 hN hlat hlon hn hm hinc
  rw [e] at e'
  simp only [Except.ok.injEq, Prod.mk.injEq] at e'
  obtain ⟨rfl, rfl⟩ := e'
  have := (h idx hidx).2
  rw [show decide (Spec.Cyclic lon) = false by simpa using hc, hv] at this
  rw [this, reportV, if_pos ⟨⟨rfl, hj⟩, rfl⟩]

/-- A (time, latitude, longitude) field on a 2 x 3 regional grid meets the hypotheses of `C93_wind`. -/
example : Named ['t', 'y', 'x'] [4, 2, 3].length 1 2 ∧ ([10, 20] : List ℝ).length = [4, 2, 3].getD 1 0 ∧
    ([0, 5, 10] : List ℝ).length = [4, 2, 3].getD 2 0 ∧ ([10, 20] : List ℝ).Pairwise (· < ·) :=
  ⟨⟨⟨by decide, by decide, by decide, by decide, by decide, by decide⟩, by decide, by decide, by decide⟩, rfl, rfl, by norm_num⟩

/-! ## C94: latitude order -/

theorem flip_diff (missing a b : ℝ) (k : ℝ) (d : ℝ) :
    (Spec.diff missing a b).map (fun t => k * (t / (Spec.radius * Spec.toRad d))) =
      (Spec.diff missing b a).map (fun t => k * (t / (Spec.radius * Spec.toRad (-d)))) := by
  by_cases h : a ≠ missing ∧ b ≠ missing
  · rw [diff_some h.1 h.2, diff_some h.2 h.1]
    simp only [Option.map_some, Option.some.injEq]
    unfold Spec.toRad
    rw [show b - a = -(a - b) by ring, show Spec.radius * (-d * (Real.pi / 180)) = -(Spec.radius * (d * (Real.pi / 180))) by ring, neg_div_neg_eq]
  · rw [diff_none h, diff_none (by tauto)]; rfl

theorem zonal_flip {n : ℕ} (z : ℕ → ℕ → ℝ) (lat : ℕ → ℝ) (missing : ℝ) {i j : ℕ} (hi : i < n) :
    Spec.zonal n (fun a b => z (n - 1 - a) b) (fun a => lat (n - 1 - a)) missing i j = Spec.zonal n z lat missing (n - 1 - i) j := by
  unfold Spec.zonal
  by_cases hu : Spec.Usable (lat (n - 1 - i))
  · rw [if_pos hu, if_pos hu, flip_diff]
    have h1 : n - 1 - Spec.north n i = Spec.south (n - 1 - i) := by unfold Spec.north Spec.south; omega
    have h2 : n - 1 - Spec.south i = Spec.north n (n - 1 - i) := by unfold Spec.north Spec.south; omega
    beta_reduce
    rw [h1, h2, neg_sub]
  · rw [if_neg hu, if_neg hu]

theorem meridional_flip {n m : ℕ} (cyc : Bool) (z : ℕ → ℕ → ℝ) (lat : ℕ → ℝ) (dlon missing : ℝ) {i j : ℕ} :
    Spec.meridional m cyc (fun a b => z (n - 1 - a) b) (fun a => lat (n - 1 - a)) dlon missing i j =
      Spec.meridional m cyc z lat dlon missing (n - 1 - i) j := rfl

theorem getD_reverse (l : List ℝ) {a : ℕ} (h : a < l.length) : l.reverse.getD a 0 = l.getD (l.length - 1 - a) 0 := by
  rw [List.getD_eq_getElem _ _ (by simpa using h), List.getD_eq_getElem _ _ (by omega), List.getElem_reverse]

/-- C94: a call with latitudes from north to south is the same as the call with the latitudes and the field turned over. -/
theorem C94_flip_partial (z : NDArr ℝ) (lon lat : List ℝ) (order : List Char) (missing : ℝ) {y x : ℕ} (hN : Named order z.shape.length y x)
    (hn : 2 ≤ lat.length) (hdec : lat.Pairwise (· > ·)) :
    geostrophicWind f32 z lon lat order missing r0 zz0 out0 =
      geostrophicWind f32 (flipAxis z y) lon lat.reverse order missing r0 zz0 out0 := by
  have hlow : (order.map Char.toLower).idxOf 'y' = y := by rw [hN.good.lowY, hN.hy]
  have h1 : ensureSN z lat order = .ok (flipAxis z y, lat.reverse) := by
    unfold ensureSN
    match lat, hn with
    | g0 :: rest, hn =>
      simp only []
      have hne : rest ≠ [] := by rintro rfl; simp at hn
      rw [List.getLast_cons hne, if_pos ((List.pairwise_cons.mp hdec).1 _ (List.getLast_mem hne)), if_neg, hlow, if_neg]
      · simpa using hN.ylt
      · rw [not_not]
        have hlt : (order.map Char.toLower).idxOf 'y' < (order.map Char.toLower).length := by
          rw [hN.good.lowY, List.length_map]; exact hN.good.py
        exact List.idxOf_lt_length_iff.mp hlt
  have h2 : ensureSN (flipAxis z y) lat.reverse order = .ok (flipAxis z y, lat.reverse) := by
    unfold ensureSN
    have hinc : lat.reverse.Pairwise (· < ·) := by rw [List.pairwise_reverse]; exact hdec
    have hn' : 2 ≤ lat.reverse.length := by simpa using hn
    generalize lat.reverse = l at *
    match l, hn' with
    | g0 :: rest, hn =>
      simp only []
      rw [if_neg]
      have hne : rest ≠ [] := by rintro rfl; simp at hn
      rw [List.getLast_cons hne]
      have := (List.pairwise_cons.mp hinc).1 _ (List.getLast_mem hne)
      simpa using this.le
  unfold geostrophicWind
  simp only [h1, h2]

/-- C94: so for latitudes from north to south the result is stored south to north: row `i` of the result is the wind at latitude
`lat[n - 1 - i]`. -/
theorem C94_reversed_partial (z : NDArr ℝ) (lon lat : List ℝ) (order : List Char) (missing : ℝ) {y x : ℕ}
    (hN : Named order z.shape.length y x) (hlat : lat.length = z.shape.getD y 0) (hlon : lon.length = z.shape.getD x 0)
    (hn : 2 ≤ lat.length) (hm : 2 ≤ lon.length) (hdec : lat.Pairwise (· > ·)) :
    ∃ u v, geostrophicWind f32 z lon lat order missing r0 zz0 out0 = .ok (u, v) ∧ u.shape = z.shape ∧ v.shape = z.shape ∧
      ∀ idx, InB z.shape idx →
        let field := Spec.slice (fun k => f32 (z.get k)) y x idx
        let i := lat.length - 1 - idx.getD y 0
        let j := idx.getD x 0
        let mer := Spec.meridional lon.length (decide (Spec.Cyclic lon)) field (fun a => lat.getD a 0) (lon.getD 1 0 - lon.getD 0 0) missing i j
        u.get idx = (Spec.zonal lat.length field (fun a => lat.getD a 0) missing i j).getD missing ∧
        (¬ (¬ Spec.Cyclic lon ∧ (j = 0 ∨ j = lon.length - 1) ∧ mer = some (2 * missing)) → v.get idx = mer.getD missing) := by
  rw [C94_flip_partial f32 r0 zz0 out0 z lon lat order missing hN hn hdec]
  obtain ⟨u, v, e, hu, hv, h⟩ := C93_wind f32 r0 zz0 out0 (flipAxis z y) lon lat.reverse order missing (y := y) (x := x) hN (by rw [List.length_reverse]; exact hlat)
    hlon (by simpa using hn) hm (by rw [List.pairwise_reverse]; exact hdec)
  refine ⟨u, v, e, hu, hv, fun idx hidx => ?_⟩
  have hb := inB_iff.mp hidx
  have hi : idx.getD y 0 < lat.length := by rw [hlat]; exact hb.2 y hN.ylt
  have hj : idx.getD x 0 < lon.length := by rw [hlon]; exact hb.2 x hN.xlt
  have hfield : ∀ a b, a < lat.length → b < lon.length → Spec.slice (fun k => f32 ((flipAxis z y).get k)) y x idx a b =
      (fun a b => Spec.slice (fun k => f32 (z.get k)) y x idx (lat.length - 1 - a) b) a b := by
    intro a b ha _
    unfold Spec.slice flipAxis
    simp only []
    rw [getD_set, getD_set, if_neg (by have := hN.xy; tauto), if_pos ⟨rfl, by rw [hb.1]; exact hN.ylt⟩,
      List.set_comm _ _ hN.xy, List.set_set, ← hlat]
  have hl : ∀ a, a < lat.length → lat.reverse.getD a 0 = (fun a => lat.getD (lat.length - 1 - a) 0) a := fun a ha => getD_reverse lat ha
  have h' := h idx hidx
  simp only [List.length_reverse] at h'
  rw [zonal_congr hi hj hfield hl, meridional_congr hi hj hfield hl, zonal_flip (fun a b => Spec.slice (fun k => f32 (z.get k)) y x idx a b) (fun a => lat.getD a 0) _ hi,
    meridional_flip _ (fun a b => Spec.slice (fun k => f32 (z.get k)) y x idx a b) (fun a => lat.getD a 0)] at h'
  exact h'

/-- C94 is false of the code: with latitudes 20, 10, 0 (north to south) row 0 of the result is the equator's, not the one of latitude 20, although
the results are labelled with the caller's latitudes. -/
theorem C94_false : ¬ ∀ (z : NDArr ℝ) (lon lat : List ℝ) (order : List Char) (missing : ℝ) (y x : ℕ),
    Named order z.shape.length y x → lat.length = z.shape.getD y 0 → lon.length = z.shape.getD x 0 → 2 ≤ lat.length → 2 ≤ lon.length →
    lat.Pairwise (· > ·) →
    ∃ u v, geostrophicWind id z lon lat order missing r0 zz0 out0 = .ok (u, v) ∧ ∀ idx, InB z.shape idx →
      u.get idx = (Spec.zonal lat.length (Spec.slice z.get y x idx) (fun a => lat.getD a 0) missing (idx.getD y 0) (idx.getD x 0)).getD missing := by
  intro h
  have hN : Named ['y', 'x'] [3, 3].length 0 1 :=
    ⟨⟨by decide, by decide, by decide, by decide, by decide, by decide⟩, by decide, by decide, by decide⟩
  obtain ⟨u, v, e, hu⟩ := h ⟨[3, 3], fun _ => 5⟩ [0, 5, 10] [20, 10, 0] ['y', 'x'] (-999) 0 1 hN rfl rfl (by simp) (by simp) (by norm_num)
  obtain ⟨u', v', e', -, -, hu'⟩ := C94_reversed_partial id r0 zz0 out0 ⟨[3, 3], fun _ => 5⟩ [0, 5, 10] [20, 10, 0] ['y', 'x'] (-999) hN rfl rfl
    (by simp) (by simp) (by norm_num)
  rw [e] at e'
  simp only [Except.ok.injEq, Prod.mk.injEq] at e'
  obtain ⟨rfl, rfl⟩ := e'
  have h1 := hu [0, 0] (by simp [InB])
  have h2 := (hu' [0, 0] (by simp [InB])).1
  rw [h1] at h2
  simp only [Spec.zonal, Spec.slice] at h2
  rw [if_pos (by norm_num [Spec.Usable, abs_of_pos]), if_neg (by norm_num [Spec.Usable])] at h2
  norm_num [Spec.diff, Spec.datum] at h2

/-! ## C95: slices -/

/-- C95: on an array of more than two dimensions the wind of every horizontal slice is what the 2-D call gives for that slice alone. -/
theorem C95_slices (z : NDArr ℝ) (lon lat : List ℝ) (order : List Char) (missing : ℝ) {y x : ℕ} (hN : Named order z.shape.length y x)
    (hlat : lat.length = z.shape.getD y 0) (hlon : lon.length = z.shape.getD x 0) (hn : 2 ≤ lat.length) (hm : 2 ≤ lon.length)
    (hinc : lat.Pairwise (· < ·)) :
    ∃ u v, geostrophicWind f32 z lon lat order missing r0 zz0 out0 = .ok (u, v) ∧ u.shape = z.shape ∧ v.shape = z.shape ∧
      ∀ idx, InB z.shape idx → ∃ u2 v2,
        geostrophicWind f32 ⟨[lat.length, lon.length], fun k => z.get ((idx.set y (k.getD 0 0)).set x (k.getD 1 0))⟩ lon lat ['y', 'x'] missing
          r0 zz0 out0 = .ok (u2, v2) ∧
        u.get idx = u2.get [idx.getD y 0, idx.getD x 0] ∧ v.get idx = v2.get [idx.getD y 0, idx.getD x 0] := by
  obtain ⟨u, v, e, hu, hv, h⟩ := wind_asc f32 z lon lat order missing r0 zz0 out0 hN hlat hlon hn hm hinc
  refine ⟨u, v, e, hu, hv, fun idx hidx => ?_⟩
  have hN2 : Named ['y', 'x'] [lat.length, lon.length].length 0 1 :=
    ⟨⟨by decide, by decide, by decide, by decide, by decide, by simp⟩, by decide, by decide, by simp⟩
  obtain ⟨u2, v2, e2, -, -, h2⟩ := wind_asc f32 ⟨[lat.length, lon.length], fun k => z.get ((idx.set y (k.getD 0 0)).set x (k.getD 1 0))⟩ lon lat
    ['y', 'x'] missing r0 zz0 out0 hN2 rfl rfl hn hm hinc
  have hb := inB_iff.mp hidx
  have hi : idx.getD y 0 < lat.length := by rw [hlat]; exact hb.2 y hN.ylt
  have hj : idx.getD x 0 < lon.length := by rw [hlon]; exact hb.2 x hN.xlt
  refine ⟨u2, v2, e2, ?_⟩
  have a1 := h idx hidx
  have a2 := h2 [idx.getD y 0, idx.getD x 0] ⟨hi, hj, trivial⟩
  have a3 : Spec.slice (fun k => f32 (z.get ((idx.set y (k.getD 0 0)).set x (k.getD 1 0)))) 0 1 [idx.getD y 0, idx.getD x 0] =
      Spec.slice (fun k => f32 (z.get k)) y x idx := rfl
  simp only [a3] at a2
  exact ⟨a1.1.trans a2.1.symm, a1.2.trans a2.2.symm⟩

/-! ## C96: the dimension string of 2-D data -/

/-- C96 is false of the code: for 2-D data the dimension string is ignored (unless the latitudes have to be turned over), so (longitude, latitude)
data announced as `'xy'` on a square grid silently gives the wind of the transposed field. -/
theorem C96_false : ¬ ∀ (z : NDArr ℝ) (lon lat : List ℝ) (missing : ℝ),
    z.shape = [lon.length, lat.length] → 2 ≤ lat.length → 2 ≤ lon.length → lat.Pairwise (· < ·) →
    ∀ u v, geostrophicWind id z lon lat ['x', 'y'] missing r0 zz0 out0 = .ok (u, v) → ∀ idx, InB z.shape idx →
      u.get idx = (Spec.zonal lat.length (Spec.slice z.get 1 0 idx) (fun a => lat.getD a 0) missing (idx.getD 1 0) (idx.getD 0 0)).getD missing := by
  intro h
  have hN : Named ['y', 'x'] [3, 3].length 0 1 :=
    ⟨⟨by decide, by decide, by decide, by decide, by decide, by decide⟩, by decide, by decide, by decide⟩
  obtain ⟨u', v', e', -, -, hu'⟩ := C93_wind id r0 zz0 out0 ⟨[3, 3], fun _ => 5⟩ [0, 5, 10] [0, 10, 20] ['y', 'x'] (-999) hN rfl rfl
    (by simp) (by simp) (by norm_num)
  have hn20 : ensureSN (⟨[3, 3], fun _ => 5⟩ : NDArr ℝ) [0, 10, 20] ['x', 'y'] = .ok (⟨[3, 3], fun _ => 5⟩, [0, 10, 20]) := by
    unfold ensureSN; simp
  have hn21 : ensureSN (⟨[3, 3], fun _ => 5⟩ : NDArr ℝ) [0, 10, 20] ['y', 'x'] = .ok (⟨[3, 3], fun _ => 5⟩, [0, 10, 20]) := by
    unfold ensureSN; simp
  have e : geostrophicWind id ⟨[3, 3], fun _ => 5⟩ [0, 5, 10] [0, 10, 20] ['x', 'y'] (-999) r0 zz0 out0 = .ok (u', v') := by
    rw [← e']
    unfold geostrophicWind
    simp only [hn20, hn21, Except.bind, bind]
    rfl
  have h1 := h ⟨[3, 3], fun _ => 5⟩ [0, 5, 10] [0, 10, 20] (-999) rfl (by simp) (by simp) (by norm_num) u' v' e [0, 1] (by simp [InB])
  have h2 := (hu' [0, 1] (by simp [InB])).1
  rw [h1] at h2
  simp only [Spec.zonal, Spec.slice] at h2
  rw [if_pos (by norm_num [Spec.Usable, abs_of_pos]), if_neg (by norm_num [Spec.Usable])] at h2
  norm_num [Spec.diff, Spec.datum] at h2

/-- C96: the part that holds: (longitude, latitude) data on a non-square grid is refused. -/
theorem C96_refused_partial (z : NDArr ℝ) (lon lat : List ℝ) (order : List Char) (missing : ℝ) (hs : z.shape = [lon.length, lat.length])
    (hne : lon.length ≠ lat.length) (hn : 2 ≤ lat.length) (hinc : lat.Pairwise (· < ·)) :
    geostrophicWind f32 z lon lat order missing r0 zz0 out0 = .error .lonLength := by
  have hsn : ensureSN z lat order = .ok (z, lat) := by
    unfold ensureSN
    match lat, hn with
    | g0 :: rest, hn =>
      simp only []
      rw [if_neg]
      have hne : rest ≠ [] := by rintro rfl; simp at hn
      rw [List.getLast_cons hne]
      have := (List.pairwise_cons.mp hinc).1 _ (List.getLast_mem hne)
      simpa using this.le
  unfold geostrophicWind
  simp only [hsn, Except.bind, bind]
  rw [if_neg (by rw [hs]; simp)]
  unfold calc2d
  rw [hs]
  simp only []
  rw [if_pos (Ne.symm hne)]

end Skyborn.Geo
