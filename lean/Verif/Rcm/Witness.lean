/-
Concrete cases that meet the hypotheses of the theorems on the curvilinear regridding functions, and the claims about `rcm2points` that fail (C166,
C172).
-/
import Verif.Rcm.PointsProps2

namespace Skyborn.Rcm

open Classical

/-! ### `rcm2rgrid` -/

theorem unit_shapes {lat1d lon1d : NDArr ℝ} {fi : NDArr V} {nyo nxo : ℕ} (h1 : lat1d.shape = [nyo]) (h2 : lon1d.shape = [nxo]) (h3 : fi.shape = [1, 3, 3])
    (h4 : 2 ≤ nyo) (h5 : 2 ≤ nxo) : Spec.Shapes unitLat unitLon fi lat1d lon1d 1 3 3 nyo nxo :=
  ⟨rfl, rfl, h3, h1, h2, by norm_num, by norm_num, h4, h5⟩

theorem centre_datum : Spec.datum none centreFi 0 1 1 = some 1 := by
  have := huge_gt
  have e : centreFi.get [0, 1, 1] = some 1 := by simp [centreFi]
  rw [Spec.datum, e, if_neg]
  rintro (h | h)
  · cases h
  · have := Option.some.inj h; linarith

/-- Targets 1, 3/2. -/
noncomputable def gridTarget : NDArr ℝ := ⟨[2], fun ix => (ix.getD 0 0 : ℝ) / 2 + 1⟩

theorem at_centre {jj ii : ℕ} : Spec.At unitLat unitLon (gridTarget.get [0]) (gridTarget.get [0]) jj ii ↔ jj = 1 ∧ ii = 1 := by
  have e : gridTarget.get [0] = 1 := by simp [gridTarget]
  simp only [Spec.At, unitLat, unitLon, List.getD_cons_zero, List.getD_cons_succ, e, abs_le]
  constructor
  · rintro ⟨⟨h1, h2⟩, h3, h4⟩
    have key : ∀ k : ℕ, -0.0001 ≤ 1 - (k : ℝ) → 1 - (k : ℝ) ≤ 0.0001 → k = 1 := by
      intro k k1 k2
      have a1 : (k : ℝ) < 2 := by norm_num at k1; linarith
      have a2 : (0 : ℝ) < k := by norm_num at k2; linarith
      have a1' : k < 2 := by exact_mod_cast a1
      have a2' : 0 < k := by exact_mod_cast a2
      omega
    exact ⟨key jj h1 h2, key ii h3 h4⟩
  · rintro ⟨rfl, rfl⟩; norm_num

/-- C164: a case of `C164_exact_partial`. -/
example : ∃ out after, rcm2rgrid (some unitLat) (some unitLon) centreFi gridTarget gridTarget none = .ok (out, after) ∧ out.get [0, 0, 0] = some 1 := by
  have hs := unit_shapes (fi := centreFi) (lat1d := gridTarget) (lon1d := gridTarget) rfl rfl rfl le_rfl le_rfl
  obtain ⟨out, e, -⟩ := rcm2rgrid_ok hs none
  refine ⟨out, _, e, ?_⟩
  refine C164_exact_partial (jj := 1) (ii := 1) hs e (fun _ _ _ => rfl) (by norm_num) (by norm_num) (by norm_num) (by norm_num) (by norm_num)
    (at_centre.mpr ⟨rfl, rfl⟩) (fun _ _ _ _ h => at_centre.mp h) centre_datum (Or.inr ⟨?_, ?_, ?_, ?_⟩) <;> intro h <;> omega

theorem unit_target {i : ℕ} (hi : i < 2) {jj ii : ℕ} : ¬ Spec.At unitLat unitLon (unitTarget.get [0]) (unitTarget.get [i]) jj ii := by
  rintro ⟨h, -⟩
  have e : unitTarget.get [0] = 1 / 2 := by simp [unitTarget]
  rw [e, abs_le] at h
  simp only [unitLat, List.getD_cons_zero] at h
  rcases Nat.eq_zero_or_pos jj with rfl | hj
  · norm_num at h
  · have : (1 : ℝ) ≤ jj := by exact_mod_cast hj
    norm_num at h; linarith

/-- C165, C166, C170: a case of `C170_mean`, so of `C165_range` and `C166_no_extrapolation`: the target is inside and not missing. -/
example : ∃ out after, rcm2rgrid (some unitLat) (some unitLon) zeroFi unitTarget unitTarget none = .ok (out, after) ∧ (∃ v, out.get [0, 0, 0] = some v) ∧
    Spec.InBox unitLat unitLon 0.0001 (unitTarget.get [0]) (unitTarget.get [0]) := by
  have hs := unit_shapes (fi := zeroFi) (lat1d := unitTarget) (lon1d := unitTarget) rfl rfl rfl le_rfl le_rfl
  obtain ⟨out, e, hsh, -⟩ := rcm2rgrid_ok hs none
  have t0 : unitTarget.get [0] = 1 / 2 := by simp [unitTarget]
  have hd : ∀ jj ii, Spec.datum none zeroFi 0 jj ii = some 0 := by
    intro jj ii
    have := huge_pos
    rw [Spec.datum, show zeroFi.get [0, jj, ii] = some 0 from rfl, if_neg]
    rintro (h | h)
    · cases h
    · have := Option.some.inj h; linarith
  have hout := C170_mean (jj := 0) (ii := 0) (g := 0) (j := 0) (i := 0) hs e (fun _ _ _ => rfl) (by norm_num) (by norm_num) (by norm_num) (by norm_num) (by norm_num)
    (fun jj ii _ _ => unit_target (by norm_num)) (by rw [t0]; norm_num [Spec.InWideCell, unitLat, unitLon]) (fun jj ii h1 h2 _ => by omega)
    (by show Spec.validAt none _ _ _ _ _ _ _ ≠ []; simp only [Spec.validAt, List.filterMap_cons, hd, Option.map_some]; simp)
    (by
      show ∀ q ∈ Spec.validAt none _ _ _ _ _ _ _, _
      intro q hq
      simp only [Spec.validAt, List.filterMap_cons, List.filterMap_nil, hd, Option.map_some] at hq
      have hp := huge_pos
      have ang : ∀ jj ii : ℕ, (jj = 0 ∨ jj = 2) → Spec.angle (unitTarget.get [0]) (unitTarget.get [0]) (unitLat.get [jj, ii]) (unitLon.get [jj, ii]) ≠ 0 := by
        intro jj ii hj
        refine (Spec.angle_pos ?_ ?_ ?_).ne' <;> (try rw [t0]) <;> rcases hj with rfl | rfl <;> norm_num [unitLat, abs_le]
      simp only [List.mem_cons, List.not_mem_nil, or_false] at hq
      rcases hq with rfl | rfl | rfl | rfl
      · exact ⟨hp, ang 0 0 (Or.inl rfl)⟩
      · exact ⟨hp, ang 0 2 (Or.inl rfl)⟩
      · exact ⟨hp, ang 2 0 (Or.inr rfl)⟩
      · exact ⟨hp, ang 2 2 (Or.inr rfl)⟩)
  refine ⟨out, _, e, ⟨_, hout⟩, ?_⟩
  refine C166_no_extrapolation e ?_ (g := 0) (j := 0) (i := 0) (by rw [hsh, inB3]; norm_num) (by rw [hout]; exact fun h => by cases h)
  intro i i' hi _
  have : (i : ℝ) < i' := by exact_mod_cast hi
  simp only [unitTarget, List.getD_cons_zero]; linarith

/-- C173, C174: two targets of different sizes with a point in common; increasing axes. -/
example : ∃ out after out' after', rcm2rgrid (some unitLat) (some unitLon) centreFi gridTarget gridTarget none = .ok (out, after) ∧
    rcm2rgrid (some unitLat) (some unitLon) centreFi gridTarget ⟨[3], fun ix => (ix.getD 0 0 : ℝ)⟩ none = .ok (out', after') ∧
    out'.get [0, 0, 1] = out.get [0, 0, 0] := by
  have hs := unit_shapes (fi := centreFi) (lat1d := gridTarget) (lon1d := gridTarget) rfl rfl rfl le_rfl le_rfl
  have hs' := unit_shapes (fi := centreFi) (lat1d := gridTarget) (lon1d := ⟨[3], fun ix => (ix.getD 0 0 : ℝ)⟩) rfl rfl rfl le_rfl (by norm_num)
  obtain ⟨out, e, -⟩ := rcm2rgrid_ok hs none
  obtain ⟨out', e', -⟩ := rcm2rgrid_ok hs' none
  refine ⟨out, _, out', _, e, e', ?_⟩
  have inc : ∀ j, j + 1 < 2 → gridTarget.get [j] < gridTarget.get [j + 1] := by
    intro j _; simp only [gridTarget, List.getD_cons_zero]; push_cast; linarith
  refine C173_targets hs hs' e e' inc (inc 0 (by norm_num)) inc (fun i _ => by simp) (by norm_num) (by norm_num) (by norm_num) (by norm_num) (by norm_num) rfl
    (by simp [gridTarget]) ?_
  rw [C164_exact_partial (jj := 1) (ii := 1) hs e (fun _ _ _ => rfl) (by norm_num) (by norm_num) (by norm_num) (by norm_num) (by norm_num)
    (at_centre.mpr ⟨rfl, rfl⟩) (fun _ _ _ _ h => at_centre.mp h) centre_datum (Or.inr ⟨by intro h; omega, by intro h; omega, by intro h; omega, by intro h; omega⟩)]
  intro h; cases h

/-! ### `rgrid2rcm` -/

/-- C164: a case of `C164_exact_regular`. -/
example : ∃ out after, rgrid2rcm (some cellAxis) (some cellAxis) cellFi ⟨[2, 2], fun ix => (ix.getD 0 0 : ℝ)⟩ ⟨[2, 2], fun ix => (ix.getD 1 0 : ℝ)⟩ none = .ok (out, after) ∧
    out.get [0, 0, 1] = some 1 := by
  have hs : Spec.RegShapes cellAxis cellAxis cellFi ⟨[2, 2], fun ix => (ix.getD 0 0 : ℝ)⟩ ⟨[2, 2], fun ix => (ix.getD 1 0 : ℝ)⟩ 1 2 2 2 2 :=
    ⟨rfl, rfl, rfl, rfl, rfl, by norm_num, by norm_num, by norm_num, by norm_num⟩
  obtain ⟨out, e, -⟩ := rgrid2rcm_ok hs none
  refine ⟨out, _, e, ?_⟩
  have h := C164_exact_regular (g := 0) (j := 0) (i := 1) (jj := 0) (ii := 1) (v := ((1 : ℕ) : ℝ)) hs e cell_clean (by norm_num) (by norm_num) (by norm_num)
    (by norm_num) (by norm_num) (by simp [Spec.AtReg, cellAxis]; norm_num) ?_ (cell_datum 0 1 (by norm_num))
  · simpa using h
  · rintro jj ii h1 h2 ⟨h3, h4⟩
    simp only [cellAxis, List.getD_cons_zero, List.getD_cons_succ, abs_le] at h3 h4
    have a1 : jj = 0 ∨ jj = 1 := by omega
    have a2 : ii = 0 ∨ ii = 1 := by omega
    rcases a1 with rfl | rfl <;> rcases a2 with rfl | rfl <;> first | exact ⟨rfl, rfl⟩ | (exfalso; revert h3; norm_num; done) | (exfalso; revert h4; norm_num; done)

/-- A field with one missing corner. -/
noncomputable def holeFi : NDArr V := ⟨[1, 2, 2], fun ix => if ix = [0, 1, 1] then none else some 0⟩

theorem hole_datum {jj ii : ℕ} : Spec.datum none holeFi 0 jj ii = if jj = 1 ∧ ii = 1 then none else some 0 := by
  rw [Spec.datum]
  have := huge_pos
  by_cases h : jj = 1 ∧ ii = 1
  · rw [if_pos h]; simp [holeFi, h.1, h.2]
  · have e : holeFi.get [0, jj, ii] = some 0 := by simp [holeFi]; omega
    rw [if_neg h, e, if_neg]
    rintro (h | h)
    · cases h
    · have := Option.some.inj h; linarith

/-- C170: a case of `C170_mean_regular`. -/
example : ∃ out after v, rgrid2rcm (some cellAxis) (some cellAxis) holeFi cellLat cellLon none = .ok (out, after) ∧ out.get [0, 0, 0] = some v := by
  have hs : Spec.RegShapes cellAxis cellAxis holeFi cellLat cellLon 1 2 2 2 2 := ⟨rfl, rfl, rfl, rfl, rfl, by norm_num, by norm_num, by norm_num, by norm_num⟩
  obtain ⟨out, e, -⟩ := rgrid2rcm_ok hs none
  refine ⟨out, _, _, e, C170_mean_regular (g := 0) (j := 0) (i := 0) hs e (fun _ _ _ => rfl) (by norm_num) (by norm_num) (by norm_num) (cell_in 0 (by norm_num))
    ⟨(1, 1), by simp [Spec.corners], by show Spec.datum none _ _ _ _ = none; rw [hole_datum]; simp⟩ ?_ ?_⟩
  · show Spec.validReg none _ _ _ _ _ _ _ ≠ []
    simp [Spec.validReg, Spec.corners, hole_datum]
  · show ∀ q ∈ Spec.validReg none _ _ _ _ _ _ _, _
    intro q hq
    have hang : ∀ j i : ℕ, j ≤ 1 → 0 < Spec.angle (cellLat.get [0, 0]) (cellLon.get [0, 0]) (cellAxis.get [j]) (cellAxis.get [i]) := by
      intro j i hj
      have hj' : (j : ℝ) ≤ 1 := by exact_mod_cast hj
      refine Spec.angle_pos ?_ ?_ ?_
      · norm_num [cellLat, abs_le]
      · simp only [cellAxis, List.getD_cons_zero]; rw [abs_of_nonneg (by positivity)]; linarith
      · simp only [cellLat, cellAxis, List.getD_cons_zero]
        have : j = 0 ∨ j = 1 := by omega
        rcases this with rfl | rfl <;> norm_num
    have hp := huge_pos
    rw [Spec.validReg, List.mem_filterMap] at hq
    obtain ⟨r, hr, hq⟩ := hq
    rw [hole_datum] at hq
    have hr1 : r.1 ≤ 1 := by
      simp only [Spec.corners, List.mem_cons, List.not_mem_nil, or_false] at hr
      rcases hr with rfl | rfl | rfl | rfl <;> (dsimp only; omega)
    split at hq
    · cases hq
    · have := (Option.some.inj hq).symm
      subst this
      exact ⟨hp, (hang r.1 r.2 hr1).ne'⟩

/-- C170: a case of `C170_missing_regular`. -/
example : ∃ out after, rgrid2rcm (some cellAxis) (some cellAxis) ⟨[1, 2, 2], fun _ => none⟩ cellLat cellLon none = .ok (out, after) ∧ out.get [0, 0, 0] = none := by
  have hs : Spec.RegShapes cellAxis cellAxis ⟨[1, 2, 2], fun _ => none⟩ cellLat cellLon 1 2 2 2 2 := ⟨rfl, rfl, rfl, rfl, rfl, by norm_num, by norm_num, by norm_num, by norm_num⟩
  obtain ⟨out, e, -⟩ := rgrid2rcm_ok hs none
  exact ⟨out, _, e, C170_missing_regular (g := 0) hs e (fun _ _ _ => rfl) (by norm_num) (by norm_num) (by norm_num) (cell_in 0 (by norm_num)) fun q _ => by
    show Spec.datum none _ _ _ _ = none; simp [Spec.datum]⟩

/-! ### `rcm2points` -/

/-- A unit cell; targets inside it, at a corner of it, and 99 degrees east of it. -/
def sqLat : NDArr ℝ := ⟨[2, 2], fun ix => (ix.getD 0 0 : ℝ)⟩
@[inherit_doc sqLat] def sqLon : NDArr ℝ := ⟨[2, 2], fun ix => (ix.getD 1 0 : ℝ)⟩
@[inherit_doc sqLat] noncomputable def ptLat : NDArr ℝ := ⟨[3], fun ix => if ix = [1] then 0 else 1 / 2⟩
@[inherit_doc sqLat] noncomputable def ptLon : NDArr ℝ := ⟨[3], fun ix => if ix = [0] then 1 / 4 else if ix = [1] then 1 else 100⟩

theorem sq_shapes : Spec.PointShapes sqLat sqLon cellFi ptLat ptLon 1 2 2 3 := ⟨rfl, rfl, rfl, rfl, rfl, by norm_num, by norm_num, by norm_num⟩

theorem pt_values : (ptLat.get [0] = 1 / 2 ∧ ptLon.get [0] = 1 / 4) ∧ (ptLat.get [1] = 0 ∧ ptLon.get [1] = 1) ∧ (ptLat.get [2] = 1 / 2 ∧ ptLon.get [2] = 100) := by
  simp [ptLat, ptLon]

theorem sq_apart (lon : ℝ) (jj ii : ℕ) : ¬ Spec.Coincides sqLat sqLon (1 / 2) lon jj ii := by
  rintro ⟨h, -⟩
  simp only [sqLat, List.getD_cons_zero] at h
  have h2 : (1 : ℝ) = 2 * jj := by linarith
  have h3 : 1 = 2 * jj := by exact_mod_cast h2
  omega

theorem sq_one : Spec.OneCell sqLat sqLon 2 2 (ptLat.get [0]) (ptLon.get [0]) 0 0 := by
  rw [pt_values.1.1, pt_values.1.2]
  exact ⟨by norm_num, by norm_num, fun jj ii _ _ => sq_apart _ jj ii, by norm_num [Spec.InPointCell, sqLat, sqLon], fun jj ii h1 h2 _ => by omega⟩

theorem sq_angle {lon : ℝ} {jj ii : ℕ} (hj : jj < 2) : Spec.angle (1 / 2) lon (sqLat.get [jj, ii]) (sqLon.get [jj, ii]) ≠ 0 := by
  have : jj = 0 ∨ jj = 1 := by omega
  refine (Spec.angle_pos ?_ ?_ ?_).ne' <;> rcases this with rfl | rfl <;> norm_num [sqLat, abs_le]

/-- C164, C169: cases of `C164_exact_points` and `C169_bilinear_points`. -/
example : ∃ out after, rcm2points (some sqLat) (some sqLon) cellFi ptLat ptLon 2 none = .ok (out, after) ∧ out.get [0, 0] = some (1 / 4) ∧ out.get [0, 1] = some 1 := by
  have hh := huge_gt
  obtain ⟨⟨out, after⟩, e⟩ := (C176_accepts_points (some sqLat) (some sqLon) cellFi ptLat ptLon 2 rfl none).mpr ⟨_, _, _, _, _, _, rfl, rfl, sq_shapes⟩
  refine ⟨out, after, e, ?_, ?_⟩
  · rw [C169_bilinear_points (g := 0) (t := 0) sq_shapes rfl e cell_clean (by norm_num) (by norm_num) sq_one (by norm_num [sqLat, sqLon]) (cell_datum 0 0 (by norm_num))
      (cell_datum 0 1 (by norm_num)) (cell_datum 1 0 (by norm_num)) (cell_datum 1 1 (by norm_num))
      ⟨by norm_num; linarith, by norm_num; linarith, by norm_num; linarith, by norm_num; linarith⟩, pt_values.1.1, pt_values.1.2]
    norm_num [Spec.bilinear, sqLat, sqLon]
  · have h := C164_exact_points (g := 0) (t := 1) (jj := 0) (ii := 1) (v := ((1 : ℕ) : ℝ)) sq_shapes e cell_clean (by norm_num) (by norm_num) (by norm_num) (by norm_num)
      (by rw [pt_values.2.1.1, pt_values.2.1.2]; simp [Spec.Coincides, sqLat, sqLon]) (by
        rw [pt_values.2.1.1, pt_values.2.1.2]
        rintro jj ii _ _ ⟨h1, h2⟩
        simp only [sqLat, sqLon, List.getD_cons_zero, List.getD_cons_succ] at h1 h2
        exact ⟨by exact_mod_cast h1.symm, by exact_mod_cast h2.symm⟩) (cell_datum 0 1 (by norm_num))
    simpa using h

/-- C170: a case of `C170_mean_points` and `C176_accepts_points_idw`. -/
example : ∃ out after v, rcm2points (some sqLat) (some sqLon) cellFi ⟨[1], fun _ => 1 / 2⟩ ⟨[1], fun _ => 1 / 4⟩ 0 none = .ok (out, after) ∧ out.get [0, 0] = some v := by
  have hh := huge_gt
  have hs : Spec.PointShapes sqLat sqLon cellFi ⟨[1], fun _ => 1 / 2⟩ ⟨[1], fun _ => 1 / 4⟩ 1 2 2 1 := ⟨rfl, rfl, rfl, rfl, rfl, by norm_num, by norm_num, by norm_num⟩
  obtain ⟨⟨out, after⟩, e⟩ := C176_accepts_points_idw 0 none hs fun t jj ii _ hj _ => sq_angle hj
  have h1 : Spec.OneCell sqLat sqLon 2 2 (1 / 2) (1 / 4) 0 0 := by have := sq_one; rwa [pt_values.1.1, pt_values.1.2] at this
  refine ⟨out, after, _, e, C170_mean_points (g := 0) (t := 0) hs (by norm_num) e cell_clean (by norm_num) (by norm_num) h1 ?_ ?_⟩
  · show Spec.validAt none _ _ _ _ _ _ _ ≠ []
    simp only [Spec.validAt, Spec.corners, List.filterMap_cons, cell_datum 0 0 (by norm_num), Option.map_some]; simp
  · show ∀ q ∈ Spec.validAt none _ _ _ _ _ _ _, _
    intro q hq
    rw [Spec.validAt, List.mem_filterMap] at hq
    obtain ⟨r, hr, hq⟩ := hq
    have hr1 : r.1 < 2 ∧ r.2 < 2 := by
      simp only [Spec.corners, List.mem_cons, List.not_mem_nil, or_false] at hr
      rcases hr with rfl | rfl | rfl | rfl <;> (dsimp only; omega)
    rw [cell_datum _ _ hr1.2] at hq
    have := (Option.some.inj hq).symm
    subst this
    refine ⟨?_, sq_angle hr1.1⟩
    have : (r.2 : ℝ) < 2 := by exact_mod_cast hr1.2
    exact this.trans hh

/-- C166 fails for `rcm2points` ("no extrapolation is performed"): a target 99 degrees east of the easternmost source point gets a number. -/
theorem C166_no_extrapolation_points_false : ∃ (lat2d lon2d : NDArr ℝ) (fi : NDArr V) (lat1d lon1d : NDArr ℝ) (out after : NDArr V),
    Spec.PointShapes lat2d lon2d fi lat1d lon1d 1 2 2 3 ∧ rcm2points (some lat2d) (some lon2d) fi lat1d lon1d 2 none = .ok (out, after) ∧
      (∀ jj ii, jj < 2 → ii < 2 → lon2d.get [jj, ii] + 99 ≤ lon1d.get [2]) ∧ ¬ Spec.InBox lat2d lon2d 1 (lat1d.get [2]) (lon1d.get [2]) ∧
      out.get [0, 2] ≠ none := by
  have hh := huge_gt
  obtain ⟨⟨out, after⟩, e⟩ := (C176_accepts_points (some sqLat) (some sqLon) cellFi ptLat ptLon 2 rfl none).mpr ⟨_, _, _, _, _, _, rfl, rfl, sq_shapes⟩
  refine ⟨_, _, _, _, _, out, after, sq_shapes, e, ?_, ?_, ?_⟩
  · intro jj ii _ hi
    rw [pt_values.2.2.2]
    have : (ii : ℝ) ≤ 1 := by exact_mod_cast (show ii ≤ 1 by omega)
    simp only [sqLon, List.getD_cons_succ, List.getD_cons_zero]; linarith
  · rintro ⟨-, p, q, -, hq, -, h2⟩
    change InB [2, 2] q at hq
    obtain ⟨j, i, rfl⟩ : ∃ j i, q = [j, i] := by
      match q, hq with
      | [j, i], _ => exact ⟨j, i, rfl⟩
      | [], h => simp [InB] at h
      | [_], h => simp [InB] at h
      | _ :: _ :: _ :: _, h => simp [InB] at h
    rw [inB2] at hq
    rw [pt_values.2.2.2] at h2
    have : (i : ℝ) ≤ 1 := by exact_mod_cast (show i ≤ 1 by omega)
    simp only [sqLon, List.getD_cons_succ, List.getD_cons_zero] at h2; linarith
  · refine C166_fallback_points (jj := 0) (ii := 0) sq_shapes e (by norm_num) (by norm_num) ?_ (by norm_num) (by norm_num) ?_ ?_ ?_
    · intro jj ii v _ hi hv
      rw [cell_datum jj ii hi] at hv
      have := Option.some.inj hv
      have h2 : (ii : ℝ) < 2 := by exact_mod_cast hi
      linarith
    · rw [cell_datum 0 0 (by norm_num)]; rfl
    · rw [pt_values.2.2.1]; norm_num [sqLat, abs_le]
    · rw [pt_values.2.2.1]; exact sq_angle (by norm_num)

/-- C172 fails ("the latitude order must be south-to-north" is tested by a check that never fires): a source with north-to-south latitudes is accepted
silently. -/
theorem C172_orientation_false : ∃ (lat2d lon2d : NDArr ℝ) (fi : NDArr V) (lat1d lon1d : NDArr ℝ), Spec.PointShapes lat2d lon2d fi lat1d lon1d 1 2 2 3 ∧
    (∀ ii, lat2d.get [1, ii] < lat2d.get [0, ii]) ∧ ∃ r, rcm2points (some lat2d) (some lon2d) fi lat1d lon1d 2 none = .ok r := by
  have hs : Spec.PointShapes ⟨[2, 2], fun ix => 1 - (ix.getD 0 0 : ℝ)⟩ sqLon cellFi ptLat ptLon 1 2 2 3 := ⟨rfl, rfl, rfl, rfl, rfl, by norm_num, by norm_num, by norm_num⟩
  exact ⟨_, _, _, _, _, hs, fun ii => by norm_num, (C176_accepts_points _ _ _ _ _ 2 rfl none).mpr ⟨_, _, _, _, _, _, rfl, rfl, hs⟩⟩

/-- C171: a case of `C171_largest_points` in which the caller's array changes. -/
example : ∃ (fi : NDArr V) (out after : NDArr V), rcm2points (some sqLat) (some sqLon) fi ptLat ptLon 2 none = .ok (out, after) ∧ after.get [0, 0, 0] ≠ fi.get [0, 0, 0] := by
  have hs : Spec.PointShapes sqLat sqLon ⟨[1, 2, 2], fun ix => if ix = [0, 0, 0] then some huge else none⟩ ptLat ptLon 1 2 2 3 :=
    ⟨rfl, rfl, rfl, rfl, rfl, by norm_num, by norm_num, by norm_num⟩
  obtain ⟨⟨out, after⟩, e⟩ := (C176_accepts_points _ _ _ _ _ 2 rfl none).mpr ⟨_, _, _, _, _, _, rfl, rfl, hs⟩
  refine ⟨_, out, after, e, ?_⟩
  rw [C171_largest_points e (jx := [0, 1, 1]) (by simp [InB]) (by simp [missing]) (by simp)]
  simp [missing]

end Skyborn.Rcm
