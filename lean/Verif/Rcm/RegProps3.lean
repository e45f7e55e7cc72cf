/-
`rgrid2rcm`: inverse-distance means next to missing values (C170), where the documentation is wrong (C169), the caller's array (C171), other
targets (C173), other fields (C174), acceptance (C176).
-/
import Verif.Rcm.RegProps2

namespace Skyborn.Rcm

open Classical

/-- The values at the given points of a rectilinear grid that are not missing, with their angles to the target. -/
noncomputable def Spec.validReg (mp : V) (lat1d lon1d : NDArr ℝ) (fi : NDArr V) (g : ℕ) (lat lon : ℝ) (pts : List (ℕ × ℕ)) : List (ℝ × ℝ) :=
  pts.filterMap fun q => (Spec.datum mp fi g q.1 q.2).map fun v => (v, Spec.angle lat lon (lat1d.get [q.1]) (lon1d.get [q.2]))

/-- The four corners of a cell, as pairs (row, column). -/
def Spec.corners (jj ii : ℕ) : List (ℕ × ℕ) := [(jj, ii), (jj, ii + 1), (jj + 1, ii), (jj + 1, ii + 1)]

theorem validReg_eq {mp : V} {lat1d lon1d : NDArr ℝ} {fi : NDArr V} (hc : Spec.Clean mp fi) {g : ℕ} {lat lon : ℝ} {pts : List (ℕ × ℕ)}
    (hb : ∀ q ∈ pts, InB fi.shape [g, q.1, q.2]) :
    Spec.validReg mp lat1d lon1d fi g lat lon pts = (pts.map fun q => (fieldsOf mp fi (q.2 + 1) (q.1 + 1) (g + 1),
      Spec.angle lat lon (lat1d.get [q.1]) (lon1d.get [q.2]))).filter fun q => decide (q.1 ≠ huge) :=
  validAt_eq (lat2d := ⟨[], fun ix => lat1d.get [ix.getD 0 0]⟩) (lon2d := ⟨[], fun ix => lon1d.get [ix.getD 1 0]⟩) hc hb

theorem mean_idw {xmsg : ℝ} {l : List (ℝ × ℝ)} {d : ℝ} (hd : d ≠ 0) (hz : ∀ q ∈ l, q.1 ≠ xmsg → q.2 ≠ 0) (hne : ∃ q ∈ l, q.1 ≠ xmsg) :
    0 < (sums xmsg (l.map fun q => (q.1, weight (q.2 * d)))).2.2 ∧
    (sums xmsg (l.map fun q => (q.1, weight (q.2 * d)))).2.1 / (sums xmsg (l.map fun q => (q.1, weight (q.2 * d)))).2.2 =
      Spec.idw (l.filter fun q => decide (q.1 ≠ xmsg)) := by
  have key := curvValue_idw hd hz hne
  have pos : 0 < (sums xmsg (l.map fun q => (q.1, weight (q.2 * d)))).2.2 := by
    rw [sums_eq, List.filter_map]
    dsimp only
    refine List.sum_pos _ (fun x hx => ?_) ?_
    · rw [List.map_map] at hx
      obtain ⟨q, _, rfl⟩ := List.mem_map.mp hx
      exact weight_pos _
    · obtain ⟨q, hq, hq'⟩ := hne
      intro hc
      simp only [List.map_eq_nil_iff, List.filter_eq_nil_iff] at hc
      exact hc q hq (by simpa using hq')
  refine ⟨pos, ?_⟩
  rw [← key, curvValue, if_neg (by simp)]
  have hno : atCorner xmsg (l.map fun q => (q.1, q.2 * d)) = none := by
    rw [atCorner, Option.map_eq_none_iff, List.find?_eq_none]
    intro q hq
    obtain ⟨r, hr, rfl⟩ := List.mem_map.mp hq
    simp only [decide_eq_true_eq, not_and]
    intro h1 h2
    exact hz r hr h2 ((mul_eq_zero.mp h1).resolve_right hd)
  rw [hno, List.map_map]
  dsimp only [Function.comp_def]
  rw [if_pos]
  refine ⟨?_, pos⟩
  rw [sums_eq]
  obtain ⟨q, hq, hq'⟩ := hne
  exact List.length_pos_of_mem (List.mem_filter.mpr ⟨List.mem_map_of_mem hq, by simpa using hq'⟩)

theorem idw_lt {L : List (ℝ × ℝ)} (hval : L ≠ []) {m : ℝ} (hang : ∀ q ∈ L, q.1 < m ∧ q.2 ≠ 0) : Spec.idw L < m := by
  have hLw : ∀ q ∈ L.map fun q => (q.1, 1 / q.2 ^ 2), 0 ≤ q.2 := by
    intro q hq; obtain ⟨r, _, rfl⟩ := List.mem_map.mp hq; dsimp only; positivity
  have hpos : 0 < ((L.map fun q => (q.1, 1 / q.2 ^ 2)).map (·.2)).sum := by
    refine List.sum_pos _ (fun x hx => ?_) (by simpa using hval)
    rw [List.map_map] at hx
    obtain ⟨q, hq, rfl⟩ := List.mem_map.mp hx
    have := (hang q hq).2
    simp only [Function.comp]; positivity
  obtain ⟨a, -, b, hb, -, hle⟩ := mean_between hLw hpos
  obtain ⟨r, hr, rfl⟩ := List.mem_map.mp hb
  rw [List.map_map, List.map_map] at hle
  have e1 : Spec.idw L = (L.map ((fun q : ℝ × ℝ => q.1 * q.2) ∘ fun q => (q.1, 1 / q.2 ^ 2))).sum /
      (L.map ((fun q : ℝ × ℝ => q.2) ∘ fun q => (q.1, 1 / q.2 ^ 2))).sum := by
    rw [Spec.idw]
    congr 2
    refine List.map_congr_left fun q _ => ?_
    simp only [Function.comp]; ring
  rw [e1]
  exact hle.trans_lt (hang r hr).1

/-- C170 for `rgrid2rcm`: a target inside a cell of an increasing source, coinciding with no corner, gets the inverse-distance-squared mean
of the corners that are not missing when at least one of the four is missing and at least one is not. -/
theorem C170_mean_regular {lat1d lon1d : NDArr ℝ} {fi : NDArr V} {lat2d lon2d : NDArr ℝ} {ngrd nyi nxi nyo nxo : ℕ} {msg : Option V}
    {out after : NDArr V} (hs : Spec.RegShapes lat1d lon1d fi lat2d lon2d ngrd nyi nxi nyo nxo)
    (h : rgrid2rcm (some lat1d) (some lon1d) fi lat2d lon2d msg = .ok (out, after)) (hc : Spec.Clean (missing msg) fi) {g j i jj ii : ℕ}
    (hg : g < ngrd) (hj : j < nyo) (hi : i < nxo) (hin : Spec.InCellOf lat1d lon1d nyi nxi (lat2d.get [j, i]) (lon2d.get [j, i]) jj ii)
    (hmiss : ∃ q ∈ Spec.corners jj ii, Spec.datum (missing msg) fi g q.1 q.2 = none)
    (hval : Spec.validReg (missing msg) lat1d lon1d fi g (lat2d.get [j, i]) (lon2d.get [j, i]) (Spec.corners jj ii) ≠ [])
    (hang : ∀ q ∈ Spec.validReg (missing msg) lat1d lon1d fi g (lat2d.get [j, i]) (lon2d.get [j, i]) (Spec.corners jj ii), q.1 < huge ∧ q.2 ≠ 0) :
    out.get [g, j, i] = some (Spec.idw (Spec.validReg (missing msg) lat1d lon1d fi g (lat2d.get [j, i]) (lon2d.get [j, i]) (Spec.corners jj ii))) := by
  obtain ⟨-, hv⟩ := rgrid2rcm_at h hs
  obtain ⟨f, hf, hout⟩ := hv j i hj hi
  have hr := hin.row
  have hl := hin.col
  have hbp : ∀ q ∈ Spec.corners jj ii, InB fi.shape [g, q.1, q.2] := by
    intro q hq
    rw [hs.fi, inB3]
    simp only [Spec.corners, List.mem_cons, List.not_mem_nil, or_false] at hq
    rcases hq with rfl | rfl | rfl | rfl <;> (dsimp only; omega)
  have hLeq := validReg_eq (lat1d := lat1d) (lon1d := lon1d) (lat := lat2d.get [j, i]) (lon := lon2d.get [j, i]) hc hbp
  set L := Spec.validReg (missing msg) lat1d lon1d fi g (lat2d.get [j, i]) (lon2d.get [j, i]) (Spec.corners jj ii) with hL
  have hlt := idw_lt hval hang
  obtain ⟨m1, m2⟩ := mean_idw (xmsg := huge) (d := 57.29577995691645) (l := (Spec.corners jj ii).map fun q =>
    (fieldsOf (missing msg) fi (q.2 + 1) (q.1 + 1) (g + 1), Spec.angle (lat2d.get [j, i]) (lon2d.get [j, i]) (lat1d.get [q.1]) (lon1d.get [q.2])))
    (by norm_num) (fun q hq hq1 => (hang q (by rw [hLeq, List.mem_filter]; exact ⟨hq, by simpa using hq1⟩)).2)
    (by
      obtain ⟨q, t, eq⟩ := List.exists_cons_of_ne_nil hval
      have : q ∈ L := by rw [eq]; simp
      rw [hLeq, List.mem_filter] at this
      exact ⟨q, this.1, by simpa using this.2⟩)
  rw [← hLeq] at m2
  rw [hout g hg]
  have eV : regVal (regOf (missing msg) lat1d lon1d fi nxi nyi ngrd) huge 1 0.001 f (lon2d.get [j, i]) (lat2d.get [j, i]) (g + 1) = Spec.idw L := by
    rw [regVal_cell hf hin, regValue, if_neg (by simp)]
    dsimp only
    rw [if_neg]
    · rw [← m2]
      simp only [Spec.corners, List.map_cons, List.map_nil] at m1 ⊢
      simp only [C175_great_circle]
      simp only [regOf, Nat.add_sub_cancel]
      rw [if_pos ⟨by norm_num, m1⟩]
    · obtain ⟨q, hq, hqn⟩ := hmiss
      have e := fieldsOf_eq hc (hbp q hq)
      rw [hqn, Option.getD_none] at e
      simp only [Spec.corners, List.mem_cons, List.not_mem_nil, or_false] at hq
      simp only [regOf]
      rcases hq with rfl | rfl | rfl | rfl <;> dsimp only at e <;> rw [e] <;> simp
  rw [eV, decode_ne hlt.ne]

/-- C170 for `rgrid2rcm`: with all four corners missing the target is missing. -/
theorem C170_missing_regular {lat1d lon1d : NDArr ℝ} {fi : NDArr V} {lat2d lon2d : NDArr ℝ} {ngrd nyi nxi nyo nxo : ℕ} {msg : Option V}
    {out after : NDArr V} (hs : Spec.RegShapes lat1d lon1d fi lat2d lon2d ngrd nyi nxi nyo nxo)
    (h : rgrid2rcm (some lat1d) (some lon1d) fi lat2d lon2d msg = .ok (out, after)) (hc : Spec.Clean (missing msg) fi) {g j i jj ii : ℕ}
    (hg : g < ngrd) (hj : j < nyo) (hi : i < nxo) (hin : Spec.InCellOf lat1d lon1d nyi nxi (lat2d.get [j, i]) (lon2d.get [j, i]) jj ii)
    (hmiss : ∀ q ∈ Spec.corners jj ii, Spec.datum (missing msg) fi g q.1 q.2 = none) : out.get [g, j, i] = missing msg := by
  obtain ⟨-, hv⟩ := rgrid2rcm_at h hs
  obtain ⟨f, hf, hout⟩ := hv j i hj hi
  have hr := hin.row
  have hl := hin.col
  have e : ∀ q ∈ Spec.corners jj ii, fieldsOf (missing msg) fi (q.2 + 1) (q.1 + 1) (g + 1) = huge := by
    intro q hq
    have hb : InB fi.shape [g, q.1, q.2] := by
      rw [hs.fi, inB3]
      simp only [Spec.corners, List.mem_cons, List.not_mem_nil, or_false] at hq
      rcases hq with rfl | rfl | rfl | rfl <;> (dsimp only; omega)
    rw [fieldsOf_eq hc hb, hmiss q hq]; rfl
  have e1 := e (jj, ii) (by simp [Spec.corners])
  have e2 := e (jj, ii + 1) (by simp [Spec.corners])
  have e3 := e (jj + 1, ii) (by simp [Spec.corners])
  have e4 := e (jj + 1, ii + 1) (by simp [Spec.corners])
  dsimp only at e1 e2 e3 e4
  rw [hout g hg, regVal_cell hf hin, regValue, if_neg (by simp)]
  simp only [regOf, e1, e2, e3, e4]
  simp [sums, decode]

/-! ### C169: where the documentation is wrong -/

/-- A cell between 0 and 1 in both directions, with a field that is zero in the west and one in the east; targets halfway between the rows, on
the west and the east side of the cell. -/
def cellAxis : NDArr ℝ := ⟨[2], fun ix => (ix.getD 0 0 : ℝ)⟩
@[inherit_doc cellAxis] def cellFi : NDArr V := ⟨[1, 2, 2], fun ix => some (ix.getD 2 0 : ℝ)⟩
@[inherit_doc cellAxis] noncomputable def cellLat : NDArr ℝ := ⟨[2, 2], fun _ => 1 / 2⟩
@[inherit_doc cellAxis] def cellLon : NDArr ℝ := ⟨[2, 2], fun ix => (ix.getD 1 0 : ℝ)⟩

theorem cell_shapes : Spec.RegShapes cellAxis cellAxis cellFi cellLat cellLon 1 2 2 2 2 :=
  ⟨rfl, rfl, rfl, rfl, rfl, by norm_num, by norm_num, by norm_num, by norm_num⟩

theorem cell_clean : Spec.Clean none cellFi := fun ix _ h => by cases h

theorem cell_datum (j i : ℕ) (hi : i < 2) : Spec.datum none cellFi 0 j i = some (i : ℝ) := by
  have := huge_gt
  have hlt : (i : ℝ) < 2 := by exact_mod_cast hi
  rw [Spec.datum]
  simp only [cellFi, List.getD_cons_succ, List.getD_cons_zero]
  rw [if_neg]
  simp only [reduceCtorEq, Option.some.injEq, false_or]
  linarith

theorem cell_inc : Spec.Increasing cellAxis 2 := by
  intro i hi; simp only [cellAxis, List.getD_cons_zero]; push_cast; linarith

theorem cell_apart (lon : ℝ) (jj ii : ℕ) : ¬ Spec.AtReg cellAxis cellAxis (1 / 2) lon jj ii := by
  rintro ⟨h, -⟩
  rw [abs_le] at h
  simp only [cellAxis, List.getD_cons_zero] at h
  rcases Nat.eq_zero_or_pos jj with rfl | hj
  · norm_num at h
  · have : (1 : ℝ) ≤ jj := by exact_mod_cast hj
    norm_num at h; linarith

theorem cell_in (i : ℕ) (hi : i < 1) : Spec.InCellOf cellAxis cellAxis 2 2 (cellLat.get [0, i]) (cellLon.get [0, i]) 0 0 := by
  obtain rfl : i = 0 := by omega
  refine ⟨cell_inc, cell_inc, by norm_num, by norm_num, ?_, ?_, ?_, ?_, fun a b _ _ => cell_apart _ _ _⟩ <;> norm_num [cellAxis, cellLat, cellLon]

/-- C169 fails as documented ("the method used is simple inverse distance weighting"): a target inside a cell of four valid points does not
get their inverse-distance mean. -/
theorem C169_inverse_distance_false : ∃ (lat1d lon1d : NDArr ℝ) (fi : NDArr V) (lat2d lon2d : NDArr ℝ) (out after : NDArr V),
    Spec.RegShapes lat1d lon1d fi lat2d lon2d 1 2 2 2 2 ∧ rgrid2rcm (some lat1d) (some lon1d) fi lat2d lon2d none = .ok (out, after) ∧
    Spec.Clean none fi ∧ Spec.InCellOf lat1d lon1d 2 2 (lat2d.get [0, 0]) (lon2d.get [0, 0]) 0 0 ∧
    (∀ q ∈ Spec.corners 0 0, (Spec.datum none fi 0 q.1 q.2).isSome) ∧
    out.get [0, 0, 0] ≠ some (Spec.idw (Spec.validReg none lat1d lon1d fi 0 (lat2d.get [0, 0]) (lon2d.get [0, 0]) (Spec.corners 0 0))) := by
  obtain ⟨out, e, -, -⟩ := rgrid2rcm_ok cell_shapes none
  refine ⟨_, _, _, _, _, out, _, cell_shapes, e, cell_clean, cell_in 0 (by norm_num), ?_, ?_⟩
  · intro q hq
    simp only [Spec.corners, List.mem_cons, List.not_mem_nil, or_false] at hq
    rcases hq with rfl | rfl | rfl | rfl <;> rw [cell_datum _ _ (by norm_num)] <;> rfl
  · have := huge_gt
    rw [C169_bilinear cell_shapes e cell_clean (by norm_num) (by norm_num) (by norm_num) (cell_in 0 (by norm_num)) (cell_datum 0 0 (by norm_num))
      (cell_datum 0 1 (by norm_num)) (cell_datum 1 0 (by norm_num)) (cell_datum 1 1 (by norm_num))
      ⟨by norm_num; linarith, by norm_num; linarith, by norm_num; linarith, by norm_num; linarith⟩]
    have hang : ∀ j i : ℕ, j ≤ 1 → 0 < Spec.angle (cellLat.get [0, 0]) (cellLon.get [0, 0]) (cellAxis.get [j]) (cellAxis.get [i]) := by
      intro j i hj
      have hj' : (j : ℝ) ≤ 1 := by exact_mod_cast hj
      refine Spec.angle_pos ?_ ?_ ?_
      · norm_num [cellLat, abs_le]
      · simp only [cellAxis, List.getD_cons_zero]; rw [abs_of_nonneg (by positivity)]; linarith
      · simp only [cellLat, cellAxis, List.getD_cons_zero]
        have : j = 0 ∨ j = 1 := by omega
        rcases this with rfl | rfl <;> norm_num
    intro hcon
    simp only [Option.some.injEq] at hcon
    have l0 : Spec.bilinear ((0 : ℕ) : ℝ) ((1 : ℕ) : ℝ) ((0 : ℕ) : ℝ) ((1 : ℕ) : ℝ)
        ((cellLon.get [0, 0] - cellAxis.get [0]) / (cellAxis.get [0 + 1] - cellAxis.get [0]))
        ((cellLat.get [0, 0] - cellAxis.get [0]) / (cellAxis.get [0 + 1] - cellAxis.get [0])) = 0 := by
      norm_num [Spec.bilinear, cellLon, cellAxis]
    rw [l0] at hcon
    have a1 := hang 0 0 (by norm_num)
    have a2 := hang 0 1 (by norm_num)
    have a3 := hang 1 0 (by norm_num)
    have a4 := hang 1 1 (by norm_num)
    simp only [Spec.validReg, Spec.corners, List.filterMap_cons, List.filterMap_nil, cell_datum _ 0 (by norm_num), cell_datum _ (0 + 1) (by norm_num),
      Option.map_some, Spec.idw, List.map_cons, List.map_nil, List.sum_cons, List.sum_nil] at hcon
    norm_num at hcon a1 a2 a3 a4
    generalize Spec.angle (cellLat.get [0, 0]) (cellLon.get [0, 0]) (cellAxis.get [0]) (cellAxis.get [0]) = b1 at *
    generalize Spec.angle (cellLat.get [0, 0]) (cellLon.get [0, 0]) (cellAxis.get [0]) (cellAxis.get [1]) = b2 at *
    generalize Spec.angle (cellLat.get [0, 0]) (cellLon.get [0, 0]) (cellAxis.get [1]) (cellAxis.get [0]) = b3 at *
    generalize Spec.angle (cellLat.get [0, 0]) (cellLon.get [0, 0]) (cellAxis.get [1]) (cellAxis.get [1]) = b4 at *
    have : 0 < ((b2 ^ 2)⁻¹ + (b4 ^ 2)⁻¹) := by positivity
    have h2 : 0 < ((b1 ^ 2)⁻¹ + ((b2 ^ 2)⁻¹ + ((b3 ^ 2)⁻¹ + (b4 ^ 2)⁻¹))) := by positivity
    exact absurd hcon (div_pos this h2).ne

/-- C169 fails at the last longitude: a target within the range of both axes, all source values valid, is missing. -/
theorem C169_edge_false : ∃ (lat1d lon1d : NDArr ℝ) (fi : NDArr V) (lat2d lon2d : NDArr ℝ) (out after : NDArr V),
    Spec.RegShapes lat1d lon1d fi lat2d lon2d 1 2 2 2 2 ∧ rgrid2rcm (some lat1d) (some lon1d) fi lat2d lon2d none = .ok (out, after) ∧
    Spec.Increasing lat1d 2 ∧ Spec.Increasing lon1d 2 ∧ (∀ j i, i < 2 → (Spec.datum none fi 0 j i).isSome) ∧
    (lat1d.get [0] ≤ lat2d.get [0, 1] ∧ lat2d.get [0, 1] ≤ lat1d.get [1]) ∧ (lon1d.get [0] ≤ lon2d.get [0, 1] ∧ lon2d.get [0, 1] ≤ lon1d.get [1]) ∧
    out.get [0, 0, 1] = none := by
  obtain ⟨out, e, -, -⟩ := rgrid2rcm_ok cell_shapes none
  refine ⟨_, _, _, _, _, out, _, cell_shapes, e, cell_inc, cell_inc, fun j i hi => by rw [cell_datum j i hi]; rfl, ?_, ?_, ?_⟩
  · norm_num [cellAxis, cellLat]
  · norm_num [cellAxis, cellLon]
  · exact C169_last_edge cell_shapes e (by norm_num) (by norm_num) (by norm_num) cell_inc cell_inc (Or.inl (by norm_num [cellAxis, cellLon]))
      fun jj ii _ _ => cell_apart _ jj ii

/-! ### C171, C173, C174, C176 -/

/-- C171 for `rgrid2rcm`: the caller's missing values are replaced by the largest float64, and nothing else changes. -/
theorem C171_overwritten_regular {a b : Option (NDArr ℝ)} {fi : NDArr V} {lat2d lon2d : NDArr ℝ} {msg : Option V} {out after : NDArr V}
    (h : rgrid2rcm a b fi lat2d lon2d msg = .ok (out, after)) :
    after.shape = fi.shape ∧ ∀ ix, after.get ix = if fi.get ix = missing msg then some huge else fi.get ix := by
  obtain ⟨lat1d, lon1d, ngrd, nyi, nxi, nyo, nxo, rfl, rfl, hs⟩ := rgrid2rcm_shapes h
  obtain ⟨out', e, -, -⟩ := rgrid2rcm_ok hs msg
  rw [h] at e
  simp only [Except.ok.injEq, Prod.mk.injEq] at e
  obtain ⟨-, rfl⟩ := e
  exact ⟨rfl, fun ix => rfl⟩

theorem RegFast.unique {R : Reg} {xo yo : ℝ} {f f' : Option (ℕ × ℕ)} (h : RegFast R xo yo f) (h' : RegFast R xo yo f') : f = f' := by
  cases f with
  | none =>
    cases f' with
    | none => rfl
    | some a => exact absurd h'.1 h
  | some a =>
    cases f' with
    | none => exact absurd h.1 h'
    | some b =>
      obtain ⟨⟨i1, i2⟩, b1, b2⟩ := h
      obtain ⟨-, c1, c2⟩ := h'
      rw [Prod.ext (b1.unique i1 c1) (b2.unique i2 c2)]

/-- C173 for `rgrid2rcm`: the value at a target depends on the coordinates of this target only. -/
theorem C173_targets_regular {a b : Option (NDArr ℝ)} {fi : NDArr V} {lat2d lon2d lat2d' lon2d' : NDArr ℝ} {msg : Option V}
    {out after out' after' : NDArr V} (h : rgrid2rcm a b fi lat2d lon2d msg = .ok (out, after))
    (h' : rgrid2rcm a b fi lat2d' lon2d' msg = .ok (out', after')) {g j i j' i' : ℕ} (hb : InB out.shape [g, j, i]) (hb' : InB out'.shape [g, j', i'])
    (hlat : lat2d.get [j, i] = lat2d'.get [j', i']) (hlon : lon2d.get [j, i] = lon2d'.get [j', i']) : out.get [g, j, i] = out'.get [g, j', i'] := by
  obtain ⟨lat1d, lon1d, ngrd, nyi, nxi, nyo, nxo, rfl, rfl, hs⟩ := rgrid2rcm_shapes h
  obtain ⟨lat1d', lon1d', ngrd', nyi', nxi', nyo', nxo', e1, e2, hs'⟩ := rgrid2rcm_shapes h'
  cases e1; cases e2
  obtain ⟨q1, hval⟩ := rgrid2rcm_at h hs
  obtain ⟨q2, hval'⟩ := rgrid2rcm_at h' hs'
  have e := hs.fi.symm.trans hs'.fi
  simp only [List.cons.injEq, and_true] at e
  obtain ⟨rfl, rfl, rfl⟩ := e
  rw [q1, inB3] at hb
  rw [q2, inB3] at hb'
  obtain ⟨f, hf, hout⟩ := hval j i hb.2.1 hb.2.2
  obtain ⟨f', hf', hout'⟩ := hval' j' i' hb'.2.1 hb'.2.2
  rw [hout g hb.1, hout' g hb.1, ← hlat, ← hlon]
  rw [← hlat, ← hlon] at hf'
  rw [hf.unique hf']

theorem regVal_congr {nx ny ngrd ngrd' : ℕ} {xi yi : ℕ → ℝ} {fa fb : ℕ → ℕ → ℕ → ℝ} {xmsg : ℝ} {ncrit : ℤ} {eps : ℝ} {f : Option (ℕ × ℕ)} {xo yo : ℝ}
    {n m : ℕ} (h : ∀ i j, fa i j n = fb i j m) :
    regVal ⟨nx, ny, ngrd, xi, yi, fa⟩ xmsg ncrit eps f xo yo n = regVal ⟨nx, ny, ngrd', xi, yi, fb⟩ xmsg ncrit eps f xo yo m := by
  have v : ∀ p old, regValue ⟨nx, ny, ngrd, xi, yi, fa⟩ xmsg ncrit xo yo p n old = regValue ⟨nx, ny, ngrd', xi, yi, fb⟩ xmsg ncrit xo yo p m old := by
    intro p old; simp only [regValue, h]
  have near : ∀ w, firstNear (Reg.src ⟨nx, ny, ngrd, xi, yi, fa⟩) eps xo yo w = firstNear (Reg.src ⟨nx, ny, ngrd', xi, yi, fb⟩) eps xo yo w := fun _ => rfl
  have hit : ∀ q, hitVal (Reg.src ⟨nx, ny, ngrd, xi, yi, fa⟩) xmsg q n = hitVal (Reg.src ⟨nx, ny, ngrd', xi, yi, fb⟩) xmsg q m := by
    intro q; cases q with
    | none => rfl
    | some q => exact h _ _
  have cell : ∀ c, regCellVal ⟨nx, ny, ngrd, xi, yi, fa⟩ xmsg ncrit xo yo c n = regCellVal ⟨nx, ny, ngrd', xi, yi, fb⟩ xmsg ncrit xo yo c m := by
    intro c; cases c with
    | none => rfl
    | some c => exact v _ _
  have full : regFullVal ⟨nx, ny, ngrd, xi, yi, fa⟩ xmsg ncrit eps xo yo n = regFullVal ⟨nx, ny, ngrd', xi, yi, fb⟩ xmsg ncrit eps xo yo m :=
    congrArg₂ (pick xmsg) (hit _) (cell _)
  cases f with
  | none => exact full
  | some a =>
    dsimp only [regVal]
    rw [v, full, hit, cell]
    rfl

/-- C174 for `rgrid2rcm`: every field of the result is the result for that field alone. -/
theorem C174_fields_regular {a b : Option (NDArr ℝ)} {fi : NDArr V} {lat2d lon2d : NDArr ℝ} {msg : Option V} {out after : NDArr V}
    (h : rgrid2rcm a b fi lat2d lon2d msg = .ok (out, after)) {g : ℕ} (hg : g < fi.shape.getD 0 0) :
    ∃ out' after', rgrid2rcm a b (Spec.slice fi g) lat2d lon2d msg = .ok (out', after') ∧
      ∀ j i, InB out.shape [g, j, i] → out'.get [0, j, i] = out.get [g, j, i] := by
  obtain ⟨lat1d, lon1d, ngrd, nyi, nxi, nyo, nxo, rfl, rfl, hs⟩ := rgrid2rcm_shapes h
  obtain ⟨hsh, hval⟩ := rgrid2rcm_at h hs
  have hs' : Spec.RegShapes lat1d lon1d (Spec.slice fi g) lat2d lon2d 1 nyi nxi nyo nxo :=
    ⟨hs.lat1d, hs.lon1d, by simp [Spec.slice, hs.fi], hs.lat2d, hs.lon2d, hs.nyi, hs.nxi, hs.nyo, hs.nxo⟩
  obtain ⟨out', e', hsh', hval'⟩ := rgrid2rcm_ok hs' msg
  refine ⟨out', _, e', fun j i hb => ?_⟩
  rw [hsh, inB3] at hb
  obtain ⟨f, hf, hout⟩ := hval j i hb.2.1 hb.2.2
  obtain ⟨f', hf', hout'⟩ := hval' j i hb.2.1 hb.2.2
  rw [hout g hb.1, hout' 0 (by norm_num)]
  have hf'' : RegFast (regOf (missing msg) lat1d lon1d fi nxi nyi ngrd) (lon2d.get [j, i]) (lat2d.get [j, i]) f' := by
    cases f' with
    | none => exact hf'
    | some a => exact hf'
  rw [hf.unique hf'']
  exact congrArg _ (regVal_congr fun i j => by simp [fieldsOf, Spec.slice])

/-- C176 for `rgrid2rcm`: it succeeds exactly on arrays of fitting shapes with at least two source and target points in each direction and a
three-dimensional field. -/
theorem C176_accepts_regular (a b : Option (NDArr ℝ)) (fi : NDArr V) (lat2d lon2d : NDArr ℝ) (msg : Option V) :
    (∃ r, rgrid2rcm a b fi lat2d lon2d msg = .ok r) ↔ ∃ lat1d lon1d ngrd nyi nxi nyo nxo, a = some lat1d ∧ b = some lon1d ∧
      Spec.RegShapes lat1d lon1d fi lat2d lon2d ngrd nyi nxi nyo nxo := by
  constructor
  · rintro ⟨r, h⟩; exact rgrid2rcm_shapes h
  · rintro ⟨lat1d, lon1d, ngrd, nyi, nxi, nyo, nxo, rfl, rfl, hs⟩
    obtain ⟨out, e, -⟩ := rgrid2rcm_ok hs msg
    exact ⟨_, e⟩

end Skyborn.Rcm
