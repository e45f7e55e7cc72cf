/-
More properties of `rcm2points`: extrapolation (C166), bilinear interpolation (C169), inverse-distance means (C170), the caller's array (C171), the
check of the latitudes (C172), independence of the other targets (C173) and of the other fields (C174).
-/
import Verif.Rcm.PointsProps

namespace Skyborn.Rcm

open Classical

section
variable {lat2d lon2d : NDArr ℝ} {fi : NDArr V} {lat1d lon1d : NDArr ℝ} {opt : ℤ} {msg : Option V} {ngrd nyi nxi n : ℕ} {out after : NDArr V}

/-- A successful call in closed form, with the shapes given. -/
theorem rcm2points_form (hs : Spec.PointShapes lat2d lon2d fi lat1d lon1d ngrd nyi nxi n)
    (h : rcm2points (some lat2d) (some lon2d) fi lat1d lon1d opt msg = .ok (out, after)) :
    out.shape = [ngrd, n] ∧ (∀ g t, g < ngrd → t < n → out.get [g, t] = decode (missing msg)
        (pointAt (missing msg) lat2d lon2d fi opt ngrd nyi nxi (lat1d.get [t]) (lon1d.get [t]) g)) ∧
      ∀ g t, g < ngrd → t < n → PointNum (srcOf (missing msg) lat2d lon2d fi nxi nyi ngrd) huge opt 1 (lon1d.get [t]) (lat1d.get [t]) (g + 1) := by
  obtain ⟨lat2d', lon2d', ngrd', nyi', nxi', n', e1, e2, hs', hsh, hval, hnum, -⟩ := rcm2points_at h
  cases e1; cases e2
  have e := hs.fi.symm.trans hs'.fi
  simp only [List.cons.injEq, and_true] at e
  obtain ⟨rfl, rfl, rfl⟩ := e
  have e := hs.lat1d.symm.trans hs'.lat1d
  simp only [List.cons.injEq, and_true] at e
  subst e
  exact ⟨hsh, hval, hnum⟩

/-! ### C166 -/

/-- C166 for `rcm2points` (NaN as the missing value): a target gets a number, wherever it lies, as soon as some valid source point has a latitude
within five degrees of it (and is not at angle zero). -/
theorem C166_fallback_points (hs : Spec.PointShapes lat2d lon2d fi lat1d lon1d ngrd nyi nxi n)
    (h : rcm2points (some lat2d) (some lon2d) fi lat1d lon1d opt none = .ok (out, after)) {g t jj ii : ℕ} (hg : g < ngrd) (ht : t < n)
    (hfin : ∀ jj ii v, jj < nyi → ii < nxi → Spec.datum none fi g jj ii = some v → v < huge) (hjj : jj < nyi) (hii : ii < nxi)
    (hv : (Spec.datum none fi g jj ii).isSome) (hlat : |lat2d.get [jj, ii] - lat1d.get [t]| ≤ 5)
    (hang : Spec.angle (lat1d.get [t]) (lon1d.get [t]) (lat2d.get [jj, ii]) (lon2d.get [jj, ii]) ≠ 0) : out.get [g, t] ≠ none := by
  obtain ⟨-, hval, -⟩ := rcm2points_form hs h
  have hc : Spec.Clean none fi := fun _ _ _ => rfl
  rw [hval g t hg ht]
  change decode none _ ≠ none
  suffices hne : pointAt none lat2d lon2d fi opt ngrd nyi nxi (lat1d.get [t]) (lon1d.get [t]) g ≠ huge by
    have : missing none = none := rfl
    rw [this, decode_ne hne]; simp
  set S := srcOf none lat2d lon2d fi nxi nyi ngrd with hS
  have hb : InB fi.shape [g, jj, ii] := by rw [hs.fi, inB3]; exact ⟨hg, hjj, hii⟩
  obtain ⟨v, ev⟩ := Option.isSome_iff_exists.mp hv
  have hf : S.fi (ii + 1) (jj + 1) (g + 1) = v := by
    change fieldsOf none fi (ii + 1) (jj + 1) (g + 1) = v
    rw [fieldsOf_eq hc hb, ev]; rfl
  have hmem : ((ii + 1, jj + 1), 1 / dgcdist (lat1d.get [t]) (lon1d.get [t]) (S.yi (ii + 1) (jj + 1)) (S.xi (ii + 1) (jj + 1)) ^ 2) ∈
      nearby S (lon1d.get [t]) (lat1d.get [t]) := by
    rw [mem_nearby]
    refine ⟨?_, ⟨hlat, lt_of_le_of_ne (dgcdist_nonneg _ _ _ _) fun hz => hang ?_⟩, rfl⟩
    · simp only [hS, srcOf]; omega
    · exact (dgcdist_eq_zero _ _ _ _).mp hz.symm
  have hpos : 0 < (sums huge ((nearby S (lon1d.get [t]) (lat1d.get [t])).map fun c => (S.fi c.1.1 c.1.2 (g + 1), c.2))).2.2 := by
    rw [sums_eq]
    refine List.sum_pos _ (fun x hx => ?_) ?_
    · obtain ⟨q, hq, rfl⟩ := List.mem_map.mp hx
      obtain ⟨c, hcm, rfl⟩ := List.mem_map.mp (List.mem_of_mem_filter hq)
      rw [mem_nearby] at hcm
      have := hcm.2.1.2
      rw [hcm.2.2]; positivity
    · intro hnil
      rw [List.map_eq_nil_iff, List.filter_eq_nil_iff] at hnil
      refine hnil _ (List.mem_map_of_mem hmem) ?_
      simp only [decide_eq_true_eq, ne_eq]
      rw [hf]; exact datum_ne_huge ev
  intro hcon
  rw [pointAt, pointVal] at hcon
  have hfall : fallMean S huge (lon1d.get [t]) (lat1d.get [t]) (g + 1) = huge := by
    rw [pick] at hcon
    split at hcon
    next hn => exact absurd hcon hn
    next => exact hcon
  have hfd : fallMean S huge (lon1d.get [t]) (lat1d.get [t]) (g + 1) < huge := by
    rw [fallMean, if_pos hpos]
    obtain ⟨a, -, b, hb, ⟨-, v2⟩, -, k2⟩ := sums_between (xmsg := huge) (fun q hq => by
      obtain ⟨c, hc, rfl⟩ := List.mem_map.mp hq
      rw [mem_nearby] at hc
      rw [hc.2.2]; positivity) hpos
    obtain ⟨c, hcm, rfl⟩ := List.mem_map.mp hb
    obtain ⟨b1, b2⟩ := point_range hs.fi hc hg (mem_nearby.mp hcm).1 v2
    rw [hs.fi, inB3] at b1
    exact lt_of_le_of_lt k2 (hfin _ _ _ b1.2.1 b1.2.2 b2)
  exact hfd.ne hfall

/-! ### C169, C170 -/

/-- The target lies in the cell with lower left corner `[jj, ii]`, as the kernel tests it. -/
def Spec.InPointCell (lat2d lon2d : NDArr ℝ) (lat lon : ℝ) (jj ii : ℕ) : Prop :=
  (lon2d.get [jj, ii] ≤ lon ∧ lon ≤ lon2d.get [jj, ii + 1]) ∧ (lat2d.get [jj, ii] ≤ lat ∧ lat ≤ lat2d.get [jj + 1, ii])

/-- The target has the coordinates of no source point and lies in exactly one cell. -/
structure Spec.OneCell (lat2d lon2d : NDArr ℝ) (nyi nxi : ℕ) (lat lon : ℝ) (jj ii : ℕ) : Prop where
  row : jj + 1 < nyi
  col : ii + 1 < nxi
  apart : ∀ jj' ii', jj' < nyi → ii' < nxi → ¬ Spec.Coincides lat2d lon2d lat lon jj' ii'
  inside : Spec.InPointCell lat2d lon2d lat lon jj ii
  only : ∀ jj' ii', jj' + 1 < nyi → ii' + 1 < nxi → Spec.InPointCell lat2d lon2d lat lon jj' ii' → jj' = jj ∧ ii' = ii

theorem pointCell_iff {mp : V} {xo yo : ℝ} {jj ii : ℕ} :
    InCell (srcOf mp lat2d lon2d fi nxi nyi ngrd) 1 xo yo (ii + 1, jj + 1) ↔ Spec.InPointCell lat2d lon2d yo xo jj ii := by
  simp only [InCell, Spec.InPointCell, srcOf, Nat.add_sub_cancel, ge_iff_le]
  tauto

/-- The closed form in a cell. -/
theorem pointAt_cell {mp : V} {lat lon : ℝ} {jj ii g : ℕ} {v : ℝ} (h1 : Spec.OneCell lat2d lon2d nyi nxi lat lon jj ii) (hv : v ≠ huge)
    (e : cellValue (srcOf mp lat2d lon2d fi nxi nyi ngrd) huge opt 1 1 lon lat (ii + 1, jj + 1) (g + 1) huge = some v) :
    pointAt mp lat2d lon2d fi opt ngrd nyi nxi lat lon g = v := by
  set S := srcOf mp lat2d lon2d fi nxi nyi ngrd with hS
  have e1 : firstSame S lon lat = none := by
    rw [firstSame, List.find?_eq_none]
    intro p hp hn
    rw [mem_box] at hp
    simp only [decide_eq_true_eq] at hn
    rw [hS, same_iff] at hn
    simp only [hS, srcOf] at hp
    exact h1.apart (p.2 - 1) (p.1 - 1) (by omega) (by omega) hn
  have hr := h1.row
  have hl := h1.col
  have e2 : pointCell S 1 (winOf S 1 lon lat) lon lat = some (ii + 1, jj + 1) := by
    cases ec : pointCell S 1 (winOf S 1 lon lat) lon lat with
    | none =>
      refine absurd (show InCell S 1 lon lat (ii + 1, jj + 1) from ?_) (pointCell_none ec (p := (ii + 1, jj + 1)) ?_)
      · rw [hS, pointCell_iff]; exact h1.inside
      · simp only [hS, srcOf]; omega
    | some p =>
      obtain ⟨q1, q2⟩ := pointCell_spec (pointWindows_eq le_rfl _ _).2 ec
      have ep : p = (p.1 - 1 + 1, p.2 - 1 + 1) := by ext <;> dsimp only <;> omega
      rw [ep, hS, pointCell_iff] at q2
      simp only [hS, srcOf] at q1
      obtain ⟨k1, k2⟩ := h1.only (p.2 - 1) (p.1 - 1) (by omega) (by omega) q2
      congr 1
      ext <;> dsimp only <;> omega
  rw [pointAt, ← hS, pointVal, pointVal12, e1, e2, hitVal, Option.elim_none, pick_miss, cellMean, Option.elim_some, e, Option.getD_some, pick_left hv]

/-- C169 for `rcm2points` with `opt` 2 or -2: a target in exactly one cell, with the coordinates of no source point, gets the bilinear interpolation
of the four corners if none of them is missing (relative positions along the southern and the western side of the cell). -/
theorem C169_bilinear_points (hs : Spec.PointShapes lat2d lon2d fi lat1d lon1d ngrd nyi nxi n) (ho : |opt| = 2)
    (h : rcm2points (some lat2d) (some lon2d) fi lat1d lon1d opt msg = .ok (out, after)) (hc : Spec.Clean (missing msg) fi) {g t jj ii : ℕ}
    {f00 f01 f10 f11 : ℝ} (hg : g < ngrd) (ht : t < n) (hin : Spec.OneCell lat2d lon2d nyi nxi (lat1d.get [t]) (lon1d.get [t]) jj ii)
    (hside : lon2d.get [jj, ii] ≠ lon2d.get [jj, ii + 1] ∧ lat2d.get [jj, ii] ≠ lat2d.get [jj + 1, ii])
    (h00 : Spec.datum (missing msg) fi g jj ii = some f00) (h01 : Spec.datum (missing msg) fi g jj (ii + 1) = some f01)
    (h10 : Spec.datum (missing msg) fi g (jj + 1) ii = some f10) (h11 : Spec.datum (missing msg) fi g (jj + 1) (ii + 1) = some f11)
    (hfin : f00 < huge ∧ f01 < huge ∧ f10 < huge ∧ f11 < huge) :
    out.get [g, t] = some (Spec.bilinear f00 f01 f10 f11
      ((lon1d.get [t] - lon2d.get [jj, ii]) / (lon2d.get [jj, ii + 1] - lon2d.get [jj, ii]))
      ((lat1d.get [t] - lat2d.get [jj, ii]) / (lat2d.get [jj + 1, ii] - lat2d.get [jj, ii]))) := by
  obtain ⟨-, hval, -⟩ := rcm2points_form hs h
  have hr := hin.row
  have hl := hin.col
  have q00 := fieldsOf_eq (g := g) (j := jj) (i := ii) hc (by rw [hs.fi, inB3]; omega)
  have q01 := fieldsOf_eq (g := g) (j := jj) (i := ii + 1) hc (by rw [hs.fi, inB3]; omega)
  have q10 := fieldsOf_eq (g := g) (j := jj + 1) (i := ii) hc (by rw [hs.fi, inB3]; omega)
  have q11 := fieldsOf_eq (g := g) (j := jj + 1) (i := ii + 1) hc (by rw [hs.fi, inB3]; omega)
  rw [h00] at q00; rw [h01] at q01; rw [h10] at q10; rw [h11] at q11
  rw [Option.getD_some] at q00 q01 q10 q11
  obtain ⟨⟨i1, i2⟩, i3, i4⟩ := hin.inside
  have hx : 0 < lon2d.get [jj, ii + 1] - lon2d.get [jj, ii] := lt_of_le_of_ne (by linarith) fun hz => hside.1 (by linarith)
  have hy : 0 < lat2d.get [jj + 1, ii] - lat2d.get [jj, ii] := lt_of_le_of_ne (by linarith) fun hz => hside.2 (by linarith)
  have s0 : 0 ≤ (lon1d.get [t] - lon2d.get [jj, ii]) / (lon2d.get [jj, ii + 1] - lon2d.get [jj, ii]) := div_nonneg (by linarith) hx.le
  have s1 : (lon1d.get [t] - lon2d.get [jj, ii]) / (lon2d.get [jj, ii + 1] - lon2d.get [jj, ii]) ≤ 1 := by rw [div_le_one hx]; linarith
  have t0 : 0 ≤ (lat1d.get [t] - lat2d.get [jj, ii]) / (lat2d.get [jj + 1, ii] - lat2d.get [jj, ii]) := div_nonneg (by linarith) hy.le
  have t1 : (lat1d.get [t] - lat2d.get [jj, ii]) / (lat2d.get [jj + 1, ii] - lat2d.get [jj, ii]) ≤ 1 := by rw [div_le_one hy]; linarith
  have eV : cellValue (srcOf (missing msg) lat2d lon2d fi nxi nyi ngrd) huge opt 1 1 (lon1d.get [t]) (lat1d.get [t]) (ii + 1, jj + 1) (g + 1) huge =
      some (Spec.bilinear f00 f01 f10 f11 ((lon1d.get [t] - lon2d.get [jj, ii]) / (lon2d.get [jj, ii + 1] - lon2d.get [jj, ii]))
        ((lat1d.get [t] - lat2d.get [jj, ii]) / (lat2d.get [jj + 1, ii] - lat2d.get [jj, ii]))) := by
    rw [cellValue, if_neg (by simp), pointWeights, if_pos ho]
    simp only [srcOf, Nat.add_sub_cancel]
    rw [if_neg (by push Not; exact ⟨hx.ne', hy.ne'⟩)]
    dsimp only
    refine (if_neg (fun hh => hh.1 ho)).trans ?_
    generalize (lon1d.get [t] - lon2d.get [jj, ii]) / (lon2d.get [jj, ii + 1] - lon2d.get [jj, ii]) = s
    generalize (lat1d.get [t] - lat2d.get [jj, ii]) / (lat2d.get [jj + 1, ii] - lat2d.get [jj, ii]) = u
    simp only [cornersOf, List.map_cons, List.map_nil, q00, q01, q10, q11, List.zip_cons_cons, List.zip_nil_left]
    rw [sums_eq]
    have hfil : ([(f00, (1 - s) * (1 - u)), (f01, s * (1 - u)), (f10, (1 - s) * u), (f11, s * u)].filter fun q : ℝ × ℝ => decide (q.1 ≠ huge)) =
        [(f00, (1 - s) * (1 - u)), (f01, s * (1 - u)), (f10, (1 - s) * u), (f11, s * u)] := by
      rw [List.filter_eq_self]
      intro q hq
      simp only [List.mem_cons, List.not_mem_nil, or_false] at hq
      simp only [decide_eq_true_eq]
      rcases hq with rfl | rfl | rfl | rfl
      · exact hfin.1.ne
      · exact hfin.2.1.ne
      · exact hfin.2.2.1.ne
      · exact hfin.2.2.2.ne
    rw [hfil]
    simp only [List.length_cons, List.length_nil, List.map_cons, List.map_nil, List.sum_cons, List.sum_nil]
    have tot : (1 - s) * (1 - u) + (s * (1 - u) + ((1 - s) * u + (s * u + 0))) = 1 := by ring
    rw [tot, if_pos ⟨by norm_num, by norm_num⟩, div_one, Spec.bilinear]
    congr 1
    ring
  generalize (lon1d.get [t] - lon2d.get [jj, ii]) / (lon2d.get [jj, ii + 1] - lon2d.get [jj, ii]) = s at *
  generalize (lat1d.get [t] - lat2d.get [jj, ii]) / (lat2d.get [jj + 1, ii] - lat2d.get [jj, ii]) = u at *
  have hlt : Spec.bilinear f00 f01 f10 f11 s u ≠ huge := by
    intro c
    rw [Spec.bilinear] at c
    obtain ⟨k1, k2, k3, k4⟩ := hfin
    have w1 : 0 ≤ (1 - s) * (1 - u) := mul_nonneg (by linarith) (by linarith)
    have w2 : 0 ≤ s * (1 - u) := mul_nonneg s0 (by linarith)
    have w3 : 0 ≤ (1 - s) * u := mul_nonneg (by linarith) t0
    have w4 : 0 ≤ s * u := mul_nonneg s0 t0
    obtain ⟨m, hm, m1, m2, m3, m4⟩ : ∃ m, m < huge ∧ f00 ≤ m ∧ f01 ≤ m ∧ f10 ≤ m ∧ f11 ≤ m :=
      ⟨max (max f00 f01) (max f10 f11), by simp [k1, k2, k3, k4], by simp, by simp, by simp, by simp⟩
    have l1 := mul_le_mul_of_nonneg_left m1 w1
    have l2 := mul_le_mul_of_nonneg_left m2 w2
    have l3 := mul_le_mul_of_nonneg_left m3 w3
    have l4 := mul_le_mul_of_nonneg_left m4 w4
    have tot : (1 - s) * (1 - u) * m + s * (1 - u) * m + (1 - s) * u * m + s * u * m = m := by ring
    linarith
  rw [hval g t hg ht, pointAt_cell hin hlt eV, decode_ne hlt]

/-- C170 for `rcm2points` with any other `opt`: a target in exactly one cell, with the coordinates of no source point, gets the
inverse-distance-squared mean of the corners of the cell that are not missing. -/
theorem C170_mean_points (hs : Spec.PointShapes lat2d lon2d fi lat1d lon1d ngrd nyi nxi n) (ho : |opt| ≠ 2)
    (h : rcm2points (some lat2d) (some lon2d) fi lat1d lon1d opt msg = .ok (out, after)) (hc : Spec.Clean (missing msg) fi) {g t jj ii : ℕ}
    (hg : g < ngrd) (ht : t < n) (hin : Spec.OneCell lat2d lon2d nyi nxi (lat1d.get [t]) (lon1d.get [t]) jj ii)
    (hval : Spec.validAt (missing msg) lat2d lon2d fi g (lat1d.get [t]) (lon1d.get [t]) (Spec.corners jj ii) ≠ [])
    (hang : ∀ q ∈ Spec.validAt (missing msg) lat2d lon2d fi g (lat1d.get [t]) (lon1d.get [t]) (Spec.corners jj ii), q.1 < huge ∧ q.2 ≠ 0) :
    out.get [g, t] = some (Spec.idw (Spec.validAt (missing msg) lat2d lon2d fi g (lat1d.get [t]) (lon1d.get [t]) (Spec.corners jj ii))) := by
  obtain ⟨-, hv, -⟩ := rcm2points_form hs h
  have hr := hin.row
  have hl := hin.col
  have hbp : ∀ q ∈ Spec.corners jj ii, InB fi.shape [g, q.1, q.2] := by
    intro q hq
    rw [hs.fi, inB3]
    simp only [Spec.corners, List.mem_cons, List.not_mem_nil, or_false] at hq
    rcases hq with rfl | rfl | rfl | rfl <;> (dsimp only; omega)
  have hLeq := validAt_eq (lat2d := lat2d) (lon2d := lon2d) (lat := lat1d.get [t]) (lon := lon1d.get [t]) hc hbp
  set L := Spec.validAt (missing msg) lat2d lon2d fi g (lat1d.get [t]) (lon1d.get [t]) (Spec.corners jj ii) with hL
  have hlt := idw_lt hval hang
  set l := (Spec.corners jj ii).map fun q => (fieldsOf (missing msg) fi (q.2 + 1) (q.1 + 1) (g + 1),
    Spec.angle (lat1d.get [t]) (lon1d.get [t]) (lat2d.get [q.1, q.2]) (lon2d.get [q.1, q.2])) with hl'
  have hz : ∀ q ∈ l, q.1 ≠ huge → q.2 ≠ 0 := fun q hq hq1 => (hang q (by rw [hLeq, List.mem_filter]; exact ⟨hq, by simpa using hq1⟩)).2
  obtain ⟨m1, m2⟩ := mean_idw (xmsg := huge) (d := 57.29577995691645) (l := l) (by norm_num) hz (by
    obtain ⟨q, r, eq⟩ := List.exists_cons_of_ne_nil hval
    have : q ∈ L := by rw [eq]; simp
    rw [hLeq, List.mem_filter] at this
    exact ⟨q, this.1, by simpa using this.2⟩)
  rw [← hLeq] at m2
  have hsum : sums huge (l.map fun q => (q.1, (1 / (q.2 * 57.29577995691645)) ^ 2)) = sums huge (l.map fun q => (q.1, weight (q.2 * 57.29577995691645))) := by
    have hf : ∀ w : ℝ → ℝ, (l.map fun q => (q.1, w q.2)).filter (fun q => decide (q.1 ≠ huge)) = (l.filter fun q => decide (q.1 ≠ huge)).map fun q => (q.1, w q.2) := by
      intro w; rw [List.filter_map]; rfl
    have key : (l.map fun q => (q.1, (1 / (q.2 * 57.29577995691645)) ^ 2)).filter (fun q => decide (q.1 ≠ huge)) =
        (l.map fun q => (q.1, weight (q.2 * 57.29577995691645))).filter (fun q => decide (q.1 ≠ huge)) := by
      rw [hf fun x => (1 / (x * 57.29577995691645)) ^ 2, hf fun x => weight (x * 57.29577995691645)]
      refine List.map_congr_left fun q hq => ?_
      rw [List.mem_filter] at hq
      rw [weight, if_neg (mul_ne_zero (hz q hq.1 (by simpa using hq.2)) (by norm_num))]
    rw [sums_eq, sums_eq, key]
  have eV : cellValue (srcOf (missing msg) lat2d lon2d fi nxi nyi ngrd) huge opt 1 1 (lon1d.get [t]) (lat1d.get [t]) (ii + 1, jj + 1) (g + 1) huge = some (Spec.idw L) := by
    rw [cellValue, if_neg (by simp), pointWeights, if_neg ho]
    dsimp only
    have ez : ((cornersOf 1 (ii + 1, jj + 1)).map fun q => (srcOf (missing msg) lat2d lon2d fi nxi nyi ngrd).fi q.1 q.2 (g + 1)).zip
        ((cornersOf 1 (ii + 1, jj + 1)).map fun q => (1 / dgcdist (lat1d.get [t]) (lon1d.get [t])
          ((srcOf (missing msg) lat2d lon2d fi nxi nyi ngrd).yi q.1 q.2) ((srcOf (missing msg) lat2d lon2d fi nxi nyi ngrd).xi q.1 q.2)) ^ 2) =
        l.map fun q => (q.1, (1 / (q.2 * 57.29577995691645)) ^ 2) := by
      simp only [hl', Spec.corners, cornersOf, List.map_cons, List.map_nil, List.zip_cons_cons, List.zip_nil_left, C175_great_circle, srcOf,
        Nat.add_sub_cancel]
    rw [ez, hsum, if_neg]
    · rw [if_pos, m2]
      refine ⟨?_, m1⟩
      have : 0 < (sums huge (l.map fun q => (q.1, weight (q.2 * 57.29577995691645)))).1 := by
        rw [sums_eq]
        obtain ⟨q, r, eq⟩ := List.exists_cons_of_ne_nil hval
        have hq : q ∈ L := by rw [eq]; simp
        rw [hLeq, List.mem_filter] at hq
        exact List.length_pos_of_mem (List.mem_filter.mpr ⟨List.mem_map_of_mem hq.1, by simpa using hq.2⟩)
      omega
    · rintro ⟨-, q, hq, h1, h2⟩
      rw [dgcdist_eq_zero] at h2
      have hm : (fieldsOf (missing msg) fi q.1 q.2 (g + 1), Spec.angle (lat1d.get [t]) (lon1d.get [t]) (lat2d.get [q.2 - 1, q.1 - 1]) (lon2d.get [q.2 - 1, q.1 - 1])) ∈ l := by
        rw [hl', List.mem_map]
        refine ⟨(q.2 - 1, q.1 - 1), ?_, ?_⟩
        · simp only [cornersOf, List.mem_cons, List.not_mem_nil, or_false] at hq
          rcases hq with rfl | rfl | rfl | rfl <;> simp [Spec.corners]
        · have : 1 ≤ q.1 ∧ 1 ≤ q.2 := by
            simp only [cornersOf, List.mem_cons, List.not_mem_nil, or_false] at hq
            rcases hq with rfl | rfl | rfl | rfl <;> (dsimp only; omega)
          dsimp only
          rw [Nat.sub_add_cancel this.1, Nat.sub_add_cancel this.2]
      exact hz _ hm h1 h2
  rw [hv g t hg ht, pointAt_cell hin hlt.ne eV, decode_ne hlt.ne]

end

/-! ### C171, C172, C173, C174 -/

/-- C171 for `rcm2points`: the caller's elements are what they were before the call, unless they equal the largest float64. -/
theorem C171_restored_points {a b : Option (NDArr ℝ)} {fi : NDArr V} {lat1d lon1d : NDArr ℝ} {opt : ℤ} {msg : Option V} {out after : NDArr V}
    (h : rcm2points a b fi lat1d lon1d opt msg = .ok (out, after)) :
    after.shape = fi.shape ∧ ∀ ix, fi.get ix ≠ some huge → after.get ix = fi.get ix := by
  obtain ⟨lat2d, lon2d, ngrd, nyi, nxi, n, -, -, -, -, -, -, rfl⟩ := rcm2points_at h
  refine ⟨rfl, fun ix hx => ?_⟩
  dsimp only
  split
  next =>
    rw [encode]
    by_cases he : fi.get ix = missing msg
    · rw [if_pos he, if_pos rfl, he]
    · rw [if_neg he, if_neg hx]
  next => rfl

/-- C171 fails for the largest float64 itself: when the array also holds a missing value, such an element of the caller's array becomes missing. -/
theorem C171_largest_points {a b : Option (NDArr ℝ)} {fi : NDArr V} {lat1d lon1d : NDArr ℝ} {opt : ℤ} {msg : Option V} {out after : NDArr V}
    (h : rcm2points a b fi lat1d lon1d opt msg = .ok (out, after)) {jx : List ℕ} (hj : InB fi.shape jx) (hm : fi.get jx = missing msg) {ix : List ℕ}
    (hx : fi.get ix = some huge) : after.get ix = missing msg := by
  obtain ⟨lat2d, lon2d, ngrd, nyi, nxi, n, -, -, -, -, -, -, rfl⟩ := rcm2points_at h
  dsimp only
  rw [if_pos (Or.inl ⟨jx, hj, hm⟩), encode, hx]
  split <;> simp

/-- C172: the orientation of the source latitudes (or anything else about the coordinates) is never a reason to refuse: on arrays of fitting
shapes `rcm2points` never raises `RuntimeError`. -/
theorem C172_never_refused {lat2d lon2d : NDArr ℝ} {fi : NDArr V} {lat1d lon1d : NDArr ℝ} {opt : ℤ} {msg : Option V} {ngrd nyi nxi n : ℕ}
    (hs : Spec.PointShapes lat2d lon2d fi lat1d lon1d ngrd nyi nxi n) : rcm2points (some lat2d) (some lon2d) fi lat1d lon1d opt msg ≠ .error .runtime := by
  have h1 := hs.nyi
  have h2 := hs.nxi
  have h3 := hs.n
  rw [rcm2points]
  simp only [hs.lat2d, hs.lon2d, hs.fi, hs.lat1d, hs.lon1d]
  rw [if_neg (by simp), if_neg (by simp), if_neg (by simp; omega), if_neg (by simp), if_neg (by simp)]
  cases hk : drcm2points ⟨nxi, nyi, ngrd, fun i j => lon2d.get [j - 1, i - 1], fun i j => lat2d.get [j - 1, i - 1],
      fieldsOf (missing msg) fi⟩ n (fun n => lat1d.get [n - 1]) (fun n => lon1d.get [n - 1]) huge opt 1 1 with
  | none => simp
  | some r =>
    obtain ⟨fo, rfl, -⟩ := drcm2points_eq hk h2 h1 h3
    simp

/-- C173 for `rcm2points`: the value at a target depends on the coordinates of this target only. -/
theorem C173_targets_points {a b : Option (NDArr ℝ)} {fi : NDArr V} {lat1d lon1d lat1d' lon1d' : NDArr ℝ} {opt : ℤ} {msg : Option V}
    {out after out' after' : NDArr V} (h : rcm2points a b fi lat1d lon1d opt msg = .ok (out, after))
    (h' : rcm2points a b fi lat1d' lon1d' opt msg = .ok (out', after')) {g t t' : ℕ} (hb : InB out.shape [g, t]) (hb' : InB out'.shape [g, t'])
    (hlat : lat1d.get [t] = lat1d'.get [t']) (hlon : lon1d.get [t] = lon1d'.get [t']) : out.get [g, t] = out'.get [g, t'] := by
  obtain ⟨lat2d, lon2d, ngrd, nyi, nxi, n, rfl, rfl, hs, hsh, hval, -, -⟩ := rcm2points_at h
  obtain ⟨lat2d', lon2d', ngrd', nyi', nxi', n', e1, e2, hs', hsh', hval', -, -⟩ := rcm2points_at h'
  cases e1; cases e2
  have e := hs.fi.symm.trans hs'.fi
  simp only [List.cons.injEq, and_true] at e
  obtain ⟨rfl, rfl, rfl⟩ := e
  rw [hsh, inB2] at hb
  rw [hsh', inB2] at hb'
  rw [hval g t hb.1 hb.2, hval' g t' hb'.1 hb'.2, hlat, hlon]

theorem cellValue_congr {nx ny ngrd ngrd' : ℕ} {xi yi : ℕ → ℕ → ℝ} {fa fb : ℕ → ℕ → ℕ → ℝ} {xmsg : ℝ} {opt ncrit : ℤ} {xo yo : ℝ}
    {n m k : ℕ} (h : ∀ i j, fa i j n = fb i j m) (p : ℕ × ℕ) (old : ℝ) :
    cellValue ⟨nx, ny, ngrd, xi, yi, fa⟩ xmsg opt ncrit k xo yo p n old = cellValue ⟨nx, ny, ngrd', xi, yi, fb⟩ xmsg opt ncrit k xo yo p m old := by
  unfold cellValue pointWeights
  simp only [h]

theorem pointVal_congr {nx ny ngrd ngrd' : ℕ} {xi yi : ℕ → ℕ → ℝ} {fa fb : ℕ → ℕ → ℕ → ℝ} {xmsg : ℝ} {opt ncrit : ℤ} {xo yo : ℝ}
    {n m k : ℕ} (h : ∀ i j, fa i j n = fb i j m) :
    pointVal ⟨nx, ny, ngrd, xi, yi, fa⟩ xmsg opt ncrit k xo yo n = pointVal ⟨nx, ny, ngrd', xi, yi, fb⟩ xmsg opt ncrit k xo yo m := by
  have hit : ∀ q, hitVal ⟨nx, ny, ngrd, xi, yi, fa⟩ xmsg q n = hitVal ⟨nx, ny, ngrd', xi, yi, fb⟩ xmsg q m := by
    intro q; cases q with
    | none => rfl
    | some q => exact h _ _
  have cell : ∀ c, cellMean ⟨nx, ny, ngrd, xi, yi, fa⟩ xmsg opt ncrit k xo yo c n = cellMean ⟨nx, ny, ngrd', xi, yi, fb⟩ xmsg opt ncrit k xo yo c m := by
    intro c; cases c with
    | none => rfl
    | some c => simp only [cellMean, Option.elim_some]; rw [cellValue_congr h]
  have near : nearby ⟨nx, ny, ngrd, xi, yi, fa⟩ xo yo = nearby ⟨nx, ny, ngrd', xi, yi, fb⟩ xo yo := rfl
  have fall : fallMean ⟨nx, ny, ngrd, xi, yi, fa⟩ xmsg xo yo n = fallMean ⟨nx, ny, ngrd', xi, yi, fb⟩ xmsg xo yo m := by
    unfold fallMean; rw [near]; simp only [h]
  have w : winOf ⟨nx, ny, ngrd, xi, yi, fa⟩ k xo yo = winOf ⟨nx, ny, ngrd', xi, yi, fb⟩ k xo yo := rfl
  rw [pointVal, pointVal, pointVal12, pointVal12, fall, w]
  exact congrArg (fun z => pick xmsg z _) (congrArg₂ (pick xmsg) (hit _) (cell _))

/-- C174 for `rcm2points` with bilinear weights, and with others whenever both calls succeed: every field of the result is the result for that field
alone. -/
theorem C174_fields_points {a b : Option (NDArr ℝ)} {fi : NDArr V} {lat1d lon1d : NDArr ℝ} {opt : ℤ} {msg : Option V} {out after : NDArr V}
    (h : rcm2points a b fi lat1d lon1d opt msg = .ok (out, after)) {g : ℕ} (hg : g < fi.shape.getD 0 0) :
    (|opt| = 2 → ∃ r, rcm2points a b (Spec.slice fi g) lat1d lon1d opt msg = .ok r) ∧
    ∀ out' after', rcm2points a b (Spec.slice fi g) lat1d lon1d opt msg = .ok (out', after') → ∀ t, InB out.shape [g, t] → out'.get [0, t] = out.get [g, t] := by
  obtain ⟨lat2d, lon2d, ngrd, nyi, nxi, n, rfl, rfl, hs, hsh, hval, -, -⟩ := rcm2points_at h
  have hs' : Spec.PointShapes lat2d lon2d (Spec.slice fi g) lat1d lon1d 1 nyi nxi n :=
    ⟨hs.lat2d, hs.lon2d, by simp [Spec.slice, hs.fi], hs.lat1d, hs.lon1d, hs.nyi, hs.nxi, hs.n⟩
  refine ⟨fun ho => (C176_accepts_points _ _ _ _ _ _ ho _).mpr ⟨_, _, _, _, _, _, rfl, rfl, hs'⟩, fun out' after' h' t hb => ?_⟩
  obtain ⟨hsh', hval', -⟩ := rcm2points_form hs' h'
  rw [hsh, inB2] at hb
  rw [hval g t hb.1 hb.2, hval' 0 t (by norm_num) hb.2]
  exact congrArg _ (pointVal_congr fun i j => by simp [fieldsOf, Spec.slice])

end Skyborn.Rcm
