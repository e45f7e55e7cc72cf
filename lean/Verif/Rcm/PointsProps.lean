/-
Properties of `rcm2points`: exactness (C164), range (C165), the caller's array (C171), the check of the latitudes that never refuses (C172),
independence of the other targets (C173) and of the other fields (C174), acceptance (C176).
-/
import Verif.Rcm.Points

namespace Skyborn.Rcm

open Classical

/-! ### Acceptance -/

theorem drcm2points_some {S : Src} {nxyo : ℕ} {yo xo : ℕ → ℝ} {xmsg : ℝ} {opt ncrit : ℤ} (h1 : 2 ≤ S.nx) (h2 : 2 ≤ S.ny) (h3 : 1 ≤ nxyo)
    (h : ∀ n, 1 ≤ n → n ≤ nxyo → ∀ p ng, ((1 ≤ p.1 ∧ p.1 + 1 ≤ S.nx) ∧ (1 ≤ p.2 ∧ p.2 + 1 ≤ S.ny)) → InCell S 1 (xo n) (yo n) p → 1 ≤ ng →
      ng ≤ S.ngrd → (cellValue S xmsg opt ncrit 1 (xo n) (yo n) p ng xmsg).isSome) :
    ∃ fo, drcm2points S nxyo yo xo xmsg opt ncrit 1 = some (.done fo) := by
  rw [drcm2points, if_neg (show ¬ (S.nx ≤ 1 ∨ S.ny ≤ 1 ∨ nxyo ≤ 0) by omega), pointsCheck_eq]
  simp only [bind, Option.bind_some, ne_eq, not_true_eq_false, if_false]
  rw [if_neg (show ¬ ((1 : ℤ) ≤ 0) by norm_num), show Int.toNat 1 = 1 from rfl]
  rw [if_pos]
  · split <;> exact ⟨_, rfl⟩
  · intro n n1 n2
    rw [pass12, (pointWindows_eq le_rfl _ _).1, pass1_eq]
    refine pass2_some (pointWindows_eq le_rfl _ _).2 fun p ng hp g1 g2 _ => ?_
    obtain ⟨q1, q2⟩ := pointCell_spec (pointWindows_eq le_rfl _ _).2 hp
    exact h n n1 n2 p ng q1 q2 g1 g2

/-- Two arrays of the right shapes: the call succeeds if the kernel does. -/
theorem rcm2points_ok {lat2d lon2d : NDArr ℝ} {fi : NDArr V} {lat1d lon1d : NDArr ℝ} {ngrd nyi nxi n : ℕ} (opt : ℤ) (msg : Option V)
    (hs : Spec.PointShapes lat2d lon2d fi lat1d lon1d ngrd nyi nxi n)
    (h : ∀ t, t < n → ∀ p ng, ((1 ≤ p.1 ∧ p.1 + 1 ≤ nxi) ∧ (1 ≤ p.2 ∧ p.2 + 1 ≤ nyi)) →
      InCell (srcOf (missing msg) lat2d lon2d fi nxi nyi ngrd) 1 (lon1d.get [t]) (lat1d.get [t]) p → 1 ≤ ng → ng ≤ ngrd →
      (cellValue (srcOf (missing msg) lat2d lon2d fi nxi nyi ngrd) huge opt 1 1 (lon1d.get [t]) (lat1d.get [t]) p ng huge).isSome) :
    ∃ r, rcm2points (some lat2d) (some lon2d) fi lat1d lon1d opt msg = .ok r := by
  obtain ⟨fo, e⟩ := drcm2points_some (S := srcOf (missing msg) lat2d lon2d fi nxi nyi ngrd) (nxyo := n) (yo := fun n => lat1d.get [n - 1])
    (xo := fun n => lon1d.get [n - 1]) (xmsg := huge) (opt := opt) (ncrit := 1) hs.nxi hs.nyi hs.n
    fun n n1 n2 p ng hp hin g1 g2 => h (n - 1) (by omega) p ng hp hin g1 g2
  rw [srcOf] at e
  have := hs.nyi
  have := hs.nxi
  rw [rcm2points]
  simp only [hs.lat2d, hs.lon2d, hs.fi, hs.lat1d, hs.lon1d]
  rw [if_neg (by simp), if_neg (by simp), if_neg (by simp; omega), if_neg (by simp), if_neg (by simp), e]
  exact ⟨_, rfl⟩

theorem cellValue_bilinear {S : Src} {xmsg : ℝ} {opt ncrit : ℤ} {k : ℕ} {xo yo : ℝ} {p : ℕ × ℕ} {ng : ℕ} {old : ℝ} (ho : |opt| = 2) :
    (cellValue S xmsg opt ncrit k xo yo p ng old).isSome := by
  rw [cellValue]
  split
  · rfl
  · split
    · rfl
    · rw [if_neg (by simp [ho])]
      dsimp only
      split <;> rfl

/-- C176 for `rcm2points` with bilinear weights (`opt` is 2 or -2): it succeeds exactly on arrays of fitting shapes with at least two source
rows and columns, at least one target and a three-dimensional field. -/
theorem C176_accepts_points (a b : Option (NDArr ℝ)) (fi : NDArr V) (lat1d lon1d : NDArr ℝ) (opt : ℤ) (ho : |opt| = 2) (msg : Option V) :
    (∃ r, rcm2points a b fi lat1d lon1d opt msg = .ok r) ↔ ∃ lat2d lon2d ngrd nyi nxi n, a = some lat2d ∧ b = some lon2d ∧
      Spec.PointShapes lat2d lon2d fi lat1d lon1d ngrd nyi nxi n := by
  constructor
  · rintro ⟨⟨out, after⟩, h⟩
    obtain ⟨lat2d, lon2d, ngrd, nyi, nxi, n, e1, e2, hs, -⟩ := rcm2points_at h
    exact ⟨lat2d, lon2d, ngrd, nyi, nxi, n, e1, e2, hs⟩
  · rintro ⟨lat2d, lon2d, ngrd, nyi, nxi, n, rfl, rfl, hs⟩
    exact rcm2points_ok opt msg hs fun _ _ _ _ _ _ _ _ => cellValue_bilinear ho

/-- C176 for `rcm2points` with inverse-distance weights: it succeeds on arrays of these shapes if no target is at angle zero from a source
point (then the kernel would divide by zero). -/
theorem C176_accepts_points_idw {lat2d lon2d : NDArr ℝ} {fi : NDArr V} {lat1d lon1d : NDArr ℝ} {ngrd nyi nxi n : ℕ} (opt : ℤ) (msg : Option V)
    (hs : Spec.PointShapes lat2d lon2d fi lat1d lon1d ngrd nyi nxi n)
    (hz : ∀ t jj ii, t < n → jj < nyi → ii < nxi → Spec.angle (lat1d.get [t]) (lon1d.get [t]) (lat2d.get [jj, ii]) (lon2d.get [jj, ii]) ≠ 0) :
    ∃ r, rcm2points (some lat2d) (some lon2d) fi lat1d lon1d opt msg = .ok r := by
  refine rcm2points_ok opt msg hs fun t ht p ng hp hin g1 g2 => ?_
  by_cases ho : |opt| = 2
  · exact cellValue_bilinear ho
  · rw [cellValue, if_neg (by simp), pointWeights, if_neg ho]
    dsimp only
    rw [if_neg]
    · split <;> rfl
    · rintro ⟨-, q, hq, -, hd⟩
      have hi := inside_cell hp q hq
      rw [dgcdist_eq_zero] at hd
      exact hz t (q.2 - 1) (q.1 - 1) ht (by omega) (by omega) hd

/-! ### C164 -/

/-- A source point has exactly the coordinates of the target. -/
def Spec.Coincides (lat2d lon2d : NDArr ℝ) (lat lon : ℝ) (jj ii : ℕ) : Prop := lat = lat2d.get [jj, ii] ∧ lon = lon2d.get [jj, ii]

theorem same_iff {mp : V} {lat2d lon2d : NDArr ℝ} {fi : NDArr V} {nxi nyi ngrd : ℕ} {xo yo : ℝ} {p : ℕ × ℕ} :
    Same (srcOf mp lat2d lon2d fi nxi nyi ngrd) xo yo p ↔ Spec.Coincides lat2d lon2d yo xo (p.2 - 1) (p.1 - 1) := by
  simp only [Same, Spec.Coincides, srcOf]; tauto

/-- C164 for `rcm2points`: a target with the coordinates of exactly one source point whose value is not missing gets that value, for every
interpolation method. -/
theorem C164_exact_points {lat2d lon2d : NDArr ℝ} {fi : NDArr V} {lat1d lon1d : NDArr ℝ} {opt : ℤ} {msg : Option V} {ngrd nyi nxi n : ℕ}
    {out after : NDArr V} (hs : Spec.PointShapes lat2d lon2d fi lat1d lon1d ngrd nyi nxi n)
    (h : rcm2points (some lat2d) (some lon2d) fi lat1d lon1d opt msg = .ok (out, after)) (hc : Spec.Clean (missing msg) fi) {g t jj ii : ℕ} {v : ℝ}
    (hg : g < ngrd) (ht : t < n) (hjj : jj < nyi) (hii : ii < nxi) (hat : Spec.Coincides lat2d lon2d (lat1d.get [t]) (lon1d.get [t]) jj ii)
    (huniq : ∀ jj' ii', jj' < nyi → ii' < nxi → Spec.Coincides lat2d lon2d (lat1d.get [t]) (lon1d.get [t]) jj' ii' → jj' = jj ∧ ii' = ii)
    (hv : Spec.datum (missing msg) fi g jj ii = some v) : out.get [g, t] = some v := by
  obtain ⟨lat2d', lon2d', ngrd', nyi', nxi', n', e1, e2, hs', -, hval, -, -⟩ := rcm2points_at h
  cases e1; cases e2
  have e := hs.fi.symm.trans hs'.fi
  simp only [List.cons.injEq, and_true] at e
  obtain ⟨rfl, rfl, rfl⟩ := e
  have e := hs.lat1d.symm.trans hs'.lat1d
  simp only [List.cons.injEq, and_true] at e
  subst e
  have hne := datum_ne_huge hv
  rw [hval g t hg ht]
  suffices hraw : pointAt (missing msg) lat2d lon2d fi opt ngrd nyi nxi (lat1d.get [t]) (lon1d.get [t]) g = v by rw [hraw, decode_ne hne]
  have hb : InB fi.shape [g, jj, ii] := by rw [hs.fi, inB3]; exact ⟨hg, hjj, hii⟩
  have hf : (srcOf (missing msg) lat2d lon2d fi nxi nyi ngrd).fi (ii + 1) (jj + 1) (g + 1) = v := by
    change fieldsOf (missing msg) fi (ii + 1) (jj + 1) (g + 1) = v
    rw [fieldsOf_eq hc hb, hv]; rfl
  have e : firstSame (srcOf (missing msg) lat2d lon2d fi nxi nyi ngrd) (lon1d.get [t]) (lat1d.get [t]) = some (ii + 1, jj + 1) := by
    refine found_of_unique ?_ (same_iff.mpr hat) fun q hq hn => ?_
    · rw [mem_box]; simp only [srcOf]; omega
    · rw [mem_box] at hq
      simp only [srcOf] at hq
      rw [same_iff] at hn
      obtain ⟨k1, k2⟩ := huniq (q.2 - 1) (q.1 - 1) (by omega) (by omega) hn
      ext <;> dsimp only <;> omega
  rw [pointAt, pointVal, pointVal12, e, hitVal, Option.elim_some, hf, pick_left hne, pick_left hne]

/-! ### C165 -/

/-- The value in a cell is missing or between two corners that are not. -/
theorem cellValue_between {S : Src} {xmsg : ℝ} {opt ncrit : ℤ} {xo yo : ℝ} {p : ℕ × ℕ} {ng : ℕ} (hc : InCell S 1 xo yo p) {v : ℝ}
    (h : cellValue S xmsg opt ncrit 1 xo yo p ng xmsg = some v) :
    v = xmsg ∨ ∃ a ∈ cornersOf 1 p, ∃ b ∈ cornersOf 1 p, (S.fi a.1 a.2 ng ≠ xmsg ∧ S.fi b.1 b.2 ng ≠ xmsg) ∧ S.fi a.1 a.2 ng ≤ v ∧ v ≤ S.fi b.1 b.2 ng := by
  rw [cellValue, if_neg (by simp)] at h
  split at h
  next => left; exact (Option.some.inj h).symm
  next w ew =>
    dsimp only at h
    split at h
    next => cases h
    next =>
      split at h
      next hs =>
        right
        have hv := Option.some.inj h
        subst hv
        have hw : ∀ x ∈ w, 0 ≤ x := by
          rw [pointWeights] at ew
          split at ew
          next =>
            dsimp only at ew
            split at ew
            next => cases ew
            next hd =>
              obtain ⟨c1, c2, c3, c4⟩ := hc
              push Not at hd
              have hx : 0 < S.xi (p.1 + 1) p.2 - S.xi p.1 p.2 := lt_of_le_of_ne (by linarith) (Ne.symm hd.1)
              have hy : 0 < S.yi p.1 (p.2 + 1) - S.yi p.1 p.2 := lt_of_le_of_ne (by linarith) (Ne.symm hd.2)
              have s0 : 0 ≤ (xo - S.xi p.1 p.2) / (S.xi (p.1 + 1) p.2 - S.xi p.1 p.2) := div_nonneg (by linarith) hx.le
              have s1 : (xo - S.xi p.1 p.2) / (S.xi (p.1 + 1) p.2 - S.xi p.1 p.2) ≤ 1 := by rw [div_le_one hx]; linarith
              have t0 : 0 ≤ (yo - S.yi p.1 p.2) / (S.yi p.1 (p.2 + 1) - S.yi p.1 p.2) := div_nonneg (by linarith) hy.le
              have t1 : (yo - S.yi p.1 p.2) / (S.yi p.1 (p.2 + 1) - S.yi p.1 p.2) ≤ 1 := by rw [div_le_one hy]; linarith
              have ew' := (Option.some.inj ew).symm
              subst ew'
              intro x hx'
              simp only [List.mem_cons, List.not_mem_nil, or_false] at hx'
              rcases hx' with rfl | rfl | rfl | rfl
              · exact mul_nonneg (by linarith) (by linarith)
              · exact mul_nonneg (by linarith) (by linarith)
              · exact mul_nonneg (by linarith) (by linarith)
              · exact mul_nonneg (by linarith) (by linarith)
          next =>
            have ew' := (Option.some.inj ew).symm
            subst ew'
            intro x hx
            obtain ⟨q, _, rfl⟩ := List.mem_map.mp hx
            positivity
        obtain ⟨a, ha, b, hb, ⟨v1, v2⟩, k1, k2⟩ := sums_between (xmsg := xmsg) (fun q hq => hw q.2 (List.of_mem_zip hq).2) hs.2
        obtain ⟨qa, hqa, ea⟩ := List.mem_map.mp (List.of_mem_zip ha).1
        obtain ⟨qb, hqb, eb⟩ := List.mem_map.mp (List.of_mem_zip hb).1
        exact ⟨qa, hqa, qb, hqb, ⟨ea ▸ v1, eb ▸ v2⟩, ea ▸ k1, eb ▸ k2⟩
      next => left; exact (Option.some.inj h).symm

theorem pick_cases {xmsg a b v : ℝ} (h : pick xmsg a b = v) (hv : v ≠ xmsg) : a = v ∨ (a = xmsg ∧ b = v) := by
  rw [pick] at h
  split at h
  next => exact Or.inl h
  next hn => exact Or.inr ⟨not_not.mp hn, h⟩

/-- The candidates of the fallback. -/
theorem mem_nearby {S : Src} {xo yo : ℝ} {c : (ℕ × ℕ) × ℝ} : c ∈ nearby S xo yo ↔ ((1 ≤ c.1.1 ∧ c.1.1 ≤ S.nx) ∧ (1 ≤ c.1.2 ∧ c.1.2 ≤ S.ny)) ∧
    (|S.yi c.1.1 c.1.2 - yo| ≤ 5 ∧ 0 < dgcdist yo xo (S.yi c.1.1 c.1.2) (S.xi c.1.1 c.1.2)) ∧
      c.2 = 1 / dgcdist yo xo (S.yi c.1.1 c.1.2) (S.xi c.1.1 c.1.2) ^ 2 := by
  rw [nearby, List.mem_filterMap]
  constructor
  · rintro ⟨p, hp, h⟩
    split at h
    next hc =>
      have := (Option.some.inj h).symm
      subst this
      obtain ⟨-, ⟨h1, h2⟩, -, h3⟩ := hc
      exact ⟨mem_box.mp hp, ⟨by rw [abs_le]; constructor <;> linarith, h3⟩, rfl⟩
    next => cases h
  · rintro ⟨hp, ⟨h1, h2⟩, h3⟩
    rw [abs_le] at h1
    refine ⟨c.1, mem_box.mpr hp, ?_⟩
    rw [if_pos]
    · rw [← h3]
    · have a1 := minval_le (f := fun i => S.yi i c.1.2) hp.1.1 hp.1.2
      have a2 := le_maxval (f := fun i => S.yi i c.1.2) hp.1.1 hp.1.2
      exact ⟨⟨by linarith, by linarith⟩, ⟨by linarith, by linarith⟩, dgcdist_le_dkm _ _ _ _, h2⟩

theorem fallMean_between {S : Src} {xmsg xo yo : ℝ} {ng : ℕ} : fallMean S xmsg xo yo ng = xmsg ∨
    ∃ a ∈ nearby S xo yo, ∃ b ∈ nearby S xo yo, (S.fi a.1.1 a.1.2 ng ≠ xmsg ∧ S.fi b.1.1 b.1.2 ng ≠ xmsg) ∧
      S.fi a.1.1 a.1.2 ng ≤ fallMean S xmsg xo yo ng ∧ fallMean S xmsg xo yo ng ≤ S.fi b.1.1 b.1.2 ng := by
  rw [fallMean]
  split
  next hs =>
    right
    obtain ⟨a, ha, b, hb, hv, k1, k2⟩ := sums_between (xmsg := xmsg) (fun q hq => by
      obtain ⟨c, hc, rfl⟩ := List.mem_map.mp hq
      rw [mem_nearby] at hc
      rw [hc.2.2]; positivity) hs
    obtain ⟨qa, hqa, rfl⟩ := List.mem_map.mp ha
    obtain ⟨qb, hqb, rfl⟩ := List.mem_map.mp hb
    exact ⟨qa, hqa, qb, hqb, hv, k1, k2⟩
  next => left; rfl

/-- C165 for `rcm2points`: every element of the result is the missing value or a number between two numbers of the same source field. -/
theorem C165_range_points {a b : Option (NDArr ℝ)} {fi : NDArr V} {lat1d lon1d : NDArr ℝ} {opt : ℤ} {msg : Option V} {out after : NDArr V}
    (h : rcm2points a b fi lat1d lon1d opt msg = .ok (out, after)) (hc : Spec.Clean (missing msg) fi) {g t : ℕ} (hb : InB out.shape [g, t]) :
    out.get [g, t] = missing msg ∨ ∃ v, out.get [g, t] = some v ∧ Spec.InRange (missing msg) fi g v := by
  obtain ⟨lat2d, lon2d, ngrd, nyi, nxi, n, rfl, rfl, hs, hsh, hval, hnum, -⟩ := rcm2points_at h
  rw [hsh, inB2] at hb
  rw [hval g t hb.1 hb.2]
  set v := pointAt (missing msg) lat2d lon2d fi opt ngrd nyi nxi (lat1d.get [t]) (lon1d.get [t]) g with hv
  by_cases hh : v = huge
  · left; rw [hh, decode, if_pos rfl]
  right
  refine ⟨v, decode_ne hh, ?_⟩
  have hn := hnum g t hb.1 hb.2
  rw [pointAt, pointVal, pointVal12] at hv
  rcases pick_cases hv.symm hh with c | ⟨-, c⟩
  · rcases pick_cases c hh with c | ⟨c0, c⟩
    · cases e : firstSame (srcOf (missing msg) lat2d lon2d fi nxi nyi ngrd) (lon1d.get [t]) (lat1d.get [t]) with
      | none => rw [e] at c; exact absurd c.symm hh
      | some p =>
        obtain ⟨h1, -⟩ := found e
        rw [e] at c
        change fieldsOf (missing msg) fi p.1 p.2 (g + 1) = v at c
        obtain ⟨k1, k2⟩ := point_range hs.fi hc hb.1 (mem_box.mp h1) (c.symm ▸ hh)
        exact ⟨_, _, _, _, _, _, k1, k1, k2, k2, c.le, c.ge⟩
    · cases e : pointCell (srcOf (missing msg) lat2d lon2d fi nxi nyi ngrd) 1 (winOf (srcOf (missing msg) lat2d lon2d fi nxi nyi ngrd) 1 (lon1d.get [t]) (lat1d.get [t])) (lon1d.get [t]) (lat1d.get [t]) with
      | none => rw [e] at c; exact absurd c.symm hh
      | some p =>
        obtain ⟨h1, h2⟩ := pointCell_spec (pointWindows_eq le_rfl _ _).2 e
        obtain ⟨w, ew⟩ := Option.isSome_iff_exists.mp (hn c0 p e)
        rw [e, cellMean, Option.elim_some, ew, Option.getD_some] at c
        subst c
        rcases cellValue_between h2 ew with c | ⟨q, hq, r, hr, ⟨q1, r1⟩, k1, k2⟩
        · exact absurd c hh
        · obtain ⟨a1, a2⟩ := point_range hs.fi hc hb.1 (inside_cell h1 q hq) q1
          obtain ⟨b1, b2⟩ := point_range hs.fi hc hb.1 (inside_cell h1 r hr) r1
          exact ⟨_, _, _, _, _, _, a1, b1, a2, b2, k1, k2⟩
  · rcases fallMean_between (S := srcOf (missing msg) lat2d lon2d fi nxi nyi ngrd) (xmsg := huge) (xo := lon1d.get [t]) (yo := lat1d.get [t]) (ng := g + 1) with e | ⟨q, hq, r, hr, ⟨q1, r1⟩, k1, k2⟩
    · exact absurd (c.symm.trans e) hh
    · rw [c] at k1 k2
      obtain ⟨a1, a2⟩ := point_range hs.fi hc hb.1 (mem_nearby.mp hq).1 q1
      obtain ⟨b1, b2⟩ := point_range hs.fi hc hb.1 (mem_nearby.mp hr).1 r1
      exact ⟨_, _, _, _, _, _, a1, b1, a2, b2, k1, k2⟩

theorem cellMean_some {S : Src} {xmsg : ℝ} {opt ncrit : ℤ} {xo yo : ℝ} {p : ℕ × ℕ} {ng : ℕ}
    (h : (cellValue S xmsg opt ncrit 1 xo yo p ng xmsg).isSome) :
    cellValue S xmsg opt ncrit 1 xo yo p ng xmsg = some (cellMean S xmsg opt ncrit 1 xo yo (some p) ng) := by
  obtain ⟨v, e⟩ := Option.isSome_iff_exists.mp h
  rw [cellMean, Option.elim_some, e]; rfl

end Skyborn.Rcm
