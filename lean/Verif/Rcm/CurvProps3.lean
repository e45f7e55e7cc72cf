/-
The last properties of `rcm2rgrid`: the surrounding points (C168), inverse-distance means (C170), the caller's array (C171), independence of
the other targets (C173) and acceptance (C176).
-/
import Verif.Rcm.CurvProps2

namespace Skyborn.Rcm

open Classical

/-! ### Angles -/

theorem degree_90 : 90 * Spec.degree < Real.pi / 2 := by
  have := Real.pi_gt_d20
  rw [Spec.degree]; norm_num at this ⊢; linarith

/-- Points on different latitudes (between the poles) are apart. -/
theorem Spec.angle_pos {lat₁ lon₁ lat₂ lon₂ : ℝ} (h1 : |lat₁| ≤ 90) (h2 : |lat₂| ≤ 90) (h : lat₁ ≠ lat₂) : 0 < Spec.angle lat₁ lon₁ lat₂ lon₂ := by
  have hd : 0 < Spec.degree := by rw [Spec.degree]; norm_num
  have h90 := degree_90
  rw [abs_le] at h1 h2
  rw [Spec.angle, Real.arccos_pos]
  set a := lat₁ * Spec.degree
  set b := lat₂ * Spec.degree
  have ha : -(Real.pi / 2) < a ∧ a < Real.pi / 2 := by constructor <;> nlinarith
  have hb : -(Real.pi / 2) < b ∧ b < Real.pi / 2 := by constructor <;> nlinarith
  have hab : a - b ≠ 0 := by
    intro hc
    have : (lat₁ - lat₂) * Spec.degree = 0 := by rw [sub_mul]; exact hc
    rcases mul_eq_zero.mp this with h' | h'
    · exact h (by linarith)
    · exact hd.ne' h'
  have c1 := Real.cos_pos_of_mem_Ioo ⟨ha.1, ha.2⟩
  have c2 := Real.cos_pos_of_mem_Ioo ⟨hb.1, hb.2⟩
  have c3 := Real.cos_le_one (Spec.lonGap lon₁ lon₂ * Spec.degree)
  have c4 : Real.cos (a - b) < 1 := by
    refine lt_of_le_of_ne (Real.cos_le_one _) fun hc => hab ?_
    exact (Real.cos_eq_one_iff_of_lt_of_lt (by linarith [Real.pi_pos]) (by linarith [Real.pi_pos])).mp hc
  rw [Real.cos_sub] at c4
  have := mul_pos c1 c2
  nlinarith

/-! ### C168: the surrounding points -/

/-- C168 (what holds): an element depends only on the source values at coinciding points and at the corners of cells two rows and two columns
wide: two sources with the same coordinates that agree there give the same result. -/
theorem C168_corners_partial {lat2d lon2d : NDArr ℝ} {fi fi' : NDArr V} {lat1d lon1d : NDArr ℝ} {ngrd nyi nxi nyo nxo : ℕ} {msg : Option V}
    {out after out' after' : NDArr V} (hs : Spec.Shapes lat2d lon2d fi lat1d lon1d ngrd nyi nxi nyo nxo) (hs' : fi'.shape = fi.shape)
    (h : rcm2rgrid (some lat2d) (some lon2d) fi lat1d lon1d msg = .ok (out, after))
    (h' : rcm2rgrid (some lat2d) (some lon2d) fi' lat1d lon1d msg = .ok (out', after')) {g j : ℕ} (hg : g < ngrd) (hj : j < nyo)
    (hN : ∀ i jj ii, i < nxo → jj < nyi → ii < nxi → Spec.At lat2d lon2d (lat1d.get [j]) (lon1d.get [i]) jj ii →
      fi.get [g, jj, ii] = fi'.get [g, jj, ii])
    (hC : ∀ jj ii, jj + 2 < nyi → ii + 2 < nxi → fi.get [g, jj, ii] = fi'.get [g, jj, ii] ∧ fi.get [g, jj, ii + 2] = fi'.get [g, jj, ii + 2] ∧
      fi.get [g, jj + 2, ii] = fi'.get [g, jj + 2, ii] ∧ fi.get [g, jj + 2, ii + 2] = fi'.get [g, jj + 2, ii + 2]) {i : ℕ} (hi : i < nxo) :
    out.get [g, j, i] = out'.get [g, j, i] := by
  obtain ⟨out0, e, hsh, hval⟩ := rcm2rgrid_ok hs msg
  rw [h] at e
  simp only [Except.ok.injEq, Prod.mk.injEq] at e
  obtain ⟨rfl, -⟩ := e
  obtain ⟨out0, e, hsh', hval'⟩ := rcm2rgrid_ok (fi := fi') ⟨hs.lat2d, hs.lon2d, hs'.trans hs.fi, hs.lat1d, hs.lon1d, hs.nyi, hs.nxi, hs.nyo, hs.nxo⟩ msg
  rw [h'] at e
  simp only [Except.ok.injEq, Prod.mk.injEq] at e
  obtain ⟨rfl, -⟩ := e
  obtain ⟨row, hrow, hout⟩ := hval g j hg hj
  obtain ⟨row', hrow', hout'⟩ := hval' g j hg hj
  rw [hout i hi, hout' i hi]
  congr 1
  refine shortGaps_congr (fun n h1 h2 => ?_) (by omega) (by omega)
  obtain ⟨n, rfl⟩ : ∃ m, n = m + 1 := ⟨n - 1, by omega⟩
  rw [hrow n (by omega), hrow' n (by omega), rawAt, rawAt]
  refine rawVal_congr (S := srcOf (missing msg) lat2d lon2d fi nxi nyi ngrd) (T := srcOf (missing msg) lat2d lon2d fi' nxi nyi ngrd)
    rfl rfl rfl rfl (fun p hp hn => ?_) (fun p hp _ q hq => ?_)
  · rw [at_iff] at hn
    simp only [srcOf] at hp
    have := hN n (p.2 - 1) (p.1 - 1) (by omega) (by omega) (by omega) hn
    simp only [srcOf, fieldsOf, Nat.add_sub_cancel]
    rw [this]
  · simp only [srcOf] at hp
    obtain ⟨k1, k2, k3, k4⟩ := hC (p.2 - 1) (p.1 - 1) (by omega) (by omega)
    have e1 : p.1 + 2 - 1 = p.1 - 1 + 2 := by omega
    have e2 : p.2 + 2 - 1 = p.2 - 1 + 2 := by omega
    simp only [srcOf, fieldsOf, Nat.add_sub_cancel]
    simp only [cornersOf, List.mem_cons, List.not_mem_nil, or_false] at hq
    rcases hq with rfl | rfl | rfl | rfl <;> dsimp only
    · rw [k1]
    · rw [e1, k2]
    · rw [e2, k3]
    · rw [e1, e2, k4]

/-- The inverse-distance-squared mean of values at given angles. -/
noncomputable def Spec.idw (l : List (ℝ × ℝ)) : ℝ := (l.map fun q => q.1 / q.2 ^ 2).sum / (l.map fun q => 1 / q.2 ^ 2).sum

/-- The values at the given grid points that are not missing, with their angles to the target. -/
noncomputable def Spec.validAt (mp : V) (lat2d lon2d : NDArr ℝ) (fi : NDArr V) (g : ℕ) (lat lon : ℝ) (pts : List (ℕ × ℕ)) : List (ℝ × ℝ) :=
  pts.filterMap fun q => (Spec.datum mp fi g q.1 q.2).map fun v => (v, Spec.angle lat lon (lat2d.get [q.1, q.2]) (lon2d.get [q.1, q.2]))

/-- A 3 by 3 grid of unit cells, with a field that is one at the centre and zero elsewhere. -/
def unitLat : NDArr ℝ := ⟨[3, 3], fun ix => (ix.getD 0 0 : ℝ)⟩
@[inherit_doc unitLat] def unitLon : NDArr ℝ := ⟨[3, 3], fun ix => (ix.getD 1 0 : ℝ)⟩
noncomputable def centreFi : NDArr V := ⟨[1, 3, 3], fun ix => if ix = [0, 1, 1] then some 1 else some 0⟩
def zeroFi : NDArr V := ⟨[1, 3, 3], fun _ => some 0⟩
noncomputable def unitTarget : NDArr ℝ := ⟨[2], fun ix => (ix.getD 0 0 : ℝ) / 4 + 1 / 2⟩

/-- C168 fails: a target inside the unit cell of four valid grid points does not get the inverse-distance mean of these four points. (The
nearest grid point, which has the only value that is not zero, is not used at all.) -/
theorem C168_surround_false : ∃ (lat2d lon2d : NDArr ℝ) (fi : NDArr V) (lat1d lon1d : NDArr ℝ) (out after : NDArr V),
    Spec.Shapes lat2d lon2d fi lat1d lon1d 1 3 3 2 2 ∧ rcm2rgrid (some lat2d) (some lon2d) fi lat1d lon1d none = .ok (out, after) ∧
      (∀ jj ii, jj < 3 → ii < 3 → lat2d.get [jj, ii] = jj ∧ lon2d.get [jj, ii] = ii ∧ (Spec.datum none fi 0 jj ii).isSome) ∧
      (0 < lat1d.get [0] ∧ lat1d.get [0] < 1) ∧ (0 < lon1d.get [0] ∧ lon1d.get [0] < 1) ∧
      out.get [0, 0, 0] ≠ some (Spec.idw (Spec.validAt none lat2d lon2d fi 0 (lat1d.get [0]) (lon1d.get [0]) [(0, 0), (0, 1), (1, 0), (1, 1)])) := by
  have hs : Spec.Shapes unitLat unitLon centreFi unitTarget unitTarget 1 3 3 2 2 :=
    ⟨rfl, rfl, rfl, rfl, rfl, by norm_num, by norm_num, by norm_num, by norm_num⟩
  have hs' : Spec.Shapes unitLat unitLon zeroFi unitTarget unitTarget 1 3 3 2 2 :=
    ⟨rfl, rfl, rfl, rfl, rfl, by norm_num, by norm_num, by norm_num, by norm_num⟩
  obtain ⟨out, e, hsh, -⟩ := rcm2rgrid_ok hs none
  obtain ⟨out', e', hsh', -⟩ := rcm2rgrid_ok hs' none
  have t0 : unitTarget.get [0] = 1 / 2 := by simp [unitTarget]
  have hg2 := huge_gt
  have d1 : Spec.datum none centreFi 0 1 1 = some 1 := by
    have : centreFi.get [0, 1, 1] = some 1 := by simp [centreFi]
    rw [Spec.datum, this, if_neg]
    rintro (h | h)
    · cases h
    · have := Option.some.inj h; linarith
  have d0 : ∀ jj ii, ¬ (jj = 1 ∧ ii = 1) → Spec.datum none centreFi 0 jj ii = some 0 := by
    intro jj ii hne
    have : centreFi.get [0, jj, ii] = some 0 := by simp [centreFi]; intro h1 h2; exact absurd ⟨h1, h2⟩ hne
    rw [Spec.datum, this, if_neg]
    rintro (h | h)
    · cases h
    · have := Option.some.inj h; linarith
  refine ⟨unitLat, unitLon, centreFi, unitTarget, unitTarget, out, _, hs, e, ?_, ?_, ?_, ?_⟩
  · intro jj ii _ _
    refine ⟨rfl, rfl, ?_⟩
    by_cases hc : jj = 1 ∧ ii = 1
    · rw [hc.1, hc.2, d1]; rfl
    · rw [d0 jj ii hc]; rfl
  · rw [t0]; norm_num
  · rw [t0]; norm_num
  · have same : out.get [0, 0, 0] = out'.get [0, 0, 0] := by
      refine C168_corners_partial (fi' := zeroFi) hs rfl e e' (by norm_num) (by norm_num) ?_ ?_ (by norm_num)
      · intro i jj ii hi hjj hii hat
        by_cases hc : jj = 1 ∧ ii = 1
        · exfalso
          have := hat.1
          rw [t0, hc.1, hc.2] at this
          simp only [unitLat, List.getD_cons_zero] at this
          norm_num [abs_le] at this
        · simp [centreFi, zeroFi]; intro h1 h2; exact absurd ⟨h1, h2⟩ hc
      · intro jj ii h1 h2
        have : jj = 0 := by omega
        have : ii = 0 := by omega
        subst jj ii
        simp [centreFi, zeroFi]
    have hidw : 0 < Spec.idw (Spec.validAt none unitLat unitLon centreFi 0 (unitTarget.get [0]) (unitTarget.get [0]) [(0, 0), (0, 1), (1, 0), (1, 1)]) := by
      have ang : ∀ jj ii, jj < 2 → 0 < Spec.angle (unitTarget.get [0]) (unitTarget.get [0]) (unitLat.get [jj, ii]) (unitLon.get [jj, ii]) := by
        intro jj ii hjj
        refine Spec.angle_pos ?_ ?_ ?_
        · rw [t0]; norm_num [abs_le]
        · simp only [unitLat, List.getD_cons_zero]
          rw [abs_of_nonneg (by positivity)]
          have : (jj : ℝ) < 2 := by exact_mod_cast hjj
          linarith
        · rw [t0]; simp only [unitLat, List.getD_cons_zero]
          intro hc
          rcases Nat.lt_or_ge jj 1 with h | h
          · have : jj = 0 := by omega
            subst this; norm_num at hc
          · have : (1 : ℝ) ≤ jj := by exact_mod_cast h
            linarith
      simp only [Spec.idw, Spec.validAt, List.filterMap_cons, List.filterMap_nil, d1, d0 0 0 (by omega), d0 0 1 (by omega), d0 1 0 (by omega),
        Option.map_some, List.map_cons, List.map_nil, List.sum_cons, List.sum_nil]
      have a1 := ang 0 0 (by norm_num)
      have a2 := ang 0 1 (by norm_num)
      have a3 := ang 1 0 (by norm_num)
      have a4 := ang 1 1 (by norm_num)
      positivity
    rw [same]
    rcases C165_range e' (fun _ _ _ => rfl) (g := 0) (j := 0) (i := 0) (by rw [hsh', inB3]; norm_num) with c | ⟨v, c, jj, ii, jj', ii', lo, hi, -, -, -, l4, -, l6⟩
    · rw [c]; intro hc; cases hc
    · rw [c]
      intro hc
      have hv := Option.some.inj hc
      have : hi = 0 := by
        rw [Spec.datum] at l4
        have hz : zeroFi.get [0, jj', ii'] = some 0 := rfl
        rw [hz] at l4
        split at l4
        · cases l4
        · exact (Option.some.inj l4).symm
      rw [hv] at l6
      linarith

/-- C168: on a source only two columns (or rows) wide no target is interpolated: a row of the result whose targets coincide with no source
point is missing throughout. -/
theorem C168_narrow {lat2d lon2d : NDArr ℝ} {fi : NDArr V} {lat1d lon1d : NDArr ℝ} {ngrd nyi nxi nyo nxo : ℕ} {msg : Option V}
    {out after : NDArr V} (hs : Spec.Shapes lat2d lon2d fi lat1d lon1d ngrd nyi nxi nyo nxo)
    (h : rcm2rgrid (some lat2d) (some lon2d) fi lat1d lon1d msg = .ok (out, after)) (h2 : nxi = 2 ∨ nyi = 2) {g j : ℕ} (hg : g < ngrd)
    (hj : j < nyo) (hN : ∀ i jj ii, i < nxo → jj < nyi → ii < nxi → ¬ Spec.At lat2d lon2d (lat1d.get [j]) (lon1d.get [i]) jj ii) {i : ℕ}
    (hi : i < nxo) : out.get [g, j, i] = missing msg := by
  obtain ⟨out0, e, hsh, hval⟩ := rcm2rgrid_ok hs msg
  rw [h] at e
  simp only [Except.ok.injEq, Prod.mk.injEq] at e
  obtain ⟨rfl, -⟩ := e
  obtain ⟨row, hrow, hout⟩ := hval g j hg hj
  have all : ∀ n, 1 ≤ n → n ≤ nxo → row n = huge := by
    intro n h1 h3
    obtain ⟨n, rfl⟩ : ∃ m, n = m + 1 := ⟨n - 1, by omega⟩
    rw [hrow n (by omega)]
    have hp := rawVal_prov (srcOf (missing msg) lat2d lon2d fi nxi nyi ngrd) huge 2 1 0.0001
      (fastOf (srcOf (missing msg) lat2d lon2d fi nxi nyi ngrd) 2 nxo nyo (fun i => lon1d.get [i - 1]) (fun j => lat1d.get [j - 1]) (n + 1) (j + 1))
      (lon1d.get [n]) (lat1d.get [j]) (ng := g + 1) (by omega) (show g + 1 ≤ ngrd by omega)
    cases hp with
    | missing h => exact h
    | point p hp hn h =>
      rw [at_iff] at hn
      simp only [srcOf] at hp
      exact absurd hn (hN n (p.2 - 1) (p.1 - 1) (by omega) (by omega) (by omega))
    | cell p hp hc h => simp only [srcOf] at hp; omega
  rw [hout i hi, (C167_short_gaps row nxo huge).ends (i + 1) (by omega) (by omega) (Or.inl fun k h1 h3 => all k h1 (by omega)), decode, if_pos rfl]

/-! ### C170: inverse-distance means -/

/-- The target lies in the cell of width two with lower left corner `[jj, ii]`, as the kernel tests it. -/
def Spec.InWideCell (lat2d lon2d : NDArr ℝ) (lat lon : ℝ) (jj ii : ℕ) : Prop :=
  (lon2d.get [jj, ii] ≤ lon ∧ lon ≤ lon2d.get [jj, ii + 2]) ∧ (lat2d.get [jj, ii] ≤ lat ∧ lat ≤ lat2d.get [jj + 2, ii])

theorem inCell_iff {mp : V} {lat2d lon2d : NDArr ℝ} {fi : NDArr V} {nxi nyi ngrd : ℕ} {xo yo : ℝ} {jj ii : ℕ} :
    InCell (srcOf mp lat2d lon2d fi nxi nyi ngrd) 2 xo yo (ii + 1, jj + 1) ↔ Spec.InWideCell lat2d lon2d yo xo jj ii := by
  simp only [InCell, Spec.InWideCell, srcOf, Nat.add_sub_cancel, ge_iff_le]
  tauto

/-- The mean of the kernel is the inverse-distance mean in terms of angles. -/
theorem curvValue_idw {xmsg : ℝ} {l : List (ℝ × ℝ)} {d : ℝ} (hd : d ≠ 0) (hz : ∀ q ∈ l, q.1 ≠ xmsg → q.2 ≠ 0) (hne : ∃ q ∈ l, q.1 ≠ xmsg) :
    curvValue xmsg 1 (l.map fun q => (q.1, q.2 * d)) xmsg = Spec.idw (l.filter fun q => decide (q.1 ≠ xmsg)) := by
  rw [curvValue, if_neg (by simp)]
  have hno : atCorner xmsg (l.map fun q => (q.1, q.2 * d)) = none := by
    rw [atCorner, Option.map_eq_none_iff, List.find?_eq_none]
    intro q hq
    obtain ⟨r, hr, rfl⟩ := List.mem_map.mp hq
    simp only [decide_eq_true_eq, not_and]
    intro h1 h2
    exact hz r hr h2 ((mul_eq_zero.mp h1).resolve_right hd)
  rw [hno]
  dsimp only
  rw [sums_eq, List.map_map]
  have hfil : (l.map ((fun q : ℝ × ℝ => (q.1, weight q.2)) ∘ fun q => (q.1, q.2 * d))).filter (fun q => decide (q.1 ≠ xmsg)) =
      (l.filter fun q => decide (q.1 ≠ xmsg)).map fun q => (q.1, weight (q.2 * d)) := by
    rw [List.filter_map]; rfl
  rw [hfil]
  set L := l.filter fun q => decide (q.1 ≠ xmsg) with hL
  have hLz : ∀ q ∈ L, weight (q.2 * d) = 1 / q.2 ^ 2 * (1 / d ^ 2) := by
    intro q hq
    rw [hL, List.mem_filter] at hq
    have h0 := hz q hq.1 (by simpa using hq.2)
    rw [weight, if_neg (mul_ne_zero h0 hd)]
    field_simp
  have hLne : L ≠ [] := by
    obtain ⟨q, hq, hq'⟩ := hne
    intro hc
    have : q ∈ L := by rw [hL, List.mem_filter]; exact ⟨hq, by simpa using hq'⟩
    rw [hc] at this; simp at this
  simp only [List.length_map, List.map_map]
  have e1 : (L.map ((fun q : ℝ × ℝ => q.1 * q.2) ∘ fun q => (q.1, weight (q.2 * d)))).sum = (L.map fun q => q.1 / q.2 ^ 2).sum * (1 / d ^ 2) := by
    rw [← List.sum_map_mul_right]
    congr 1
    refine List.map_congr_left fun q hq => ?_
    simp only [Function.comp]
    rw [hLz q hq]; ring
  have e2 : (L.map ((fun q : ℝ × ℝ => q.2) ∘ fun q => (q.1, weight (q.2 * d)))).sum = (L.map fun q => 1 / q.2 ^ 2).sum * (1 / d ^ 2) := by
    rw [← List.sum_map_mul_right]
    congr 1
    refine List.map_congr_left fun q hq => ?_
    simp only [Function.comp]
    rw [hLz q hq]
  have hpos : 0 < (L.map ((fun q : ℝ × ℝ => q.2) ∘ fun q => (q.1, weight (q.2 * d)))).sum := by
    refine List.sum_pos _ (fun x hx => ?_) (by simpa using hLne)
    obtain ⟨q, _, rfl⟩ := List.mem_map.mp hx
    exact weight_pos _
  rw [if_pos ⟨by rcases List.exists_cons_of_ne_nil hLne with ⟨q, t, e⟩; rw [e]; simp, hpos⟩, e1, e2, Spec.idw]
  have hd2 : (1 : ℝ) / d ^ 2 ≠ 0 := by positivity
  rw [mul_div_mul_right _ _ hd2]

theorem validAt_eq {mp : V} {lat2d lon2d : NDArr ℝ} {fi : NDArr V} (hc : Spec.Clean mp fi) {g : ℕ} {lat lon : ℝ} {pts : List (ℕ × ℕ)}
    (hb : ∀ q ∈ pts, InB fi.shape [g, q.1, q.2]) :
    Spec.validAt mp lat2d lon2d fi g lat lon pts = (pts.map fun q => (fieldsOf mp fi (q.2 + 1) (q.1 + 1) (g + 1),
      Spec.angle lat lon (lat2d.get [q.1, q.2]) (lon2d.get [q.1, q.2]))).filter fun q => decide (q.1 ≠ huge) := by
  rw [Spec.validAt]
  induction pts with
  | nil => rfl
  | cons q pts ih =>
    have ih' := ih fun r hr => hb r (List.mem_cons_of_mem _ hr)
    have hq := fieldsOf_eq hc (hb q (List.mem_cons_self ..))
    rw [List.filterMap_cons, List.map_cons, ih']
    cases e : Spec.datum mp fi g q.1 q.2 with
    | none =>
      rw [e] at hq
      simp only [Option.map_none]
      rw [List.filter_cons_of_neg (by rw [hq]; simp)]
    | some v =>
      rw [e] at hq
      simp only [Option.map_some]
      rw [List.filter_cons_of_pos (by rw [hq]; simpa using datum_ne_huge e), hq]
      rfl

/-- C170: a target that coincides with no source point and lies in exactly one cell of width two gets the inverse-distance-squared mean (in the
great-circle angle) of the corners of this cell that are not missing, however many they are. -/
theorem C170_mean {lat2d lon2d : NDArr ℝ} {fi : NDArr V} {lat1d lon1d : NDArr ℝ} {ngrd nyi nxi nyo nxo : ℕ} {msg : Option V}
    {out after : NDArr V} (hs : Spec.Shapes lat2d lon2d fi lat1d lon1d ngrd nyi nxi nyo nxo)
    (h : rcm2rgrid (some lat2d) (some lon2d) fi lat1d lon1d msg = .ok (out, after)) (hc : Spec.Clean (missing msg) fi) {g j i jj ii : ℕ}
    (hg : g < ngrd) (hj : j < nyo) (hi : i < nxo) (hjj : jj + 2 < nyi) (hii : ii + 2 < nxi)
    (hN : ∀ jj' ii', jj' < nyi → ii' < nxi → ¬ Spec.At lat2d lon2d (lat1d.get [j]) (lon1d.get [i]) jj' ii')
    (hin : Spec.InWideCell lat2d lon2d (lat1d.get [j]) (lon1d.get [i]) jj ii)
    (huniq : ∀ jj' ii', jj' + 2 < nyi → ii' + 2 < nxi → Spec.InWideCell lat2d lon2d (lat1d.get [j]) (lon1d.get [i]) jj' ii' → jj' = jj ∧ ii' = ii)
    (hval : Spec.validAt (missing msg) lat2d lon2d fi g (lat1d.get [j]) (lon1d.get [i]) [(jj, ii), (jj, ii + 2), (jj + 2, ii), (jj + 2, ii + 2)] ≠ [])
    (hang : ∀ q ∈ Spec.validAt (missing msg) lat2d lon2d fi g (lat1d.get [j]) (lon1d.get [i]) [(jj, ii), (jj, ii + 2), (jj + 2, ii), (jj + 2, ii + 2)],
      q.1 < huge ∧ q.2 ≠ 0) :
    out.get [g, j, i] = some (Spec.idw (Spec.validAt (missing msg) lat2d lon2d fi g (lat1d.get [j]) (lon1d.get [i])
      [(jj, ii), (jj, ii + 2), (jj + 2, ii), (jj + 2, ii + 2)])) := by
  obtain ⟨out', e, hsh, hrows⟩ := rcm2rgrid_ok hs msg
  rw [h] at e
  simp only [Except.ok.injEq, Prod.mk.injEq] at e
  obtain ⟨rfl, -⟩ := e
  obtain ⟨row, hrow, hout⟩ := hrows g j hg hj
  set S := srcOf (missing msg) lat2d lon2d fi nxi nyi ngrd with hS
  set pts := [(jj, ii), (jj, ii + 2), (jj + 2, ii), (jj + 2, ii + 2)] with hpts
  set L := Spec.validAt (missing msg) lat2d lon2d fi g (lat1d.get [j]) (lon1d.get [i]) pts with hLdef
  have hbp : ∀ q ∈ pts, InB fi.shape [g, q.1, q.2] := by
    intro q hq
    rw [hs.fi, inB3]
    simp only [hpts, List.mem_cons, List.not_mem_nil, or_false] at hq
    rcases hq with rfl | rfl | rfl | rfl <;> (dsimp only; omega)
  have hLeq := validAt_eq (lat2d := lat2d) (lon2d := lon2d) (lat := lat1d.get [j]) (lon := lon1d.get [i]) hc hbp
  rw [← hLdef] at hLeq
  have hcell : curvValue huge 1 (cornerData S 2 (lon1d.get [i]) (lat1d.get [j]) (ii + 1, jj + 1) (g + 1)) huge = Spec.idw L := by
    have e1 : cornerData S 2 (lon1d.get [i]) (lat1d.get [j]) (ii + 1, jj + 1) (g + 1) =
        (pts.map fun q => (fieldsOf (missing msg) fi (q.2 + 1) (q.1 + 1) (g + 1),
          Spec.angle (lat1d.get [j]) (lon1d.get [i]) (lat2d.get [q.1, q.2]) (lon2d.get [q.1, q.2]))).map fun q => (q.1, q.2 * 57.29577995691645) := by
      simp only [cornerData, cornersOf, hpts, List.map_cons, List.map_nil, C175_great_circle]
      simp only [hS, srcOf, Nat.add_sub_cancel, show ii + 1 + 2 - 1 = ii + 2 by omega, show jj + 1 + 2 - 1 = jj + 2 by omega,
        show ii + 1 + 2 = ii + 2 + 1 by omega, show jj + 1 + 2 = jj + 2 + 1 by omega]
    rw [e1, curvValue_idw (by norm_num), ← hLeq]
    · intro q hq hq1
      exact (hang q (by rw [hLeq, List.mem_filter]; exact ⟨hq, by simpa using hq1⟩)).2
    · obtain ⟨q, t, eq⟩ := List.exists_cons_of_ne_nil hval
      have : q ∈ L := by rw [eq]; simp
      rw [hLeq, List.mem_filter] at this
      exact ⟨q, this.1, by simpa using this.2⟩
  have hlt : Spec.idw L < huge := by
    have hLw : ∀ q ∈ L.map fun q => (q.1, 1 / q.2 ^ 2), 0 ≤ q.2 := by
      intro q hq; obtain ⟨r, _, rfl⟩ := List.mem_map.mp hq; dsimp only; positivity
    have hpos : 0 < ((L.map fun q => (q.1, 1 / q.2 ^ 2)).map (·.2)).sum := by
      refine List.sum_pos _ (fun x hx => ?_) (by simpa using hval)
      rw [List.map_map] at hx
      obtain ⟨q, hq, rfl⟩ := List.mem_map.mp hx
      have := (hang q hq).2
      simp only [Function.comp]; positivity
    obtain ⟨a, -, b, hb, -, hle⟩ := mean_between hLw hpos
    obtain ⟨r, hr, rfl⟩ := List.mem_map.mp hb
    rw [List.map_map, List.map_map] at hle
    have e1 : Spec.idw L = (L.map ((fun q : ℝ × ℝ => q.1 * q.2) ∘ fun q => (q.1, 1 / q.2 ^ 2))).sum /
        (L.map ((fun q : ℝ × ℝ => q.2) ∘ fun q => (q.1, 1 / q.2 ^ 2))).sum := by
      rw [Spec.idw]
      congr 2
      refine List.map_congr_left fun q _ => ?_
      simp only [Function.comp]; ring
    rw [e1]
    exact hle.trans_lt (hang r hr).1
  have noNear : ∀ w : Win, (1 ≤ w.ixlo ∧ w.ixhi ≤ nxi) ∧ (1 ≤ w.iylo ∧ w.iyhi ≤ nyi) → firstNear S 0.0001 (lon1d.get [i]) (lat1d.get [j]) w = none := by
    intro w hw
    rw [firstNear, List.find?_eq_none]
    intro p hp hn
    rw [mem_box] at hp
    simp only [decide_eq_true_eq] at hn
    rw [hS, at_iff] at hn
    exact hN (p.2 - 1) (p.1 - 1) (by omega) (by omega) hn
  have only : ∀ p : ℕ × ℕ, (1 ≤ p.1 ∧ p.1 ≤ nxi - 2) ∧ (1 ≤ p.2 ∧ p.2 ≤ nyi - 2) → InCell S 2 (lon1d.get [i]) (lat1d.get [j]) p →
      p = (ii + 1, jj + 1) := by
    intro p hp hin'
    have ep : p = (p.1 - 1 + 1, p.2 - 1 + 1) := by ext <;> dsimp only <;> omega
    rw [ep, hS, inCell_iff] at hin'
    obtain ⟨k1, k2⟩ := huniq (p.2 - 1) (p.1 - 1) (by omega) (by omega) hin'
    ext <;> dsimp only <;> omega
  have hthis : InCell S 2 (lon1d.get [i]) (lat1d.get [j]) (ii + 1, jj + 1) := by rw [hS, inCell_iff]; exact hin
  have cellFullEq : firstCell S 2 (lon1d.get [i]) (lat1d.get [j]) (allCells S 2) = some (ii + 1, jj + 1) := by
    refine found_of_unique ?_ hthis fun q hq hn => only q ?_ hn
    · rw [mem_box]; simp only [allCells, hS, srcOf]; omega
    · rw [mem_box] at hq; simpa only [allCells, hS, srcOf] using hq
  have hfull : fullVal S huge 2 1 0.0001 (lon1d.get [i]) (lat1d.get [j]) (g + 1) = Spec.idw L := by
    rw [fullVal, noNear (allPoints S) ⟨⟨le_rfl, le_rfl⟩, le_rfl, le_rfl⟩, cellFullEq]
    simp only [hitVal, Option.elim_none, cellVal, Option.elim_some]
    rw [pick_miss, hcell]
  have hraw : rawAt (missing msg) lat2d lon2d fi lat1d lon1d ngrd nyi nxi nyo nxo g j i = Spec.idw L := by
    unfold rawAt rawVal
    split
    next => exact hfull
    next a ea =>
      obtain ⟨w1, w2⟩ := windows_ok S 2 a.1 a.2
      rw [← hS, localVal, noNear _ w1]
      cases ec : firstCell S 2 (lon1d.get [i]) (lat1d.get [j]) (windows S 2 a.1 a.2).2 with
      | none =>
        simp only [hitVal, Option.elim_none, Option.isSome_none, Bool.false_eq_true, if_false]
        rw [pick_miss, hfull]
      | some p =>
        obtain ⟨hb, hp⟩ := found ec
        rw [mem_box] at hb
        have : p = (ii + 1, jj + 1) := only p (by simp only [hS, srcOf] at hb w2; omega) hp
        subst this
        simp only [hitVal, Option.elim_none, Option.isSome_some, if_true, cellVal, Option.elim_some]
        rw [pick_miss, hcell]
  have hne : Spec.idw L ≠ huge := hlt.ne
  rw [hout i hi, (C167_short_gaps row nxo huge).valid (i + 1) (by omega) (by omega) (by rw [hrow i hi, hraw]; exact hne), hrow i hi, hraw, decode_ne hne]

/-! ### C171: the caller's array -/

/-- C171 fails for `rcm2rgrid`: the caller's array is changed whenever it holds a missing value that is NaN. -/
theorem C171_overwritten {a b : Option (NDArr ℝ)} {fi : NDArr V} {lat1d lon1d : NDArr ℝ} {msg : Option V} {out after : NDArr V}
    (h : rcm2rgrid a b fi lat1d lon1d msg = .ok (out, after)) :
    after.shape = fi.shape ∧ ∀ ix, after.get ix = if fi.get ix = missing msg then some huge else fi.get ix := by
  obtain ⟨lat2d, lon2d, ngrd, nyi, nxi, nyo, nxo, rfl, rfl, hs⟩ := rcm2rgrid_shapes h
  obtain ⟨out', e, -, -⟩ := rcm2rgrid_ok hs msg
  rw [h] at e
  simp only [Except.ok.injEq, Prod.mk.injEq] at e
  obtain ⟨-, rfl⟩ := e
  exact ⟨rfl, fun ix => rfl⟩

/-! ### C173: independence of the other targets -/

/-- C173: an element of a two-column target that is not missing has the same value on every other target with the same latitude and longitude, if
all target axes increase (as documented). (With two columns no row is filled.) -/
theorem C173_targets {lat2d lon2d : NDArr ℝ} {fi : NDArr V} {lat1d lon1d lat1d' lon1d' : NDArr ℝ} {ngrd nyi nxi nyo nyo' nxo' : ℕ} {msg : Option V}
    {out after out' after' : NDArr V} (hs : Spec.Shapes lat2d lon2d fi lat1d lon1d ngrd nyi nxi nyo 2)
    (hs' : Spec.Shapes lat2d lon2d fi lat1d' lon1d' ngrd nyi nxi nyo' nxo')
    (h : rcm2rgrid (some lat2d) (some lon2d) fi lat1d lon1d msg = .ok (out, after))
    (h' : rcm2rgrid (some lat2d) (some lon2d) fi lat1d' lon1d' msg = .ok (out', after'))
    (i1 : ∀ j, j + 1 < nyo → lat1d.get [j] < lat1d.get [j + 1]) (i2 : lon1d.get [0] < lon1d.get [1])
    (i3 : ∀ j, j + 1 < nyo' → lat1d'.get [j] < lat1d'.get [j + 1]) (i4 : ∀ i, i + 1 < nxo' → lon1d'.get [i] < lon1d'.get [i + 1])
    {g j i j' i' : ℕ} (hg : g < ngrd) (hj : j < nyo) (hi : i < 2) (hj' : j' < nyo') (hi' : i' < nxo') (hlat : lat1d.get [j] = lat1d'.get [j'])
    (hlon : lon1d.get [i] = lon1d'.get [i']) (hm : out.get [g, j, i] ≠ missing msg) : out'.get [g, j', i'] = out.get [g, j, i] := by
  obtain ⟨out0, e, -, hval⟩ := rcm2rgrid_ok hs msg
  rw [h] at e
  simp only [Except.ok.injEq, Prod.mk.injEq] at e
  obtain ⟨rfl, -⟩ := e
  obtain ⟨out0, e, -, hval'⟩ := rcm2rgrid_ok hs' msg
  rw [h'] at e
  simp only [Except.ok.injEq, Prod.mk.injEq] at e
  obtain ⟨rfl, -⟩ := e
  obtain ⟨row, hrow, hout⟩ := hval g j hg hj
  obtain ⟨row', hrow', hout'⟩ := hval' g j' hg hj'
  have key : rawAt (missing msg) lat2d lon2d fi lat1d lon1d ngrd nyi nxi nyo 2 g j i =
      rawAt (missing msg) lat2d lon2d fi lat1d' lon1d' ngrd nyi nxi nyo' nxo' g j' i' := by
    rw [rawAt, rawAt, hlat, hlon]
    congr 1
    have inc : ∀ (n : ℕ) (v : NDArr ℝ), (∀ i, i + 1 < n → v.get [i] < v.get [i + 1]) → Inc n fun i => v.get [i - 1] := by
      intro n v hv i h1 h2
      obtain ⟨i, rfl⟩ : ∃ m, i = m + 1 := ⟨i - 1, by omega⟩
      exact hv i (by omega)
    have a1 : Inc 2 fun i => lon1d.get [i - 1] := inc 2 lon1d fun i hi => by rw [show i = 0 by omega]; exact i2
    have a2 := inc nyo lat1d i1
    have a3 := inc nyo' lat1d' i3
    have a4 := inc nxo' lon1d' i4
    rw [fastOf, fastOf]
    by_cases hf : Fast (srcOf (missing msg) lat2d lon2d fi nxi nyi ngrd) 2 nyo (fun i => lon1d.get [i - 1]) fun j => lat1d.get [j - 1]
    · rw [if_pos hf, if_pos ⟨hf.1, a4, a3⟩]
      simp only [Nat.add_sub_cancel]
      rw [hlat, hlon]
    · rw [if_neg hf, if_neg fun hc => hf ⟨hc.1, a1, a2⟩]
  have e1 : out.get [g, j, i] = decode (missing msg) (row (i + 1)) := by rw [hout i hi, shortGaps_two]
  have hne : row (i + 1) ≠ huge := by intro hc; rw [e1, hc, decode, if_pos rfl] at hm; exact hm rfl
  rw [e1, hrow i hi]
  rw [hrow i hi] at hne
  rw [hout' i' hi', (C167_short_gaps row' nxo' huge).valid (i' + 1) (by omega) (by omega) (by rw [hrow' i' hi', ← key]; exact hne), hrow' i' hi', ← key]

/-! ### C176: acceptance -/

/-- C176: `rcm2rgrid` succeeds exactly on arrays of fitting shapes with at least two source and target points in each direction and a
three-dimensional field. -/
theorem C176_accepts (a b : Option (NDArr ℝ)) (fi : NDArr V) (lat1d lon1d : NDArr ℝ) (msg : Option V) :
    (∃ r, rcm2rgrid a b fi lat1d lon1d msg = .ok r) ↔ ∃ lat2d lon2d ngrd nyi nxi nyo nxo, a = some lat2d ∧ b = some lon2d ∧
      Spec.Shapes lat2d lon2d fi lat1d lon1d ngrd nyi nxi nyo nxo := by
  constructor
  · rintro ⟨r, h⟩; exact rcm2rgrid_shapes h
  · rintro ⟨lat2d, lon2d, ngrd, nyi, nxi, nyo, nxo, rfl, rfl, hs⟩
    obtain ⟨out, e, -⟩ := rcm2rgrid_ok hs msg
    exact ⟨_, e⟩

/-- C176: the documented "multi-dimensional" field fails: no field that is not three-dimensional is accepted, in particular no single
two-dimensional field. -/
theorem C176_dimensions_false (a b : Option (NDArr ℝ)) (fi : NDArr V) (lat1d lon1d : NDArr ℝ) (msg : Option V) (h : fi.shape.length ≠ 3) :
    ¬ ∃ r, rcm2rgrid a b fi lat1d lon1d msg = .ok r := by
  rw [C176_accepts]
  rintro ⟨lat2d, lon2d, ngrd, nyi, nxi, nyo, nxo, -, -, hs⟩
  rw [hs.fi] at h; exact h rfl

end Skyborn.Rcm
