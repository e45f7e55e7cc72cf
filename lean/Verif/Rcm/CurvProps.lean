/-
Properties of `rcm2rgrid`: range (C165), no extrapolation (C166), exactness at coinciding points (C164), the surrounding points (C168),
inverse-distance means (C170), what happens to the caller's array (C171), independence of the other target points (C173) and of the other
fields (C174).
-/
import Verif.Rcm.Api

namespace Skyborn.Rcm

open Classical

/-! ### C165: range -/

/-- `v` lies between two numbers of field `g`. -/
def Spec.InRange (mp : V) (fi : NDArr V) (g : ℕ) (v : ℝ) : Prop :=
  ∃ j i j' i' lo hi, InB fi.shape [g, j, i] ∧ InB fi.shape [g, j', i'] ∧ Spec.datum mp fi g j i = some lo ∧ Spec.datum mp fi g j' i' = some hi ∧
    lo ≤ v ∧ v ≤ hi

section
variable {lat2d lon2d : NDArr ℝ} {fi : NDArr V} {lat1d lon1d : NDArr ℝ} {ngrd nyi nxi nyo nxo : ℕ}

theorem point_range {mp : V} (hfi : fi.shape = [ngrd, nyi, nxi]) (hc : Spec.Clean mp fi) {g : ℕ} (hg : g < ngrd) {p : ℕ × ℕ}
    (hp : (1 ≤ p.1 ∧ p.1 ≤ nxi) ∧ (1 ≤ p.2 ∧ p.2 ≤ nyi)) (hv : fieldsOf mp fi p.1 p.2 (g + 1) ≠ huge) :
    InB fi.shape [g, p.2 - 1, p.1 - 1] ∧ Spec.datum mp fi g (p.2 - 1) (p.1 - 1) = some (fieldsOf mp fi p.1 p.2 (g + 1)) := by
  have hb : InB fi.shape [g, p.2 - 1, p.1 - 1] := by rw [hfi, inB3]; omega
  refine ⟨hb, ?_⟩
  have e1 : p.1 = p.1 - 1 + 1 := by omega
  have e2 : p.2 = p.2 - 1 + 1 := by omega
  have := field_valid hc hb (by rw [← e1, ← e2]; exact hv)
  rw [← e1, ← e2] at this
  exact this

/-- A value of the kernel that is not missing is in the range of its field. -/
theorem prov_range {mp : V} (hfi : fi.shape = [ngrd, nyi, nxi]) (hc : Spec.Clean mp fi) {k nc g : ℕ} (hg : g < ngrd) {eps xo yo v : ℝ}
    (h : Prov (srcOf mp lat2d lon2d fi nxi nyi ngrd) huge k nc eps xo yo (g + 1) v) (hv : v ≠ huge) : Spec.InRange mp fi g v := by
  cases h with
  | missing h => exact absurd h hv
  | point p hp hn h =>
    change v = fieldsOf mp fi p.1 p.2 (g + 1) at h
    obtain ⟨h1, h2⟩ := point_range hfi hc hg hp (h ▸ hv)
    exact ⟨_, _, _, _, _, _, h1, h1, h2, h2, h.ge, h.le⟩
  | cell p hp hin h =>
    rcases curvValue_between (xmsg := huge) (ncrit := nc) (c := cornerData (srcOf mp lat2d lon2d fi nxi nyi ngrd) k xo yo p (g + 1)) with c | c
    · exact absurd (h.trans c) hv
    · rw [← h] at c
      obtain ⟨a, ha, b, hb, ⟨ha', hb'⟩, h1, h2⟩ := c
      rw [cornerData, List.mem_map] at ha hb
      obtain ⟨q, hq, rfl⟩ := ha
      obtain ⟨r, hr, rfl⟩ := hb
      obtain ⟨a1, a2⟩ := point_range hfi hc hg (inside_cell hp q hq) ha'
      obtain ⟨b1, b2⟩ := point_range hfi hc hg (inside_cell hp r hr) hb'
      exact ⟨_, _, _, _, _, _, a1, b1, a2, b2, h1, h2⟩

theorem rawAt_range {mp : V} (hs : Spec.Shapes lat2d lon2d fi lat1d lon1d ngrd nyi nxi nyo nxo) (hc : Spec.Clean mp fi) {g j i : ℕ} (hg : g < ngrd)
    (hv : rawAt mp lat2d lon2d fi lat1d lon1d ngrd nyi nxi nyo nxo g j i ≠ huge) :
    Spec.InRange mp fi g (rawAt mp lat2d lon2d fi lat1d lon1d ngrd nyi nxi nyo nxo g j i) :=
  prov_range (lat2d := lat2d) (lon2d := lon2d) hs.fi hc hg
    (rawVal_prov (srcOf mp lat2d lon2d fi nxi nyi ngrd) huge 2 1 0.0001 _ _ _ (by omega) (show g + 1 ≤ ngrd by omega)) hv

theorem inRange_mid {mp : V} {g : ℕ} {u w v : ℝ} (h1 : Spec.InRange mp fi g u) (h2 : Spec.InRange mp fi g w) (h3 : min u w ≤ v) (h4 : v ≤ max u w) :
    Spec.InRange mp fi g v := by
  obtain ⟨j, i, j', i', lo, hi, a1, a2, a3, a4, a5, a6⟩ := h1
  obtain ⟨k, l, k', l', lo', hi', b1, b2, b3, b4, b5, b6⟩ := h2
  rcases le_total u w with h | h
  · rw [min_eq_left h] at h3; rw [max_eq_right h] at h4
    exact ⟨j, i, k', l', lo, hi', a1, b2, a3, b4, by linarith, by linarith⟩
  · rw [min_eq_right h] at h3; rw [max_eq_left h] at h4
    exact ⟨k, l, j', i', lo', hi, b1, a2, b3, a4, by linarith, by linarith⟩

end

/-- C165: every element of the result of `rcm2rgrid` is the missing value or a number between two numbers of the same source field. -/
theorem C165_range {a b : Option (NDArr ℝ)} {fi : NDArr V} {lat1d lon1d : NDArr ℝ} {msg : Option V} {out after : NDArr V}
    (h : rcm2rgrid a b fi lat1d lon1d msg = .ok (out, after)) (hc : Spec.Clean (missing msg) fi) {g j i : ℕ} (hb : InB out.shape [g, j, i]) :
    out.get [g, j, i] = missing msg ∨ ∃ v, out.get [g, j, i] = some v ∧ Spec.InRange (missing msg) fi g v := by
  obtain ⟨lat2d, lon2d, ngrd, nyi, nxi, nyo, nxo, rfl, rfl, hs⟩ := rcm2rgrid_shapes h
  obtain ⟨out', e, hsh, hval⟩ := rcm2rgrid_ok hs msg
  rw [h] at e
  simp only [Except.ok.injEq, Prod.mk.injEq] at e
  obtain ⟨rfl, -⟩ := e
  rw [hsh, inB3] at hb
  obtain ⟨row, hrow, hout⟩ := hval g j hb.1 hb.2.1
  rw [hout i hb.2.2]
  by_cases hv : shortGaps row nxo huge (i + 1) = huge
  · left; rw [hv, decode, if_pos rfl]
  · right
    refine ⟨_, decode_ne hv, ?_⟩
    have raw : ∀ n, 1 ≤ n → n ≤ nxo → row n ≠ huge → Spec.InRange (missing msg) fi g (row n) := by
      intro n h1 h2 h3
      have e := hrow (n - 1) (by omega)
      rw [Nat.sub_add_cancel h1] at e
      rw [e] at h3 ⊢
      exact rawAt_range hs hc hb.1 h3
    rcases shortGaps_cases row nxo huge (i + 1) (by omega) (by omega) with c | ⟨c1, c2⟩ | ⟨p, q, c1, c2, c3, c4, c5⟩
    · exact absurd c hv
    · rw [c2]; exact raw (i + 1) (by omega) (by omega) c1
    · exact inRange_mid (raw p (by omega) (by omega) c2) (raw q (by omega) (by omega) c3) c4 c5

/-! ### C166: no extrapolation -/

/-- The target lies within `eps` of the latitude-longitude box spanned by the source points. -/
def Spec.InBox (lat2d lon2d : NDArr ℝ) (eps lat lon : ℝ) : Prop :=
  (∃ p q, InB lat2d.shape p ∧ InB lat2d.shape q ∧ lat2d.get p - eps ≤ lat ∧ lat ≤ lat2d.get q + eps) ∧
    ∃ p q, InB lon2d.shape p ∧ InB lon2d.shape q ∧ lon2d.get p - eps ≤ lon ∧ lon ≤ lon2d.get q + eps

theorem inB2 {a b j i : ℕ} : InB [a, b] [j, i] ↔ j < a ∧ i < b := by simp [InB]

theorem prov_box {mp : V} {lat2d lon2d : NDArr ℝ} {fi : NDArr V} {ngrd nyi nxi : ℕ} (h1 : lat2d.shape = [nyi, nxi])
    (h2 : lon2d.shape = [nyi, nxi]) {k nc ng : ℕ} {eps xo yo v : ℝ} (he : 0 ≤ eps)
    (h : Prov (srcOf mp lat2d lon2d fi nxi nyi ngrd) huge k nc eps xo yo ng v) (hv : v ≠ huge) : Spec.InBox lat2d lon2d eps yo xo := by
  cases h with
  | missing h => exact absurd h hv
  | point p hp hn h =>
    obtain ⟨n1, n2, n3, n4⟩ := hn
    have hb : InB [nyi, nxi] [p.2 - 1, p.1 - 1] := by
      rw [inB2]; simp only [srcOf] at hp; omega
    exact ⟨⟨[p.2 - 1, p.1 - 1], [p.2 - 1, p.1 - 1], h1 ▸ hb, h1 ▸ hb, n3, n4⟩, ⟨[p.2 - 1, p.1 - 1], [p.2 - 1, p.1 - 1], h2 ▸ hb, h2 ▸ hb, n1, n2⟩⟩
  | cell p hp hin h =>
    obtain ⟨n1, n2, n3, n4⟩ := hin
    simp only [srcOf] at hp n1 n2 n3 n4
    have b1 : InB [nyi, nxi] [p.2 - 1, p.1 - 1] := by rw [inB2]; omega
    have b2 : InB [nyi, nxi] [p.2 - 1, p.1 + k - 1] := by rw [inB2]; omega
    have b3 : InB [nyi, nxi] [p.2 + k - 1, p.1 - 1] := by rw [inB2]; omega
    exact ⟨⟨_, _, h1 ▸ b1, h1 ▸ b3, by linarith, by linarith⟩, ⟨_, _, h2 ▸ b1, h2 ▸ b2, by linarith, by linarith⟩⟩

/-- C166: with increasing target longitudes (as documented), an element that is not missing lies inside the latitude-longitude box of the
source points, up to 0.0001 degrees. -/
theorem C166_no_extrapolation {lat2d lon2d : NDArr ℝ} {fi : NDArr V} {lat1d lon1d : NDArr ℝ} {msg : Option V} {out after : NDArr V}
    (h : rcm2rgrid (some lat2d) (some lon2d) fi lat1d lon1d msg = .ok (out, after))
    (hinc : ∀ i i', i < i' → InB lon1d.shape [i'] → lon1d.get [i] < lon1d.get [i']) {g j i : ℕ} (hb : InB out.shape [g, j, i])
    (hm : out.get [g, j, i] ≠ missing msg) : Spec.InBox lat2d lon2d 0.0001 (lat1d.get [j]) (lon1d.get [i]) := by
  obtain ⟨lat2d', lon2d', ngrd, nyi, nxi, nyo, nxo, e1, e2, hs⟩ := rcm2rgrid_shapes h
  cases e1; cases e2
  obtain ⟨out', e, hsh, hval⟩ := rcm2rgrid_ok hs msg
  rw [h] at e
  simp only [Except.ok.injEq, Prod.mk.injEq] at e
  obtain ⟨rfl, -⟩ := e
  rw [hsh, inB3] at hb
  obtain ⟨row, hrow, hout⟩ := hval g j hb.1 hb.2.1
  rw [hout i hb.2.2] at hm
  have hv : shortGaps row nxo huge (i + 1) ≠ huge := by
    intro hv; rw [hv, decode, if_pos rfl] at hm; exact hm rfl
  have raw : ∀ n, n < nxo → row (n + 1) ≠ huge → Spec.InBox lat2d lon2d 0.0001 (lat1d.get [j]) (lon1d.get [n]) := by
    intro n h2 h3
    rw [hrow n h2] at h3
    exact prov_box (fi := fi) (ngrd := ngrd) hs.lat2d hs.lon2d (by norm_num)
      (rawVal_prov (srcOf (missing msg) lat2d lon2d fi nxi nyi ngrd) huge 2 1 0.0001 _ _ _ (ng := g + 1) (by omega) (show g + 1 ≤ ngrd by omega)) h3
  rcases shortGaps_cases row nxo huge (i + 1) (by omega) (by omega) with c | ⟨c1, c2⟩ | ⟨p, q, c1, c2, c3, c4, c5⟩
  · exact absurd c hv
  · exact raw i hb.2.2 c1
  · have hp := raw (p - 1) (by omega) (by rw [Nat.sub_add_cancel (by omega)]; exact c2)
    have hq := raw (q - 1) (by omega) (by rw [Nat.sub_add_cancel (by omega)]; exact c3)
    have k1 := hinc (p - 1) i (by omega) (by rw [hs.lon1d]; simp [InB]; omega)
    have k2 := hinc i (q - 1) (by omega) (by rw [hs.lon1d]; simp [InB]; omega)
    obtain ⟨r1, ⟨u, u', hu, hu', u1, u2⟩⟩ := hp
    obtain ⟨-, ⟨w, w', hw, hw', w1, w2⟩⟩ := hq
    exact ⟨r1, ⟨u, w', hu, hw', by linarith, by linarith⟩⟩

/-! ### C164: exactness -/

/-- A grid point of the source coincides with the target (within the kernel's 0.0001 degrees). -/
def Spec.At (lat2d lon2d : NDArr ℝ) (lat lon : ℝ) (jj ii : ℕ) : Prop :=
  |lat - lat2d.get [jj, ii]| ≤ 0.0001 ∧ |lon - lon2d.get [jj, ii]| ≤ 0.0001

theorem at_iff {mp : V} {lat2d lon2d : NDArr ℝ} {fi : NDArr V} {nxi nyi ngrd : ℕ} {xo yo : ℝ} {p : ℕ × ℕ} :
    Near (srcOf mp lat2d lon2d fi nxi nyi ngrd) xo yo 0.0001 p ↔ Spec.At lat2d lon2d yo xo (p.2 - 1) (p.1 - 1) := by
  rw [Near, Spec.At, abs_le, abs_le]
  simp only [srcOf]
  constructor
  · rintro ⟨h1, h2, h3, h4⟩; exact ⟨⟨by linarith, by linarith⟩, by linarith, by linarith⟩
  · rintro ⟨⟨h1, h2⟩, h3, h4⟩; exact ⟨by linarith, by linarith, by linarith, by linarith⟩

/-- The column of the source point is at most three columns from where the first row has the target's longitude, and its row at most
three rows from where the first column has the target's latitude. -/
structure Spec.SmallDrift (lat2d lon2d : NDArr ℝ) (nyi nxi : ℕ) (lat lon : ℝ) (jj ii : ℕ) : Prop where
  west : 3 ≤ ii → lon2d.get [0, ii - 3] ≤ lon
  east : ii + 3 < nxi → lon ≤ lon2d.get [0, ii + 3]
  south : 3 ≤ jj → lat2d.get [jj - 3, 0] ≤ lat
  north : jj + 3 < nyi → lat ≤ lat2d.get [jj + 3, 0]

/-- The exact window holds every index within three of the bracket. -/
theorem window_holds {n : ℕ} {x : ℕ → ℝ} {v : ℝ} {p : ℕ} (hx : Inc n x) (hn : 2 ≤ n) (h1 : 1 ≤ p) (h2 : p ≤ n) (hw : 4 ≤ p → x (p - 3) ≤ v)
    (he : p + 3 ≤ n → v ≤ x (p + 3)) : ∃ a, earliest n x v 2 = some a ∧ max 1 (a - 2) ≤ p ∧ p ≤ min n (a + 2 * 2) := by
  by_cases h2n : n ≤ 2
  · exact ⟨1, by rw [earliest, if_pos h2n], by omega, by omega⟩
  · obtain ⟨c, -, hc⟩ := lowerBracket_eq hn x v
    refine ⟨_, earliest_eq (by omega) (by omega) hx hc, ?_⟩
    have hcb := hc.1
    have lower : p ≤ c + 3 := by
      by_contra hcon
      have hv := hw (by omega)
      by_cases g1 : v ≤ x 1
      · have := hc.2.1 g1
        have := hx.lt (i := 1) (j := p - 3) le_rfl (by omega) (by omega)
        linarith
      · by_cases g2 : x n ≤ v
        · have := hc.2.2.1 g2 (not_le.mp g1); omega
        · have g3 := hc.2.2.2 (not_le.mp g1) (not_le.mp g2)
          have := hx.le (i := c + 1) (j := p - 3) (by omega) (by omega) (by omega)
          linarith [g3.2]
    have upper : c ≤ p + 3 := by
      by_contra hcon
      have hv := he (by omega)
      by_cases g1 : v ≤ x 1
      · have := hc.2.1 g1; omega
      · by_cases g2 : x n ≤ v
        · have := hx.lt (i := p + 3) (j := n) (by omega) (by omega) le_rfl
          linarith
        · have g3 := hc.2.2.2 (not_le.mp g1) (not_le.mp g2)
          have := hx.lt (i := p + 3) (j := c) (by omega) (by omega) (by omega)
          linarith [g3.1]
    rw [anchorOf]
    omega

/-- C164 (the part that holds): a target that coincides with exactly one source point whose value is not missing gets that value, if the
kernel does not take its fast path (some axis does not increase) or the source point has drifted by at most three rows and columns. -/
theorem C164_exact_partial {lat2d lon2d : NDArr ℝ} {fi : NDArr V} {lat1d lon1d : NDArr ℝ} {ngrd nyi nxi nyo nxo : ℕ} {msg : Option V}
    {out after : NDArr V} (hs : Spec.Shapes lat2d lon2d fi lat1d lon1d ngrd nyi nxi nyo nxo)
    (h : rcm2rgrid (some lat2d) (some lon2d) fi lat1d lon1d msg = .ok (out, after)) (hc : Spec.Clean (missing msg) fi) {g j i jj ii : ℕ} {v : ℝ}
    (hg : g < ngrd) (hj : j < nyo) (hi : i < nxo) (hjj : jj < nyi) (hii : ii < nxi) (hat : Spec.At lat2d lon2d (lat1d.get [j]) (lon1d.get [i]) jj ii)
    (huniq : ∀ jj' ii', jj' < nyi → ii' < nxi → Spec.At lat2d lon2d (lat1d.get [j]) (lon1d.get [i]) jj' ii' → jj' = jj ∧ ii' = ii)
    (hv : Spec.datum (missing msg) fi g jj ii = some v)
    (hd : (¬ (∀ i, i + 1 < nxi → lon2d.get [0, i] < lon2d.get [0, i + 1]) ∨ ¬ (∀ j, j + 1 < nyi → lat2d.get [j, 0] < lat2d.get [j + 1, 0]) ∨
        ¬ (∀ i, i + 1 < nxo → lon1d.get [i] < lon1d.get [i + 1]) ∨ ¬ ∀ j, j + 1 < nyo → lat1d.get [j] < lat1d.get [j + 1]) ∨
      Spec.SmallDrift lat2d lon2d nyi nxi (lat1d.get [j]) (lon1d.get [i]) jj ii) :
    out.get [g, j, i] = some v := by
  obtain ⟨out', e, hsh, hval⟩ := rcm2rgrid_ok hs msg
  rw [h] at e
  simp only [Except.ok.injEq, Prod.mk.injEq] at e
  obtain ⟨rfl, -⟩ := e
  obtain ⟨row, hrow, hout⟩ := hval g j hg hj
  have hne := datum_ne_huge hv
  suffices hraw : rawAt (missing msg) lat2d lon2d fi lat1d lon1d ngrd nyi nxi nyo nxo g j i = v by
    rw [hout i hi]
    have := (C167_short_gaps row nxo huge).valid (i + 1) (by omega) (by omega) (by rw [hrow i hi, hraw]; exact hne)
    rw [this, hrow i hi, hraw, decode_ne hne]
  have hb : InB fi.shape [g, jj, ii] := by rw [hs.fi, inB3]; exact ⟨hg, hjj, hii⟩
  set S := srcOf (missing msg) lat2d lon2d fi nxi nyi ngrd with hS
  have hf : S.fi (ii + 1) (jj + 1) (g + 1) = v := by
    change fieldsOf (missing msg) fi (ii + 1) (jj + 1) (g + 1) = v
    rw [fieldsOf_eq hc hb, hv]; rfl
  have hnear : Near S (lon1d.get [i]) (lat1d.get [j]) 0.0001 (ii + 1, jj + 1) := by rw [hS, at_iff]; exact hat
  have honly : ∀ q : ℕ × ℕ, (1 ≤ q.1 ∧ q.1 ≤ nxi) ∧ (1 ≤ q.2 ∧ q.2 ≤ nyi) → Near S (lon1d.get [i]) (lat1d.get [j]) 0.0001 q → q = (ii + 1, jj + 1) := by
    intro q hq hn
    rw [hS, at_iff] at hn
    obtain ⟨k1, k2⟩ := huniq (q.2 - 1) (q.1 - 1) (by omega) (by omega) hn
    ext <;> dsimp only <;> omega
  have hfull : fullVal S huge 2 1 0.0001 (lon1d.get [i]) (lat1d.get [j]) (g + 1) = v := by
    have : firstNear S 0.0001 (lon1d.get [i]) (lat1d.get [j]) (allPoints S) = some (ii + 1, jj + 1) := by
      refine found_of_unique ?_ hnear fun q hq hn => honly q ?_ hn
      · rw [mem_box]; simp only [allPoints, hS, srcOf]; omega
      · rw [mem_box] at hq; simp only [allPoints, hS, srcOf] at hq; exact hq
    rw [fullVal, this, hitVal, Option.elim_some, hf, pick_left hne]
  unfold rawAt rawVal
  split
  next => exact hfull
  next a ea =>
    rw [← hS, fastOf] at ea
    by_cases hfast : Fast S nxo nyo (fun i => lon1d.get [i - 1]) fun j => lat1d.get [j - 1]
    · rw [if_pos hfast] at ea
      simp only [Option.some.injEq] at ea
      have drift : Spec.SmallDrift lat2d lon2d nyi nxi (lat1d.get [j]) (lon1d.get [i]) jj ii := by
        rcases hd with hd | hd
        · exfalso
          obtain ⟨⟨f1, f2⟩, f3, f4⟩ := hfast
          rcases hd with hd | hd | hd | hd
          · exact hd fun i hi => f1 (i + 1) (by omega) (by simp only [hS, srcOf]; omega)
          · exact hd fun j hj => f2 (j + 1) (by omega) (by simp only [hS, srcOf]; omega)
          · exact hd fun i hi => f3 (i + 1) (by omega) (by omega)
          · exact hd fun j hj => f4 (j + 1) (by omega) (by omega)
        · exact hd
      obtain ⟨ax, ex, hx1, hx2⟩ := window_holds (n := nxi) (x := fun i => S.xi i 1) (v := lon1d.get [i]) (p := ii + 1) hfast.1.1 hs.nxi (by omega)
        (by omega) (fun h4 => by simpa only [hS, srcOf, show ii + 1 - 3 - 1 = ii - 3 by omega] using drift.west (by omega))
        (fun h4 => by simpa only [hS, srcOf, show ii + 1 + 3 - 1 = ii + 3 by omega] using drift.east (by omega))
      obtain ⟨ay, ey, hy1, hy2⟩ := window_holds (n := nyi) (x := fun j => S.yi 1 j) (v := lat1d.get [j]) (p := jj + 1) hfast.1.2 hs.nyi (by omega)
        (by omega) (fun h4 => by simpa only [hS, srcOf, show jj + 1 - 3 - 1 = jj - 3 by omega] using drift.south (by omega))
        (fun h4 => by simpa only [hS, srcOf, show jj + 1 + 3 - 1 = jj + 3 by omega] using drift.north (by omega))
      have ea' : a = (ax, ay) := by
        rw [← ea]
        have e1 : earliest S.nx (fun i => S.xi i 1) (lon1d.get [i + 1 - 1]) 2 = some ax := ex
        have e2 : earliest S.ny (fun j => S.yi 1 j) (lat1d.get [j + 1 - 1]) 2 = some ay := ey
        rw [e1, e2]; rfl
      have : firstNear S 0.0001 (lon1d.get [i]) (lat1d.get [j]) (windows S 2 a.1 a.2).1 = some (ii + 1, jj + 1) := by
        rw [ea']
        refine found_of_unique ?_ hnear fun q hq hn => honly q ?_ hn
        · rw [mem_box]; simp only [windows]; exact ⟨⟨hx1, hx2⟩, hy1, hy2⟩
        · rw [mem_box] at hq; simp only [windows, hS, srcOf] at hq; omega
      rw [localVal, this, hitVal, Option.elim_some, hf, pick_left hne]
    · rw [if_neg hfast] at ea; cases ea

end Skyborn.Rcm
