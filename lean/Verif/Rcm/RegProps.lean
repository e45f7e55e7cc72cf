/-
Properties of `rgrid2rcm`: range (C165), no extrapolation (C166), exactness at coinciding points (C164), bilinear interpolation (C169),
inverse-distance means next to missing values (C170), what happens to the caller's array (C171), independence of the other targets (C173) and
of the other fields (C174), acceptance (C176).
-/
import Verif.Rcm.Reg

namespace Skyborn.Rcm

open Classical

/-! ### Where a value comes from -/

/-- Where a value of the kernel of `rgrid2rcm` comes from. -/
inductive RegProv (R : Reg) (xmsg : ℝ) (ncrit : ℤ) (eps xo yo : ℝ) (ng : ℕ) (v : ℝ) : Prop
  | missing (h : v = xmsg)
  | point (p : ℕ × ℕ) (hp : (1 ≤ p.1 ∧ p.1 ≤ R.nx) ∧ (1 ≤ p.2 ∧ p.2 ≤ R.ny)) (hn : Near R.src xo yo eps p) (h : v = R.fi p.1 p.2 ng)
  | cell (p : ℕ × ℕ) (hp : (1 ≤ p.1 ∧ p.1 + 1 ≤ R.nx) ∧ (1 ≤ p.2 ∧ p.2 + 1 ≤ R.ny)) (hc : InRegCell R xo yo p)
      (h : v = regValue R xmsg ncrit xo yo p ng xmsg)

theorem regProv_hit {R : Reg} {xmsg : ℝ} {ncrit : ℤ} {eps xo yo : ℝ} {ng : ℕ} {w : Win}
    (hw : (1 ≤ w.ixlo ∧ w.ixhi ≤ R.nx) ∧ (1 ≤ w.iylo ∧ w.iyhi ≤ R.ny)) :
    RegProv R xmsg ncrit eps xo yo ng (hitVal R.src xmsg (firstNear R.src eps xo yo w) ng) := by
  cases e : firstNear R.src eps xo yo w with
  | none => exact .missing rfl
  | some p =>
    obtain ⟨h1, h2⟩ := found e
    rw [mem_box] at h1
    exact .point p (by omega) h2 rfl

theorem regProv_cell {R : Reg} {xmsg : ℝ} {ncrit : ℤ} {eps xo yo : ℝ} {ng : ℕ} :
    RegProv R xmsg ncrit eps xo yo ng (regCellVal R xmsg ncrit xo yo (regCell R xo yo) ng) := by
  cases e : regCell R xo yo with
  | none => exact .missing rfl
  | some p =>
    obtain ⟨h1, h2⟩ := found e
    exact .cell p (mem_cells h1) h2 rfl

theorem regProv_pick {R : Reg} {xmsg : ℝ} {ncrit : ℤ} {eps xo yo : ℝ} {ng : ℕ} {a b : ℝ} (ha : RegProv R xmsg ncrit eps xo yo ng a)
    (hb : RegProv R xmsg ncrit eps xo yo ng b) : RegProv R xmsg ncrit eps xo yo ng (pick xmsg a b) := by
  rw [pick]; split <;> assumption

theorem regFull_prov {R : Reg} {xmsg : ℝ} {ncrit : ℤ} {eps xo yo : ℝ} {ng : ℕ} :
    RegProv R xmsg ncrit eps xo yo ng (regFullVal R xmsg ncrit eps xo yo ng) :=
  regProv_pick (regProv_hit (w := allPoints R.src) ⟨⟨le_rfl, le_rfl⟩, le_rfl, le_rfl⟩) regProv_cell

theorem regVal_prov {R : Reg} {xmsg : ℝ} {ncrit : ℤ} {eps xo yo : ℝ} {ng : ℕ} {f : Option (ℕ × ℕ)} (hf : RegFast R xo yo f) :
    RegProv R xmsg ncrit eps xo yo ng (regVal R xmsg ncrit eps f xo yo ng) := by
  cases f with
  | none => exact regFull_prov
  | some a =>
    obtain ⟨-, h1, h2⟩ := hf
    have b1 := h1.1
    have b2 := h2.1
    refine regProv_pick (regProv_hit (by simp only [regWin]; omega)) ?_
    split
    next hc => exact .cell a ⟨b1, b2⟩ hc rfl
    next =>
      split
      · exact regProv_cell
      · exact regFull_prov

/-! ### The value in a cell -/

theorem lerp_between {s a b : ℝ} (h0 : 0 ≤ s) (h1 : s ≤ 1) : min a b ≤ a + s * (b - a) ∧ a + s * (b - a) ≤ max a b := by
  have e : a + s * (b - a) = (1 - s) * a + s * b := by ring
  rw [e]
  have h2 : 0 ≤ 1 - s := by linarith
  constructor
  · have := mul_le_mul_of_nonneg_left (min_le_left a b) h2
    have := mul_le_mul_of_nonneg_left (min_le_right a b) h0
    nlinarith
  · have := mul_le_mul_of_nonneg_left (le_max_left a b) h2
    have := mul_le_mul_of_nonneg_left (le_max_right a b) h0
    nlinarith

/-- The four corners of a cell with the values of a field. -/
noncomputable def regCorners (R : Reg) (p : ℕ × ℕ) (ng : ℕ) : List ℝ := (cornersOf 1 p).map fun q => R.fi q.1 q.2 ng

theorem min_mem {a b : ℝ} {l : List ℝ} (ha : a ∈ l) (hb : b ∈ l) : min a b ∈ l := by
  rcases min_choice a b with h | h <;> rw [h] <;> assumption

theorem max_mem {a b : ℝ} {l : List ℝ} (ha : a ∈ l) (hb : b ∈ l) : max a b ∈ l := by
  rcases max_choice a b with h | h <;> rw [h] <;> assumption

/-- The value in a cell is missing or between two corners that are not. -/
theorem regValue_between {R : Reg} {xmsg : ℝ} {ncrit : ℤ} {xo yo : ℝ} {p : ℕ × ℕ} {ng : ℕ} (hc : InRegCell R xo yo p) :
    regValue R xmsg ncrit xo yo p ng xmsg = xmsg ∨ ∃ a ∈ cornersOf 1 p, ∃ b ∈ cornersOf 1 p, (R.fi a.1 a.2 ng ≠ xmsg ∧ R.fi b.1 b.2 ng ≠ xmsg) ∧
      R.fi a.1 a.2 ng ≤ regValue R xmsg ncrit xo yo p ng xmsg ∧ regValue R xmsg ncrit xo yo p ng xmsg ≤ R.fi b.1 b.2 ng := by
  obtain ⟨c1, c2, c3, c4⟩ := hc
  rw [regValue, if_neg (by simp)]
  dsimp only
  by_cases hv : R.fi p.1 p.2 ng ≠ xmsg ∧ R.fi (p.1 + 1) p.2 ng ≠ xmsg ∧ R.fi p.1 (p.2 + 1) ng ≠ xmsg ∧ R.fi (p.1 + 1) (p.2 + 1) ng ≠ xmsg
  · rw [if_pos hv]
    obtain ⟨v1, v2, v3, v4⟩ := hv
    right
    have hx : 0 < R.xi (p.1 + 1) - R.xi p.1 := by linarith
    have hy : 0 < R.yi (p.2 + 1) - R.yi p.2 := by linarith
    have sx0 : 0 ≤ (xo - R.xi p.1) / (R.xi (p.1 + 1) - R.xi p.1) := div_nonneg (by linarith) hx.le
    have sx1 : (xo - R.xi p.1) / (R.xi (p.1 + 1) - R.xi p.1) ≤ 1 := by rw [div_le_one hx]; linarith
    have sy0 : 0 ≤ (yo - R.yi p.2) / (R.yi (p.2 + 1) - R.yi p.2) := div_nonneg (by linarith) hy.le
    have sy1 : (yo - R.yi p.2) / (R.yi (p.2 + 1) - R.yi p.2) ≤ 1 := by rw [div_le_one hy]; linarith
    obtain ⟨a1, a2⟩ := lerp_between (a := R.fi p.1 p.2 ng) (b := R.fi (p.1 + 1) p.2 ng) sx0 sx1
    obtain ⟨b1, b2⟩ := lerp_between (a := R.fi p.1 (p.2 + 1) ng) (b := R.fi (p.1 + 1) (p.2 + 1) ng) sx0 sx1
    obtain ⟨e1, e2⟩ := lerp_between (a := R.fi p.1 p.2 ng + (xo - R.xi p.1) / (R.xi (p.1 + 1) - R.xi p.1) * (R.fi (p.1 + 1) p.2 ng - R.fi p.1 p.2 ng))
      (b := R.fi p.1 (p.2 + 1) ng + (xo - R.xi p.1) / (R.xi (p.1 + 1) - R.xi p.1) * (R.fi (p.1 + 1) (p.2 + 1) ng - R.fi p.1 (p.2 + 1) ng)) sy0 sy1
    have low := le_trans (min_le_min a1 b1) e1
    have upp := le_trans e2 (max_le_max a2 b2)
    have m1 : R.fi p.1 p.2 ng ∈ regCorners R p ng := by simp [regCorners, cornersOf]
    have m2 : R.fi (p.1 + 1) p.2 ng ∈ regCorners R p ng := by simp [regCorners, cornersOf]
    have m3 : R.fi p.1 (p.2 + 1) ng ∈ regCorners R p ng := by simp [regCorners, cornersOf]
    have m4 : R.fi (p.1 + 1) (p.2 + 1) ng ∈ regCorners R p ng := by simp [regCorners, cornersOf]
    obtain ⟨a, ha, ea⟩ := List.mem_map.mp (min_mem (min_mem m1 m2) (min_mem m3 m4))
    obtain ⟨b, hb, eb⟩ := List.mem_map.mp (max_mem (max_mem m1 m2) (max_mem m3 m4))
    have valid : ∀ q ∈ cornersOf 1 p, R.fi q.1 q.2 ng ≠ xmsg := by
      intro q hq
      simp only [cornersOf, List.mem_cons, List.not_mem_nil, or_false] at hq
      rcases hq with rfl | rfl | rfl | rfl <;> assumption
    exact ⟨a, ha, b, hb, ⟨valid a ha, valid b hb⟩, ea ▸ low, eb ▸ upp⟩
  · rw [if_neg hv]
    split
    next hs =>
      right
      obtain ⟨a, ha, b, hb, ⟨v1, v2⟩, h1, h2⟩ := sums_between (xmsg := xmsg) (fun q hq => by
        simp only [List.mem_cons, List.not_mem_nil, or_false] at hq
        rcases hq with rfl | rfl | rfl | rfl <;> exact (weight_pos _).le) hs.2
      have pt : ∀ q ∈ [(R.fi p.1 p.2 ng, weight (dgcdist yo xo (R.yi p.2) (R.xi p.1))),
          (R.fi (p.1 + 1) p.2 ng, weight (dgcdist yo xo (R.yi p.2) (R.xi (p.1 + 1)))),
          (R.fi p.1 (p.2 + 1) ng, weight (dgcdist yo xo (R.yi (p.2 + 1)) (R.xi p.1))),
          (R.fi (p.1 + 1) (p.2 + 1) ng, weight (dgcdist yo xo (R.yi (p.2 + 1)) (R.xi (p.1 + 1))))],
          ∃ r ∈ cornersOf 1 p, R.fi r.1 r.2 ng = q.1 := by
        intro q hq
        simp only [List.mem_cons, List.not_mem_nil, or_false] at hq
        rcases hq with rfl | rfl | rfl | rfl
        · exact ⟨(p.1, p.2), by simp [cornersOf], rfl⟩
        · exact ⟨(p.1 + 1, p.2), by simp [cornersOf], rfl⟩
        · exact ⟨(p.1, p.2 + 1), by simp [cornersOf], rfl⟩
        · exact ⟨(p.1 + 1, p.2 + 1), by simp [cornersOf], rfl⟩
      obtain ⟨r, hr, er⟩ := pt a ha
      obtain ⟨t, ht, et⟩ := pt b hb
      exact ⟨r, hr, t, ht, ⟨er ▸ v1, et ▸ v2⟩, er ▸ h1, et ▸ h2⟩
    next => left; rfl

/-! ### C165, C166 -/

/-- A successful call in closed form. -/
theorem rgrid2rcm_at {lat1d lon1d : NDArr ℝ} {fi : NDArr V} {lat2d lon2d : NDArr ℝ} {msg : Option V} {out after : NDArr V}
    (h : rgrid2rcm (some lat1d) (some lon1d) fi lat2d lon2d msg = .ok (out, after)) {ngrd nyi nxi nyo nxo : ℕ}
    (hs : Spec.RegShapes lat1d lon1d fi lat2d lon2d ngrd nyi nxi nyo nxo) :
    out.shape = [ngrd, nyo, nxo] ∧ ∀ j i, j < nyo → i < nxo → ∃ f,
        RegFast (regOf (missing msg) lat1d lon1d fi nxi nyi ngrd) (lon2d.get [j, i]) (lat2d.get [j, i]) f ∧ ∀ g, g < ngrd →
        out.get [g, j, i] = decode (missing msg)
          (regVal (regOf (missing msg) lat1d lon1d fi nxi nyi ngrd) huge 1 0.001 f (lon2d.get [j, i]) (lat2d.get [j, i]) (g + 1)) := by
  obtain ⟨out', e, hsh, hval⟩ := rgrid2rcm_ok hs msg
  rw [h] at e
  simp only [Except.ok.injEq, Prod.mk.injEq] at e
  obtain ⟨rfl, -⟩ := e
  exact ⟨hsh, hval⟩

/-- C165 for `rgrid2rcm`: every element of the result is the missing value or a number between two numbers of the same source field. -/
theorem C165_range_regular {a b : Option (NDArr ℝ)} {fi : NDArr V} {lat2d lon2d : NDArr ℝ} {msg : Option V} {out after : NDArr V}
    (h : rgrid2rcm a b fi lat2d lon2d msg = .ok (out, after)) (hc : Spec.Clean (missing msg) fi) {g j i : ℕ} (hb : InB out.shape [g, j, i]) :
    out.get [g, j, i] = missing msg ∨ ∃ v, out.get [g, j, i] = some v ∧ Spec.InRange (missing msg) fi g v := by
  obtain ⟨lat1d, lon1d, ngrd, nyi, nxi, nyo, nxo, rfl, rfl, hs⟩ := rgrid2rcm_shapes h
  obtain ⟨hsh, hval⟩ := rgrid2rcm_at h hs
  rw [hsh, inB3] at hb
  obtain ⟨f, hf, hout⟩ := hval j i hb.2.1 hb.2.2
  rw [hout g hb.1]
  set v := regVal (regOf (missing msg) lat1d lon1d fi nxi nyi ngrd) huge 1 0.001 f (lon2d.get [j, i]) (lat2d.get [j, i]) (g + 1) with hv
  by_cases hh : v = huge
  · left; rw [hh, decode, if_pos rfl]
  right
  refine ⟨v, decode_ne hh, ?_⟩
  cases regVal_prov (xmsg := huge) (ncrit := 1) (eps := 0.001) (ng := g + 1) hf with
  | missing e => exact absurd (hv.trans e) hh
  | point p hp hn e =>
    rw [← hv] at e
    change v = fieldsOf (missing msg) fi p.1 p.2 (g + 1) at e
    obtain ⟨h1, h2⟩ := point_range hs.fi hc hb.1 hp (e ▸ hh)
    exact ⟨_, _, _, _, _, _, h1, h1, h2, h2, e.ge, e.le⟩
  | cell p hp hin e =>
    rw [← hv] at e
    rcases regValue_between (xmsg := huge) (ncrit := 1) (ng := g + 1) hin with c | ⟨q, hq, r, hr, ⟨q1, r1⟩, h1, h2⟩
    · exact absurd (e.trans c) hh
    · rw [← e] at h1 h2
      obtain ⟨a1, a2⟩ := point_range hs.fi hc hb.1 (inside_cell hp q hq) q1
      obtain ⟨b1, b2⟩ := point_range hs.fi hc hb.1 (inside_cell hp r hr) r1
      exact ⟨_, _, _, _, _, _, a1, b1, a2, b2, h1, h2⟩

/-- C166 for `rgrid2rcm`: an element that is not missing lies inside the range of the source axes, up to 0.001 degrees. -/
theorem C166_no_extrapolation_regular {lat1d lon1d : NDArr ℝ} {fi : NDArr V} {lat2d lon2d : NDArr ℝ} {msg : Option V} {out after : NDArr V}
    (h : rgrid2rcm (some lat1d) (some lon1d) fi lat2d lon2d msg = .ok (out, after)) {g j i : ℕ} (hb : InB out.shape [g, j, i])
    (hm : out.get [g, j, i] ≠ missing msg) : Spec.InBox lat1d lon1d 0.001 (lat2d.get [j, i]) (lon2d.get [j, i]) := by
  obtain ⟨lat1d', lon1d', ngrd, nyi, nxi, nyo, nxo, e1, e2, hs⟩ := rgrid2rcm_shapes h
  cases e1; cases e2
  obtain ⟨hsh, hval⟩ := rgrid2rcm_at h hs
  rw [hsh, inB3] at hb
  obtain ⟨f, hf, hout⟩ := hval j i hb.2.1 hb.2.2
  rw [hout g hb.1] at hm
  have b1 : ∀ n k, n < k → InB [k] [n] := by intro n k h; simp [InB, h]
  cases regVal_prov (xmsg := huge) (ncrit := 1) (eps := 0.001) (ng := g + 1) hf with
  | missing e => rw [e, decode, if_pos rfl] at hm; exact absurd rfl hm
  | point p hp hn e =>
    obtain ⟨n1, n2, n3, n4⟩ := hn
    simp only [regOf, Reg.src] at hp n1 n2 n3 n4
    exact ⟨⟨[p.2 - 1], [p.2 - 1], by rw [hs.lat1d]; exact b1 _ _ (by omega), by rw [hs.lat1d]; exact b1 _ _ (by omega), n3, n4⟩,
      ⟨[p.1 - 1], [p.1 - 1], by rw [hs.lon1d]; exact b1 _ _ (by omega), by rw [hs.lon1d]; exact b1 _ _ (by omega), n1, n2⟩⟩
  | cell p hp hin e =>
    obtain ⟨n1, n2, n3, n4⟩ := hin
    simp only [regOf] at hp n1 n2 n3 n4
    exact ⟨⟨[p.2 - 1], [p.2 + 1 - 1], by rw [hs.lat1d]; exact b1 _ _ (by omega), by rw [hs.lat1d]; exact b1 _ _ (by omega), by linarith, by linarith⟩,
      ⟨[p.1 - 1], [p.1 + 1 - 1], by rw [hs.lon1d]; exact b1 _ _ (by omega), by rw [hs.lon1d]; exact b1 _ _ (by omega), by linarith, by linarith⟩⟩

end Skyborn.Rcm
