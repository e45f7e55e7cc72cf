/-
Further properties of `rgrid2rcm`: exactness (C164), bilinear interpolation (C169), inverse-distance means next to missing values (C170).
-/
import Verif.Rcm.RegProps
import Mathlib.Tactic.LinearCombination

namespace Skyborn.Rcm

open Classical

/-- A grid point of the rectilinear source coincides with the target (within the kernel's 0.001 degrees). -/
def Spec.AtReg (lat1d lon1d : NDArr ℝ) (lat lon : ℝ) (jj ii : ℕ) : Prop := |lat - lat1d.get [jj]| ≤ 0.001 ∧ |lon - lon1d.get [ii]| ≤ 0.001

/-- The axis increases. -/
def Spec.Increasing (x : NDArr ℝ) (n : ℕ) : Prop := ∀ i, i + 1 < n → x.get [i] < x.get [i + 1]

theorem atReg_iff {mp : V} {lat1d lon1d : NDArr ℝ} {fi : NDArr V} {nxi nyi ngrd : ℕ} {xo yo : ℝ} {p : ℕ × ℕ} :
    Near (regOf mp lat1d lon1d fi nxi nyi ngrd).src xo yo 0.001 p ↔ Spec.AtReg lat1d lon1d yo xo (p.2 - 1) (p.1 - 1) := by
  rw [Near, Spec.AtReg, abs_le, abs_le]
  simp only [regOf, Reg.src]
  constructor
  · rintro ⟨h1, h2, h3, h4⟩; exact ⟨⟨by linarith, by linarith⟩, by linarith, by linarith⟩
  · rintro ⟨⟨h1, h2⟩, h3, h4⟩; exact ⟨by linarith, by linarith, by linarith, by linarith⟩

theorem inc_of {x : NDArr ℝ} {n : ℕ} : Spec.Increasing x n ↔ Inc n fun i => x.get [i - 1] := by
  constructor
  · intro h i h1 h2
    obtain ⟨i, rfl⟩ : ∃ m, i = m + 1 := ⟨i - 1, by omega⟩
    exact h i (by omega)
  · intro h i hi; exact h (i + 1) (by omega) (by omega)

/-! ### C164 -/

/-- A value close to a point of an increasing axis lies in a bracket next to it, or another point of the axis is as close. -/
theorem bracket_near {n : ℕ} {x : ℕ → ℝ} {v eps : ℝ} {c p : ℕ} (hx : Inc n x) (hc : Bracket n x v c) (h1 : 1 ≤ p) (h2 : p ≤ n) (hlo : v ≥ x p - eps)
    (hhi : v ≤ x p + eps) (he : 0 ≤ eps) (huniq : ∀ q, 1 ≤ q → q ≤ n → v ≥ x q - eps → v ≤ x q + eps → q = p) : max 1 c ≤ p ∧ p ≤ min n (c + 1) := by
  have hb := hc.1
  have lower : c ≤ p := by
    by_contra hcon
    by_cases g1 : v ≤ x 1
    · have := hc.2.1 g1; omega
    · by_cases g2 : x n ≤ v
      · have k1 := hx.le (i := p) (j := p + 1) h1 (by omega) (by omega)
        have k2 := hx.le (i := p + 1) (j := n) (by omega) (by omega) le_rfl
        have := huniq (p + 1) (by omega) (by omega) (by linarith) (by linarith); omega
      · have g3 := hc.2.2.2 (not_le.mp g1) (not_le.mp g2)
        have k1 := hx.le (i := p) (j := c) h1 (by omega) (by omega)
        have := huniq c (by omega) (by omega) (by linarith [g3.1]) (by linarith); omega
  have upper : p ≤ c + 1 := by
    by_contra hcon
    by_cases g1 : v ≤ x 1
    · have e := hc.2.1 g1
      have k1 := hx.le (i := 1) (j := p) le_rfl (by omega) (by omega)
      have := huniq 1 le_rfl (by omega) (by linarith) (by linarith); omega
    · by_cases g2 : x n ≤ v
      · have := hc.2.2.1 g2 (not_le.mp g1); omega
      · have g3 := hc.2.2.2 (not_le.mp g1) (not_le.mp g2)
        have k1 := hx.le (i := c + 1) (j := p) (by omega) (by omega) (by omega)
        have := huniq (c + 1) (by omega) (by omega) (by linarith) (by linarith [g3.2]); omega
  omega

/-- C164 for `rgrid2rcm`: a target that coincides with exactly one source point whose value is not missing gets that value (for all source
axes, increasing or not). -/
theorem C164_exact_regular {lat1d lon1d : NDArr ℝ} {fi : NDArr V} {lat2d lon2d : NDArr ℝ} {ngrd nyi nxi nyo nxo : ℕ} {msg : Option V}
    {out after : NDArr V} (hs : Spec.RegShapes lat1d lon1d fi lat2d lon2d ngrd nyi nxi nyo nxo)
    (h : rgrid2rcm (some lat1d) (some lon1d) fi lat2d lon2d msg = .ok (out, after)) (hc : Spec.Clean (missing msg) fi) {g j i jj ii : ℕ} {v : ℝ}
    (hg : g < ngrd) (hj : j < nyo) (hi : i < nxo) (hjj : jj < nyi) (hii : ii < nxi)
    (hat : Spec.AtReg lat1d lon1d (lat2d.get [j, i]) (lon2d.get [j, i]) jj ii)
    (huniq : ∀ jj' ii', jj' < nyi → ii' < nxi → Spec.AtReg lat1d lon1d (lat2d.get [j, i]) (lon2d.get [j, i]) jj' ii' → jj' = jj ∧ ii' = ii)
    (hv : Spec.datum (missing msg) fi g jj ii = some v) : out.get [g, j, i] = some v := by
  obtain ⟨-, hval⟩ := rgrid2rcm_at h hs
  obtain ⟨f, hf, hout⟩ := hval j i hj hi
  rw [hout g hg]
  have hne := datum_ne_huge hv
  suffices hraw : regVal (regOf (missing msg) lat1d lon1d fi nxi nyi ngrd) huge 1 0.001 f (lon2d.get [j, i]) (lat2d.get [j, i]) (g + 1) = v by
    rw [hraw, decode_ne hne]
  set R := regOf (missing msg) lat1d lon1d fi nxi nyi ngrd with hR
  have hb : InB fi.shape [g, jj, ii] := by rw [hs.fi, inB3]; exact ⟨hg, hjj, hii⟩
  have hfv : R.src.fi (ii + 1) (jj + 1) (g + 1) = v := by
    change fieldsOf (missing msg) fi (ii + 1) (jj + 1) (g + 1) = v
    rw [fieldsOf_eq hc hb, hv]; rfl
  have hnear : Near R.src (lon2d.get [j, i]) (lat2d.get [j, i]) 0.001 (ii + 1, jj + 1) := by rw [hR, atReg_iff]; exact hat
  have honly : ∀ q : ℕ × ℕ, (1 ≤ q.1 ∧ q.1 ≤ nxi) ∧ (1 ≤ q.2 ∧ q.2 ≤ nyi) → Near R.src (lon2d.get [j, i]) (lat2d.get [j, i]) 0.001 q → q = (ii + 1, jj + 1) := by
    intro q hq hn
    rw [hR, atReg_iff] at hn
    obtain ⟨k1, k2⟩ := huniq (q.2 - 1) (q.1 - 1) (by omega) (by omega) hn
    ext <;> dsimp only <;> omega
  cases f with
  | none =>
    have : firstNear R.src 0.001 (lon2d.get [j, i]) (lat2d.get [j, i]) (allPoints R.src) = some (ii + 1, jj + 1) := by
      refine found_of_unique ?_ hnear fun q hq hn => honly q ?_ hn
      · rw [mem_box]; simp only [allPoints, hR, regOf, Reg.src]; omega
      · rw [mem_box] at hq; simp only [allPoints, hR, regOf, Reg.src] at hq; exact hq
    rw [regVal, regFullVal, this, hitVal, Option.elim_some, hfv, pick_left hne]
  | some a =>
    obtain ⟨⟨i1, i2⟩, b1, b2⟩ := hf
    obtain ⟨n1, n2, n3, n4⟩ := hnear
    have wx := bracket_near (eps := 0.001) i1 b1 (p := ii + 1) (by omega) (by simp only [hR, regOf]; omega) n1 n2 (by norm_num) fun q q1 q2 q3 q4 =>
      (Prod.ext_iff.mp (honly (q, jj + 1) ⟨⟨q1, q2⟩, by omega, by omega⟩ ⟨q3, q4, n3, n4⟩)).1
    have wy := bracket_near (eps := 0.001) i2 b2 (p := jj + 1) (by omega) (by simp only [hR, regOf]; omega) n3 n4 (by norm_num) fun q q1 q2 q3 q4 =>
      (Prod.ext_iff.mp (honly (ii + 1, q) ⟨⟨by omega, by omega⟩, q1, q2⟩ ⟨n1, n2, q3, q4⟩)).2
    have : firstNear R.src 0.001 (lon2d.get [j, i]) (lat2d.get [j, i]) (regWin R a) = some (ii + 1, jj + 1) := by
      refine found_of_unique ?_ ⟨n1, n2, n3, n4⟩ fun q hq hn => honly q ?_ hn
      · rw [mem_box]; simp only [regWin]; exact ⟨wx, wy⟩
      · rw [mem_box] at hq; simp only [regWin, hR, regOf] at hq; omega
    rw [regVal, this, hitVal, Option.elim_some, hfv, pick_left hne]

/-! ### C169: bilinear interpolation -/

/-- The value at relative position `s` (to the east), `t` (to the north) of the bilinear function with the given corner values. -/
noncomputable def Spec.bilinear (f00 f01 f10 f11 s t : ℝ) : ℝ := (1 - s) * (1 - t) * f00 + s * (1 - t) * f01 + (1 - s) * t * f10 + s * t * f11

theorem bracket_of_cell {n : ℕ} {x : ℕ → ℝ} {v : ℝ} {c d : ℕ} (hx : Inc n x) (h : Bracket n x v c) (h1 : 1 ≤ d) (h2 : d + 1 ≤ n) (h3 : x d ≤ v)
    (h4 : v < x (d + 1)) : c = d := by
  refine h.unique hx ⟨⟨h1, h2⟩, fun g => ?_, fun g _ => ?_, fun _ _ => ⟨h3, h4⟩⟩
  · by_contra hd
    have := hx.lt (i := 1) (j := d) le_rfl (by omega) (by omega)
    linarith
  · have := hx.le (i := d + 1) (j := n) (by omega) h2 le_rfl
    linarith

/-- The cell of the source that holds the target, increasing axes. -/
structure Spec.InCellOf (lat1d lon1d : NDArr ℝ) (nyi nxi : ℕ) (lat lon : ℝ) (jj ii : ℕ) : Prop where
  incLat : Spec.Increasing lat1d nyi
  incLon : Spec.Increasing lon1d nxi
  row : jj + 1 < nyi
  col : ii + 1 < nxi
  south : lat1d.get [jj] ≤ lat
  north : lat < lat1d.get [jj + 1]
  west : lon1d.get [ii] ≤ lon
  east : lon < lon1d.get [ii + 1]
  /-- The target coincides with no corner. -/
  apart : ∀ a b, a ≤ 1 → b ≤ 1 → ¬ Spec.AtReg lat1d lon1d lat lon (jj + a) (ii + b)

theorem regVal_cell {mp : V} {lat1d lon1d : NDArr ℝ} {fi : NDArr V} {ngrd nyi nxi : ℕ} {xo yo : ℝ} {f : Option (ℕ × ℕ)} {jj ii g : ℕ}
    (hf : RegFast (regOf mp lat1d lon1d fi nxi nyi ngrd) xo yo f) (hc : Spec.InCellOf lat1d lon1d nyi nxi yo xo jj ii) :
    regVal (regOf mp lat1d lon1d fi nxi nyi ngrd) huge 1 0.001 f xo yo g =
      regValue (regOf mp lat1d lon1d fi nxi nyi ngrd) huge 1 xo yo (ii + 1, jj + 1) g huge := by
  have i1 : Inc nxi fun i => lon1d.get [i - 1] := inc_of.mp hc.incLon
  have i2 : Inc nyi fun j => lat1d.get [j - 1] := inc_of.mp hc.incLat
  cases f with
  | none => exact absurd ⟨i1, i2⟩ hf
  | some a =>
    obtain ⟨-, b1, b2⟩ := hf
    have hr := hc.row
    have hl := hc.col
    have e1 : a.1 = ii + 1 := bracket_of_cell i1 b1 (by omega) (by omega) hc.west hc.east
    have e2 : a.2 = jj + 1 := bracket_of_cell i2 b2 (by omega) (by omega) hc.south hc.north
    obtain rfl : a = (ii + 1, jj + 1) := Prod.ext e1 e2
    have hin : InRegCell (regOf mp lat1d lon1d fi nxi nyi ngrd) xo yo (ii + 1, jj + 1) := ⟨hc.west, hc.east, hc.south, hc.north⟩
    have hn : firstNear (regOf mp lat1d lon1d fi nxi nyi ngrd).src 0.001 xo yo (regWin (regOf mp lat1d lon1d fi nxi nyi ngrd) (ii + 1, jj + 1)) = none := by
      rw [firstNear, List.find?_eq_none]
      intro p hp hn
      rw [mem_box] at hp
      simp only [regWin] at hp
      simp only [decide_eq_true_eq] at hn
      rw [atReg_iff] at hn
      refine hc.apart (p.2 - 1 - jj) (p.1 - 1 - ii) (by omega) (by omega) ?_
      rw [show jj + (p.2 - 1 - jj) = p.2 - 1 by omega, show ii + (p.1 - 1 - ii) = p.1 - 1 by omega]
      exact hn
    rw [regVal, hn, if_pos hin, hitVal, Option.elim_none, pick_miss]

/-- C169: a target inside a cell of an increasing source whose four corners are not missing, and that coincides with none of them, gets the
bilinear interpolation of the four corners in longitude and latitude. -/
theorem C169_bilinear {lat1d lon1d : NDArr ℝ} {fi : NDArr V} {lat2d lon2d : NDArr ℝ} {ngrd nyi nxi nyo nxo : ℕ} {msg : Option V}
    {out after : NDArr V} (hs : Spec.RegShapes lat1d lon1d fi lat2d lon2d ngrd nyi nxi nyo nxo)
    (h : rgrid2rcm (some lat1d) (some lon1d) fi lat2d lon2d msg = .ok (out, after)) (hc : Spec.Clean (missing msg) fi) {g j i jj ii : ℕ}
    {f00 f01 f10 f11 : ℝ} (hg : g < ngrd) (hj : j < nyo) (hi : i < nxo)
    (hin : Spec.InCellOf lat1d lon1d nyi nxi (lat2d.get [j, i]) (lon2d.get [j, i]) jj ii)
    (h00 : Spec.datum (missing msg) fi g jj ii = some f00) (h01 : Spec.datum (missing msg) fi g jj (ii + 1) = some f01)
    (h10 : Spec.datum (missing msg) fi g (jj + 1) ii = some f10) (h11 : Spec.datum (missing msg) fi g (jj + 1) (ii + 1) = some f11)
    (hfin : f00 < huge ∧ f01 < huge ∧ f10 < huge ∧ f11 < huge) :
    out.get [g, j, i] = some (Spec.bilinear f00 f01 f10 f11
      ((lon2d.get [j, i] - lon1d.get [ii]) / (lon1d.get [ii + 1] - lon1d.get [ii]))
      ((lat2d.get [j, i] - lat1d.get [jj]) / (lat1d.get [jj + 1] - lat1d.get [jj]))) := by
  obtain ⟨-, hval⟩ := rgrid2rcm_at h hs
  obtain ⟨f, hf, hout⟩ := hval j i hj hi
  have hr := hin.row
  have hl := hin.col
  have q00 := fieldsOf_eq (g := g) (j := jj) (i := ii) hc (by rw [hs.fi, inB3]; omega)
  have q01 := fieldsOf_eq (g := g) (j := jj) (i := ii + 1) hc (by rw [hs.fi, inB3]; omega)
  have q10 := fieldsOf_eq (g := g) (j := jj + 1) (i := ii) hc (by rw [hs.fi, inB3]; omega)
  have q11 := fieldsOf_eq (g := g) (j := jj + 1) (i := ii + 1) hc (by rw [hs.fi, inB3]; omega)
  rw [h00] at q00; rw [h01] at q01; rw [h10] at q10; rw [h11] at q11
  rw [Option.getD_some] at q00 q01 q10 q11
  have eV : regVal (regOf (missing msg) lat1d lon1d fi nxi nyi ngrd) huge 1 0.001 f (lon2d.get [j, i]) (lat2d.get [j, i]) (g + 1) =
      Spec.bilinear f00 f01 f10 f11 ((lon2d.get [j, i] - lon1d.get [ii]) / (lon1d.get [ii + 1] - lon1d.get [ii]))
        ((lat2d.get [j, i] - lat1d.get [jj]) / (lat1d.get [jj + 1] - lat1d.get [jj])) := by
    rw [regVal_cell hf hin, regValue, if_neg (by simp)]
    simp only [regOf, q00, q01, q10, q11, Nat.add_sub_cancel]
    rw [if_pos ⟨hfin.1.ne, hfin.2.1.ne, hfin.2.2.1.ne, hfin.2.2.2.ne⟩, Spec.bilinear]
    ring
  have hlt : regVal (regOf (missing msg) lat1d lon1d fi nxi nyi ngrd) huge 1 0.001 f (lon2d.get [j, i]) (lat2d.get [j, i]) (g + 1) ≠ huge := by
    rw [regVal_cell hf hin]
    rcases regValue_between (R := regOf (missing msg) lat1d lon1d fi nxi nyi ngrd) (xmsg := huge) (ncrit := 1) (p := (ii + 1, jj + 1)) (ng := g + 1)
      (xo := lon2d.get [j, i]) (yo := lat2d.get [j, i]) ⟨hin.west, hin.east, hin.south, hin.north⟩ with c | ⟨q, hq, r, hr, -, -, c⟩
    · exfalso
      rw [← regVal_cell hf hin, eV] at c
      have hx : 0 < lon1d.get [ii + 1] - lon1d.get [ii] := by linarith [hin.incLon ii hin.col]
      have hy : 0 < lat1d.get [jj + 1] - lat1d.get [jj] := by linarith [hin.incLat jj hin.row]
      have s0 : 0 ≤ (lon2d.get [j, i] - lon1d.get [ii]) / (lon1d.get [ii + 1] - lon1d.get [ii]) := div_nonneg (by linarith [hin.west]) hx.le
      have s1 : (lon2d.get [j, i] - lon1d.get [ii]) / (lon1d.get [ii + 1] - lon1d.get [ii]) < 1 := by rw [div_lt_one hx]; linarith [hin.east]
      have t0 : 0 ≤ (lat2d.get [j, i] - lat1d.get [jj]) / (lat1d.get [jj + 1] - lat1d.get [jj]) := div_nonneg (by linarith [hin.south]) hy.le
      have t1 : (lat2d.get [j, i] - lat1d.get [jj]) / (lat1d.get [jj + 1] - lat1d.get [jj]) < 1 := by rw [div_lt_one hy]; linarith [hin.north]
      generalize (lon2d.get [j, i] - lon1d.get [ii]) / (lon1d.get [ii + 1] - lon1d.get [ii]) = s at *
      generalize (lat2d.get [j, i] - lat1d.get [jj]) / (lat1d.get [jj + 1] - lat1d.get [jj]) = t at *
      rw [Spec.bilinear] at c
      obtain ⟨k1, k2, k3, k4⟩ := hfin
      have w1 : 0 < (1 - s) * (1 - t) := mul_pos (by linarith) (by linarith)
      have w2 : 0 ≤ s * (1 - t) := mul_nonneg s0 (by linarith)
      have w3 : 0 ≤ (1 - s) * t := mul_nonneg (by linarith) t0
      have w4 : 0 ≤ s * t := mul_nonneg s0 t0
      have m1 := mul_lt_mul_of_pos_left k1 w1
      have m2 := mul_le_mul_of_nonneg_left k2.le w2
      have m3 := mul_le_mul_of_nonneg_left k3.le w3
      have m4 := mul_le_mul_of_nonneg_left k4.le w4
      have tot : (1 - s) * (1 - t) * huge + s * (1 - t) * huge + (1 - s) * t * huge + s * t * huge = huge := by ring
      linarith
    · refine ne_of_lt (lt_of_le_of_lt c ?_)
      simp only [cornersOf, List.mem_cons, List.not_mem_nil, or_false] at hr
      rcases hr with rfl | rfl | rfl | rfl <;> simp only [regOf, q00, q01, q10, q11]
      · exact hfin.1
      · exact hfin.2.1
      · exact hfin.2.2.1
      · exact hfin.2.2.2
  rw [hout g hg, decode_ne hlt, eV]

/-- C169, the end of the axes: a target on or east of the last longitude (or on or north of the last latitude) of an increasing source that
coincides with no source point is missing, whatever the data. -/
theorem C169_last_edge {lat1d lon1d : NDArr ℝ} {fi : NDArr V} {lat2d lon2d : NDArr ℝ} {ngrd nyi nxi nyo nxo : ℕ} {msg : Option V}
    {out after : NDArr V} (hs : Spec.RegShapes lat1d lon1d fi lat2d lon2d ngrd nyi nxi nyo nxo)
    (h : rgrid2rcm (some lat1d) (some lon1d) fi lat2d lon2d msg = .ok (out, after)) {g j i : ℕ} (hg : g < ngrd) (hj : j < nyo) (hi : i < nxo)
    (hlat : Spec.Increasing lat1d nyi) (hlon : Spec.Increasing lon1d nxi)
    (hedge : lon1d.get [nxi - 1] ≤ lon2d.get [j, i] ∨ lat1d.get [nyi - 1] ≤ lat2d.get [j, i])
    (hno : ∀ jj ii, jj < nyi → ii < nxi → ¬ Spec.AtReg lat1d lon1d (lat2d.get [j, i]) (lon2d.get [j, i]) jj ii) :
    out.get [g, j, i] = missing msg := by
  obtain ⟨-, hval⟩ := rgrid2rcm_at h hs
  obtain ⟨f, hf, hout⟩ := hval j i hj hi
  rw [hout g hg]
  cases regVal_prov (xmsg := huge) (ncrit := 1) (eps := 0.001) (ng := g + 1) hf with
  | missing e => rw [e, decode, if_pos rfl]
  | point p hp hn e =>
    rw [atReg_iff] at hn
    simp only [regOf] at hp
    exact absurd hn (hno _ _ (by omega) (by omega))
  | cell p hp hin e =>
    obtain ⟨n1, n2, n3, n4⟩ := hin
    simp only [regOf] at hp n2 n4
    exfalso
    have i1 : Inc nxi fun i => lon1d.get [i - 1] := inc_of.mp hlon
    have i2 : Inc nyi fun j => lat1d.get [j - 1] := inc_of.mp hlat
    rcases hedge with c | c
    · have := i1.le (i := p.1 + 1) (j := nxi) (by omega) (by omega) le_rfl
      linarith
    · have := i2.le (i := p.2 + 1) (j := nyi) (by omega) (by omega) le_rfl
      linarith

end Skyborn.Rcm
