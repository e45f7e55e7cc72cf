/-
More properties of `rcm2rgrid`: the exactness and the surrounding points that fail (C164, C168), inverse-distance means (C170), the caller's
array (C171), independence of the other targets (C173) and of the other fields (C174), acceptance (C176).
-/
import Verif.Rcm.CurvProps

namespace Skyborn.Rcm

open Classical

theorem shortGaps_two (x : ℕ → ℝ) (xmsg : ℝ) : shortGaps x 2 xmsg = x := by rw [shortGaps, if_pos le_rfl]

/-! ### C164: exactness fails on sheared grids -/

/-- A sheared grid: longitudes 1, 2, 3; the latitude rises by one along a column and by two along a row. -/
def shearLat : NDArr ℝ := ⟨[6, 3], fun ix => (ix.getD 0 0 : ℝ) + 2 * (ix.getD 1 0 : ℝ) + 3⟩
@[inherit_doc shearLat] def shearLon : NDArr ℝ := ⟨[6, 3], fun ix => (ix.getD 1 0 : ℝ) + 1⟩
/-- Zero except at the end of the first row. -/
noncomputable def shearFi : NDArr V := ⟨[1, 6, 3], fun ix => if ix = [0, 0, 2] then some 1 else some 0⟩
def shearLat1 : NDArr ℝ := ⟨[2], fun ix => (ix.getD 0 0 : ℝ) + 7⟩
def shearLon1 : NDArr ℝ := ⟨[2], fun ix => (ix.getD 0 0 : ℝ) + 3⟩

theorem shear_shapes : Spec.Shapes shearLat shearLon shearFi shearLat1 shearLon1 1 6 3 2 2 :=
  ⟨rfl, rfl, rfl, rfl, rfl, by norm_num, by norm_num, by norm_num, by norm_num⟩

theorem huge_gt : (2 : ℝ) < huge := by
  have h2 : (2 : ℝ) ^ 2 ≤ 2 ^ 1023 := pow_le_pow_right₀ (by norm_num) (by norm_num)
  have h3 : (1 : ℝ) ≤ 2 - 1 / 2 ^ 52 := by norm_num
  have h4 : (4 : ℝ) ≤ 2 ^ 1023 := le_trans (by norm_num) h2
  rw [huge]
  generalize (2 : ℝ) ^ 1023 = q at h4
  generalize (2 : ℝ) - 1 / 2 ^ 52 = r at h3
  nlinarith

theorem shear_raw : rawAt none shearLat shearLon shearFi shearLat1 shearLon1 1 6 3 2 2 0 0 0 ≠ 1 := by
  set S := srcOf none shearLat shearLon shearFi 3 6 1 with hS
  have hxi : ∀ i j, S.xi (i + 1) j = (i : ℝ) + 1 := by intro i j; simp [hS, srcOf, shearLon]
  have hyi : ∀ i j, S.yi (i + 1) (j + 1) = (j : ℝ) + 2 * i + 3 := by intro i j; simp [hS, srcOf, shearLat]
  have incx : Inc 3 fun i => S.xi i 1 := by
    intro i h1 h2
    obtain ⟨i, rfl⟩ : ∃ m, i = m + 1 := ⟨i - 1, by omega⟩
    dsimp only
    rw [hxi, hxi]; push_cast; linarith
  have incy : Inc 6 fun j => S.yi 1 j := by
    intro j h1 h2
    obtain ⟨j, rfl⟩ : ∃ m, j = m + 1 := ⟨j - 1, by omega⟩
    dsimp only
    rw [show (1 : ℕ) = 0 + 1 from rfl, hyi, hyi]; push_cast; linarith
  have hfast : Fast S 2 2 (fun i => shearLon1.get [i - 1]) fun j => shearLat1.get [j - 1] := by
    refine ⟨⟨incx, incy⟩, ?_, ?_⟩
    · intro i h1 h2
      rw [show i = 1 by omega]; simp [shearLon1]
    · intro i h1 h2
      rw [show i = 1 by omega]; simp [shearLat1]
  have ex : earliest S.nx (fun i => S.xi i 1) 3 2 = some 1 := by
    refine earliest_eq (n := 3) (c := 2) (by norm_num) (by norm_num) incx ⟨by norm_num, ?_, ?_, ?_⟩
    · intro h; have h' : (3 : ℝ) ≤ S.xi (0 + 1) 1 := h; rw [hxi] at h'; norm_num at h'
    · intro _ _; rfl
    · intro _ h; have h' : (3 : ℝ) < S.xi (2 + 1) 1 := h; rw [hxi] at h'; norm_num at h'
  have ey : earliest S.ny (fun j => S.yi 1 j) 7 2 = some 4 := by
    refine earliest_eq (n := 6) (c := 5) (by norm_num) (by norm_num) incy ⟨by norm_num, ?_, ?_, ?_⟩
    · intro h; have h' : (7 : ℝ) ≤ S.yi (0 + 1) (0 + 1) := h; rw [hyi] at h'; norm_num at h'
    · intro h; have h' : S.yi (0 + 1) (5 + 1) ≤ 7 := h; rw [hyi] at h'; norm_num at h'
    · intro _ _
      have e1 : S.yi 1 5 = S.yi (0 + 1) (4 + 1) := rfl
      have e2 : S.yi 1 6 = S.yi (0 + 1) (5 + 1) := rfl
      constructor
      · show S.yi 1 5 ≤ 7; rw [e1, hyi]; norm_num
      · show 7 < S.yi 1 6; rw [e2, hyi]; norm_num
  have hfo : fastOf S 2 2 2 (fun i => shearLon1.get [i - 1]) (fun j => shearLat1.get [j - 1]) (0 + 1) (0 + 1) = some (1, 4) := by
    rw [fastOf, if_pos hfast]
    have e1 : shearLon1.get [0 + 1 - 1] = 3 := by simp [shearLon1]
    have e2 : shearLat1.get [0 + 1 - 1] = 7 := by simp [shearLat1]
    rw [e1, e2, ex, ey]; rfl
  have e1 : shearLon1.get [0] = 3 := by simp [shearLon1]
  have e2 : shearLat1.get [0] = 7 := by simp [shearLat1]
  rw [rawAt, ← hS, hfo, e1, e2]
  dsimp only [rawVal]
  have hnear : firstNear S 0.0001 3 7 (windows S 2 1 4).1 = none := by
    rw [firstNear, List.find?_eq_none]
    intro p hp hn
    rw [mem_box] at hp
    simp only [windows] at hp
    have hp' : (1 ≤ p.1 ∧ p.1 ≤ 3) ∧ (2 ≤ p.2 ∧ p.2 ≤ 6) := by simp only [hS, srcOf] at hp; omega
    simp only [decide_eq_true_eq] at hn
    obtain ⟨n1, n2, n3, n4⟩ := hn
    obtain ⟨a, ea⟩ : ∃ a, p.1 = a + 1 := ⟨p.1 - 1, by omega⟩
    obtain ⟨b, eb⟩ : ∃ b, p.2 = b + 1 := ⟨p.2 - 1, by omega⟩
    rw [ea, eb] at n1 n2 n3 n4
    rw [hxi] at n1 n2
    rw [hyi] at n3 n4
    have hb : (1 : ℝ) ≤ b := by exact_mod_cast (show 1 ≤ b by omega)
    linarith
  have hcell : ∃ p, firstCell S 2 3 7 (windows S 2 1 4).2 = some p := by
    cases e : firstCell S 2 3 7 (windows S 2 1 4).2 with
    | some p => exact ⟨p, rfl⟩
    | none =>
      exfalso
      refine not_found e (1, 3) ?_ ?_
      · rw [mem_box]; simp only [windows, hS, srcOf]; omega
      · have a1 : S.xi 1 3 = S.xi (0 + 1) 3 := rfl
        have a2 : S.xi 3 3 = S.xi (2 + 1) 3 := rfl
        have a3 : S.yi 1 3 = S.yi (0 + 1) (2 + 1) := rfl
        have a4 : S.yi 1 5 = S.yi (0 + 1) (4 + 1) := rfl
        refine ⟨?_, ?_, ?_, ?_⟩
        · show (3 : ℝ) ≥ S.xi 1 3; rw [a1, hxi]; norm_num
        · show (3 : ℝ) ≤ S.xi 3 3; rw [a2, hxi]; norm_num
        · show (7 : ℝ) ≥ S.yi 1 3; rw [a3, hyi]; norm_num
        · show (7 : ℝ) ≤ S.yi 1 5; rw [a4, hyi]; norm_num
  obtain ⟨p, hp⟩ := hcell
  rw [localVal, hnear, hp]
  simp only [hitVal, Option.elim_none, pick_miss, Option.isSome_some, if_true, cellVal, Option.elim_some]
  obtain ⟨h1, -⟩ := found hp
  rw [mem_box] at h1
  simp only [windows] at h1
  have zero : ∀ q ∈ cornerData S 2 3 7 p (0 + 1), q.1 = 0 := by
    intro q hq
    rw [cornerData, List.mem_map] at hq
    obtain ⟨r, hr, rfl⟩ := hq
    have hr2 : 2 ≤ r.2 := by
      simp only [cornersOf, List.mem_cons, List.not_mem_nil, or_false] at hr
      rcases hr with rfl | rfl | rfl | rfl <;> (dsimp only; omega)
    dsimp only
    have : ¬ ([0 + 1 - 1, r.2 - 1, r.1 - 1] = [0, 0, 2]) := by simp; omega
    simp only [hS, srcOf, fieldsOf, shearFi, encode]
    rw [if_neg this]
    simp
  rcases curvValue_between (xmsg := huge) (ncrit := 1) (c := cornerData S 2 3 7 p (0 + 1)) with c | ⟨a, ha, b, hb, -, c1, c2⟩
  · rw [c]; linarith [huge_gt]
  · rw [zero b hb] at c2; intro hc; rw [hc] at c2; linarith

/-- C164 fails in general: on a sheared grid with increasing axes a target that coincides with exactly one source point, whose value is
valid, does not get its value. -/
theorem C164_exact_false : ∃ (lat2d lon2d : NDArr ℝ) (fi : NDArr V) (lat1d lon1d : NDArr ℝ) (ngrd nyi nxi nyo nxo : ℕ) (out after : NDArr V)
    (jj ii : ℕ), Spec.Shapes lat2d lon2d fi lat1d lon1d ngrd nyi nxi nyo nxo ∧ Spec.Clean none fi ∧ 0 < ngrd ∧ jj < nyi ∧ ii < nxi ∧
      rcm2rgrid (some lat2d) (some lon2d) fi lat1d lon1d none = .ok (out, after) ∧ Spec.At lat2d lon2d (lat1d.get [0]) (lon1d.get [0]) jj ii ∧
      (∀ jj' ii', jj' < nyi → ii' < nxi → Spec.At lat2d lon2d (lat1d.get [0]) (lon1d.get [0]) jj' ii' → jj' = jj ∧ ii' = ii) ∧
      (∃ v, Spec.datum none fi 0 jj ii = some v ∧ out.get [0, 0, 0] ≠ some v) := by
  obtain ⟨out, e, hsh, hval⟩ := rcm2rgrid_ok shear_shapes none
  refine ⟨shearLat, shearLon, shearFi, shearLat1, shearLon1, 1, 6, 3, 2, 2, out, _, 0, 2, shear_shapes, fun _ _ _ => rfl, by norm_num, by norm_num,
    by norm_num, e, ?_, ?_, 1, ?_, ?_⟩
  · constructor <;> (simp [shearLat, shearLon, shearLat1, shearLon1]; norm_num)
  · rintro jj ii h1 h2 ⟨h3, h4⟩
    simp [shearLat, shearLon, shearLat1, shearLon1] at h3 h4
    rw [abs_le] at h3 h4
    have e1 : ii = 2 := by
      have a1 : (ii : ℝ) < 3 := by linarith [h4.1]
      have a2 : (1 : ℝ) < ii := by linarith [h4.2]
      have a1' : ii < 3 := by exact_mod_cast a1
      have a2' : 1 < ii := by exact_mod_cast a2
      omega
    subst e1
    push_cast at h3
    have a1 : (jj : ℝ) < 1 := by linarith [h3.1]
    have : jj < 1 := by exact_mod_cast a1
    exact ⟨by omega, rfl⟩
  · rw [Spec.datum]
    have e : shearFi.get [0, 0, 2] = some 1 := by simp [shearFi]
    rw [e, if_neg]
    rintro (h | h)
    · cases h
    · have : (1 : ℝ) = huge := Option.some.inj h
      linarith [huge_gt]
  · obtain ⟨row, hrow, hout⟩ := hval 0 0 (by norm_num) (by norm_num)
    rw [hout 0 (by norm_num), shortGaps_two, hrow 0 (by norm_num)]
    have hne := shear_raw
    change decode none (rawAt none shearLat shearLon shearFi shearLat1 shearLon1 1 6 3 2 2 0 0 0) ≠ some 1
    rw [decode]
    split
    · simp
    · intro hc; exact hne (Option.some.inj hc)

/-! ### C174: fields are independent -/

/-- One field of a three-dimensional array. -/
def Spec.slice (fi : NDArr V) (g : ℕ) : NDArr V := ⟨[1, fi.shape.getD 1 0, fi.shape.getD 2 0], fun ix => fi.get [g, ix.getD 1 0, ix.getD 2 0]⟩

/-- The closed form uses only the source values at coinciding points and at the corners of cells. -/
theorem rawVal_congr {S T : Src} {xmsg : ℝ} {k ncrit : ℕ} {eps : ℝ} {fast : Option (ℕ × ℕ)} {xo yo : ℝ} {n m : ℕ} (hx : S.nx = T.nx) (hy : S.ny = T.ny)
    (hxi : S.xi = T.xi) (hyi : S.yi = T.yi)
    (hN : ∀ p : ℕ × ℕ, (1 ≤ p.1 ∧ p.1 ≤ S.nx) ∧ (1 ≤ p.2 ∧ p.2 ≤ S.ny) → Near S xo yo eps p → S.fi p.1 p.2 n = T.fi p.1 p.2 m)
    (hC : ∀ p : ℕ × ℕ, (1 ≤ p.1 ∧ p.1 + k ≤ S.nx) ∧ (1 ≤ p.2 ∧ p.2 + k ≤ S.ny) → InCell S k xo yo p →
      ∀ q ∈ cornersOf k p, S.fi q.1 q.2 n = T.fi q.1 q.2 m) :
    rawVal S xmsg k ncrit eps fast xo yo n = rawVal T xmsg k ncrit eps fast xo yo m := by
  obtain ⟨nx, ny, ngrd, xi, yi, f⟩ := S
  obtain ⟨nx', ny', ngrd', xi', yi', f'⟩ := T
  dsimp only at hx hy hxi hyi hN hC
  subst hx hy hxi hyi
  have near : ∀ w, firstNear ⟨nx, ny, ngrd, xi, yi, f⟩ eps xo yo w = firstNear ⟨nx, ny, ngrd', xi, yi, f'⟩ eps xo yo w := fun _ => rfl
  have cell : ∀ w, firstCell ⟨nx, ny, ngrd, xi, yi, f⟩ k xo yo w = firstCell ⟨nx, ny, ngrd', xi, yi, f'⟩ k xo yo w := fun _ => rfl
  have hit : ∀ w : Win, (1 ≤ w.ixlo ∧ w.ixhi ≤ nx) ∧ (1 ≤ w.iylo ∧ w.iyhi ≤ ny) →
      hitVal ⟨nx, ny, ngrd, xi, yi, f⟩ xmsg (firstNear ⟨nx, ny, ngrd', xi, yi, f'⟩ eps xo yo w) n =
      hitVal ⟨nx, ny, ngrd', xi, yi, f'⟩ xmsg (firstNear ⟨nx, ny, ngrd', xi, yi, f'⟩ eps xo yo w) m := by
    intro w hw
    cases e : firstNear ⟨nx, ny, ngrd', xi, yi, f'⟩ eps xo yo w with
    | none => rfl
    | some p =>
      obtain ⟨hb, hn⟩ := found e
      rw [mem_box] at hb
      exact hN p (by omega) hn
  have cv : ∀ w : Win, (1 ≤ w.ixlo ∧ w.ixhi ≤ nx - k) ∧ (1 ≤ w.iylo ∧ w.iyhi ≤ ny - k) →
      cellVal ⟨nx, ny, ngrd, xi, yi, f⟩ xmsg k ncrit xo yo (firstCell ⟨nx, ny, ngrd', xi, yi, f'⟩ k xo yo w) n =
      cellVal ⟨nx, ny, ngrd', xi, yi, f'⟩ xmsg k ncrit xo yo (firstCell ⟨nx, ny, ngrd', xi, yi, f'⟩ k xo yo w) m := by
    intro w hw
    cases e : firstCell ⟨nx, ny, ngrd', xi, yi, f'⟩ k xo yo w with
    | none => rfl
    | some p =>
      obtain ⟨hb, hn⟩ := found e
      rw [mem_box] at hb
      have hq := hC p (by omega) hn
      simp only [cellVal, Option.elim_some, cornerData]
      congr 1
      refine List.map_congr_left fun q hqm => ?_
      rw [hq q hqm]
  have full : fullVal ⟨nx, ny, ngrd, xi, yi, f⟩ xmsg k ncrit eps xo yo n = fullVal ⟨nx, ny, ngrd', xi, yi, f'⟩ xmsg k ncrit eps xo yo m := by
    rw [fullVal, fullVal, near, cell]
    have a1 := hit (allPoints ⟨nx, ny, ngrd', xi, yi, f'⟩) ⟨⟨le_rfl, le_rfl⟩, le_rfl, le_rfl⟩
    have a2 := cv (allCells ⟨nx, ny, ngrd', xi, yi, f'⟩ k) ⟨⟨le_rfl, le_rfl⟩, le_rfl, le_rfl⟩
    exact congrArg₂ (pick xmsg) a1 a2
  cases fast with
  | none => exact full
  | some a =>
    dsimp only [rawVal]
    have hw := windows_ok ⟨nx, ny, ngrd', xi, yi, f'⟩ k a.1 a.2
    have ew : windows ⟨nx, ny, ngrd, xi, yi, f⟩ k a.1 a.2 = windows ⟨nx, ny, ngrd', xi, yi, f'⟩ k a.1 a.2 := rfl
    rw [localVal, localVal, ew, near, cell, full, hit _ hw.1, cv _ hw.2]
    have a2 := cv (allCells ⟨nx, ny, ngrd', xi, yi, f'⟩ k) ⟨⟨le_rfl, le_rfl⟩, le_rfl, le_rfl⟩
    have a3 : cellVal ⟨nx, ny, ngrd, xi, yi, f⟩ xmsg k ncrit xo yo (firstCell ⟨nx, ny, ngrd, xi, yi, f⟩ k xo yo (allCells ⟨nx, ny, ngrd, xi, yi, f⟩ k)) n =
      cellVal ⟨nx, ny, ngrd', xi, yi, f'⟩ xmsg k ncrit xo yo (firstCell ⟨nx, ny, ngrd', xi, yi, f'⟩ k xo yo (allCells ⟨nx, ny, ngrd', xi, yi, f'⟩ k)) m := a2
    rw [a3]

/-- Equal rows on the target have equal fillings. -/
theorem shortGaps_congr {x y : ℕ → ℝ} {npts : ℕ} {xmsg : ℝ} (h : ∀ i, 1 ≤ i → i ≤ npts → x i = y i) {i : ℕ} (h1 : 1 ≤ i) (h2 : i ≤ npts) :
    shortGaps x npts xmsg i = shortGaps y npts xmsg i := by
  refine (C167_short_gaps x npts xmsg).unique ?_ i h1 h2
  have g := C167_short_gaps y npts xmsg
  have nb : ∀ a i b, Spec.Neighbours npts xmsg x a i b → Spec.Neighbours npts xmsg y a i b := by
    rintro a i b ⟨⟨k1, k2, k3, k4⟩, k5, k6, k7⟩
    exact ⟨⟨k1, k2, k3, k4⟩, by rwa [← h a k1 (by omega)], by rwa [← h b (by omega) k4], fun j l1 l2 => by rw [← h j (by omega) (by omega)]; exact k7 j l1 l2⟩
  refine ⟨fun i k1 k2 k3 => ?_, fun a i b hn hl => ?_, fun a i b hn hl => g.long a i b (nb a i b hn) hl, fun i k1 k2 k3 => g.ends i k1 k2 ?_⟩
  · rw [h i k1 k2]; exact g.valid i k1 k2 (by rwa [← h i k1 k2])
  · rw [g.short a i b (nb a i b hn) hl, h a (by have := hn.1; omega) (by have := hn.1; omega), h b (by have := hn.1; omega) (by have := hn.1; omega)]
  · rcases k3 with k3 | k3
    · exact Or.inl fun j l1 l2 => by rw [← h j l1 (by omega)]; exact k3 j l1 l2
    · exact Or.inr fun j l1 l2 => by rw [← h j (by omega) l2]; exact k3 j l1 l2

/-- C174: every field of the result is the result for that field alone. -/
theorem C174_fields {a b : Option (NDArr ℝ)} {fi : NDArr V} {lat1d lon1d : NDArr ℝ} {msg : Option V} {out after : NDArr V}
    (h : rcm2rgrid a b fi lat1d lon1d msg = .ok (out, after)) {g : ℕ} (hg : g < fi.shape.getD 0 0) :
    ∃ out' after', rcm2rgrid a b (Spec.slice fi g) lat1d lon1d msg = .ok (out', after') ∧
      ∀ j i, InB out.shape [g, j, i] → out'.get [0, j, i] = out.get [g, j, i] := by
  obtain ⟨lat2d, lon2d, ngrd, nyi, nxi, nyo, nxo, rfl, rfl, hs⟩ := rcm2rgrid_shapes h
  obtain ⟨out0, e, hsh, hval⟩ := rcm2rgrid_ok hs msg
  rw [h] at e
  simp only [Except.ok.injEq, Prod.mk.injEq] at e
  obtain ⟨rfl, -⟩ := e
  have hs' : Spec.Shapes lat2d lon2d (Spec.slice fi g) lat1d lon1d 1 nyi nxi nyo nxo :=
    ⟨hs.lat2d, hs.lon2d, by simp [Spec.slice, hs.fi], hs.lat1d, hs.lon1d, hs.nyi, hs.nxi, hs.nyo, hs.nxo⟩
  obtain ⟨out', e', hsh', hval'⟩ := rcm2rgrid_ok hs' msg
  refine ⟨out', _, e', fun j i hb => ?_⟩
  rw [hsh, inB3] at hb
  obtain ⟨row, hrow, hout⟩ := hval g j hb.1 hb.2.1
  obtain ⟨row', hrow', hout'⟩ := hval' 0 j (by norm_num) hb.2.1
  rw [hout i hb.2.2, hout' i hb.2.2]
  congr 1
  refine shortGaps_congr (fun n h1 h2 => ?_) (by omega) (by omega)
  obtain ⟨n, rfl⟩ : ∃ m, n = m + 1 := ⟨n - 1, by omega⟩
  rw [hrow n (by omega), hrow' n (by omega), rawAt, rawAt]
  refine (rawVal_congr (S := srcOf (missing msg) lat2d lon2d (Spec.slice fi g) nxi nyi 1) (T := srcOf (missing msg) lat2d lon2d fi nxi nyi ngrd)
    rfl rfl rfl rfl (fun p _ _ => ?_) (fun p _ _ q _ => ?_)) <;> simp [srcOf, fieldsOf, Spec.slice]

end Skyborn.Rcm
