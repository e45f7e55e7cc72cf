/-
The kernel of `rgrid2rcm` in closed form and the Python function on top of it.
-/
import Verif.Rcm.CurvProps3

namespace Skyborn.Rcm

open Classical

/-- The test of the kernel on the cell with lower left corner `p` of a rectilinear grid. -/
def InRegCell (R : Reg) (xo yo : ℝ) (p : ℕ × ℕ) : Prop := xo ≥ R.xi p.1 ∧ xo < R.xi (p.1 + 1) ∧ yo ≥ R.yi p.2 ∧ yo < R.yi (p.2 + 1)

theorem nearReg_eq {R : Reg} {xo yo eps : ℝ} {p : ℕ × ℕ} (h : (1 ≤ p.1 ∧ p.1 ≤ R.nx) ∧ (1 ≤ p.2 ∧ p.2 ≤ R.ny)) :
    nearReg R xo yo eps p = some (decide (Near R.src xo yo eps p)) := by
  rw [nearReg, rd_ok (a := R.xi) h.1.1 h.1.2, rd_ok (a := R.yi) h.2.1 h.2.2]
  simp only [bind, Option.bind, Near]
  exact congrArg some (decide_eq_decide.mpr Iff.rfl)

theorem cellReg_eq {R : Reg} {xo yo : ℝ} {p : ℕ × ℕ} (h : (1 ≤ p.1 ∧ p.1 + 1 ≤ R.nx) ∧ (1 ≤ p.2 ∧ p.2 + 1 ≤ R.ny)) :
    cellReg R xo yo p = some (decide (InRegCell R xo yo p)) := by
  rw [cellReg, rd_ok (a := R.xi) (i := p.1) (by omega) (by omega), rd_ok (a := R.xi) (i := p.1 + 1) (by omega) (by omega),
    rd_ok (a := R.yi) (i := p.2) (by omega) (by omega), rd_ok (a := R.yi) (i := p.2 + 1) (by omega) (by omega)]
  simp only [bind, Option.bind, InRegCell]
  exact congrArg some (decide_eq_decide.mpr Iff.rfl)

/-- The first cell of the whole grid that contains the output point. -/
noncomputable def regCell (R : Reg) (xo yo : ℝ) : Option (ℕ × ℕ) := (box 1 (R.nx - 1) 1 (R.ny - 1)).find? fun p => decide (InRegCell R xo yo p)

/-- The value interpolated in a cell. -/
noncomputable def regCellVal (R : Reg) (xmsg : ℝ) (ncrit : ℤ) (xo yo : ℝ) (c : Option (ℕ × ℕ)) (ng : ℕ) : ℝ :=
  c.elim xmsg fun p => regValue R xmsg ncrit xo yo p ng xmsg

/-- The full searches: one field. -/
noncomputable def regFullVal (R : Reg) (xmsg : ℝ) (ncrit : ℤ) (eps xo yo : ℝ) (ng : ℕ) : ℝ :=
  pick xmsg (hitVal R.src xmsg (firstNear R.src eps xo yo (allPoints R.src)) ng) (regCellVal R xmsg ncrit xo yo (regCell R xo yo) ng)

/-- The window of the exact search around the anchor. -/
def regWin (R : Reg) (a : ℕ × ℕ) : Win := ⟨max 1 a.1, min R.nx (a.1 + 1), max 1 a.2, min R.ny (a.2 + 1)⟩

/-- One field at one output point; `fast` is the anchor, if the axes increase. -/
noncomputable def regVal (R : Reg) (xmsg : ℝ) (ncrit : ℤ) (eps : ℝ) (fast : Option (ℕ × ℕ)) (xo yo : ℝ) (ng : ℕ) : ℝ :=
  match fast with
  | none => regFullVal R xmsg ncrit eps xo yo ng
  | some a => pick xmsg (hitVal R.src xmsg (firstNear R.src eps xo yo (regWin R a)) ng)
      (if InRegCell R xo yo a then regValue R xmsg ncrit xo yo a ng xmsg
        else if (firstNear R.src eps xo yo (regWin R a)).isSome then regCellVal R xmsg ncrit xo yo (regCell R xo yo) ng
        else regFullVal R xmsg ncrit eps xo yo ng)

theorem regValue_pick (R : Reg) (xmsg : ℝ) (ncrit : ℤ) (xo yo : ℝ) (p : ℕ × ℕ) (ng : ℕ) (old : ℝ) :
    regValue R xmsg ncrit xo yo p ng old = pick xmsg old (regValue R xmsg ncrit xo yo p ng xmsg) := by
  rw [pick]
  by_cases h : old ≠ xmsg
  · rw [if_pos h, regValue, if_pos h]
  · rw [if_neg h, not_not.mp h]

theorem interpReg_ok {R : Reg} {xmsg : ℝ} {ncrit : ℤ} {xo yo : ℝ} {p : ℕ × ℕ} {out : ℕ → ℝ}
    (hp : (1 ≤ p.1 ∧ p.1 + 1 ≤ R.nx) ∧ (1 ≤ p.2 ∧ p.2 + 1 ≤ R.ny)) :
    interpReg R xmsg ncrit xo yo p out = some fun ng => regValue R xmsg ncrit xo yo p ng (out ng) := by
  rw [interpReg, if_pos (inside_cell hp)]

theorem regNear_eq {R : Reg} {xo yo eps : ℝ} {w : Win} (h : (1 ≤ w.ixlo ∧ w.ixhi ≤ R.nx) ∧ (1 ≤ w.iylo ∧ w.iyhi ≤ R.ny)) :
    firstM (nearReg R xo yo eps) (box w.ixlo w.ixhi w.iylo w.iyhi) = some (firstNear R.src eps xo yo w) :=
  firstM_eq fun p hp => nearReg_eq (by rw [mem_box] at hp; omega)

theorem regCell_eq (R : Reg) (xo yo : ℝ) : firstM (cellReg R xo yo) (box 1 (R.nx - 1) 1 (R.ny - 1)) = some (regCell R xo yo) :=
  firstM_eq fun p hp => cellReg_eq (by rw [mem_box] at hp; omega)

theorem regFull_eq {R : Reg} {xmsg : ℝ} {ncrit : ℤ} {eps xo yo : ℝ} (hit : Bool) (out : ℕ → ℝ) :
    ∃ out', regFull R xmsg ncrit eps xo yo hit out = some out' ∧ ∀ ng, 1 ≤ ng → ng ≤ R.ngrd →
      out' ng = if hit = true ∨ firstNear R.src eps xo yo (allPoints R.src) = none then
          pick xmsg (out ng) (regCellVal R xmsg ncrit xo yo (regCell R xo yo) ng)
        else regFullVal R xmsg ncrit eps xo yo ng := by
  rw [regFull]
  have rest : ∀ (h : Option (ℕ × ℕ)) (o : ℕ → ℝ), ∃ out',
      (if h.isSome ∧ complete R.src xmsg o then some o
        else (firstM (cellReg R xo yo) (box 1 (R.nx - 1) 1 (R.ny - 1))).bind fun c => match c with
          | some p => interpReg R xmsg ncrit xo yo p o
          | none => some o) = some out' ∧ ∀ ng, 1 ≤ ng → ng ≤ R.ngrd →
        out' ng = pick xmsg (o ng) (regCellVal R xmsg ncrit xo yo (regCell R xo yo) ng) := by
    intro h o
    by_cases hc : h.isSome ∧ complete R.src xmsg o
    · rw [if_pos hc]
      exact ⟨o, rfl, fun ng h1 h2 => (pick_left (hc.2 ng h1 h2) _).symm⟩
    · rw [if_neg hc, regCell_eq, Option.bind_some]
      cases e : regCell R xo yo with
      | none => exact ⟨o, rfl, fun ng _ _ => (pick_right xmsg (o ng)).symm⟩
      | some p =>
        obtain ⟨h1, _⟩ := found e
        exact ⟨_, interpReg_ok (mem_cells h1), fun ng _ _ => regValue_pick ..⟩
  by_cases hh : hit = true
  · rw [if_pos hh]
    obtain ⟨o', e1, e2⟩ := rest none out
    refine ⟨o', e1, fun ng h1 h2 => ?_⟩
    rw [if_pos (Or.inl hh)]; exact e2 ng h1 h2
  · rw [if_neg hh]
    have en : firstM (nearReg R xo yo eps) (box 1 R.nx 1 R.ny) = some (firstNear R.src eps xo yo (allPoints R.src)) :=
      regNear_eq (w := ⟨1, R.nx, 1, R.ny⟩) ⟨⟨le_rfl, le_rfl⟩, le_rfl, le_rfl⟩
    rw [en]
    cases e : firstNear R.src eps xo yo (allPoints R.src) with
    | none =>
      obtain ⟨o', e1, e2⟩ := rest none out
      refine ⟨o', e1, fun ng h1 h2 => ?_⟩
      rw [if_pos (Or.inr rfl)]; exact e2 ng h1 h2
    | some p =>
      obtain ⟨h1, _⟩ := found e
      rw [mem_box] at h1
      simp only [bind, Option.bind_some]
      rw [copyPoint_ok h1]
      obtain ⟨o', e1, e2⟩ := rest (some p) fun ng => R.src.fi p.1 p.2 ng
      refine ⟨o', e1, fun ng h1 h2 => ?_⟩
      rw [if_neg (by simp [hh]), regFullVal, e]
      exact e2 ng h1 h2

/-- One output point in closed form: without the fast path. -/
theorem regPoint_slow (R : Reg) (xmsg : ℝ) (ncrit : ℤ) (eps xo yo : ℝ) : ∃ out, regPoint R xmsg ncrit eps false xo yo = some out ∧
    ∀ ng, 1 ≤ ng → ng ≤ R.ngrd → out ng = regVal R xmsg ncrit eps none xo yo ng := by
  rw [regPoint, if_neg (by simp)]
  obtain ⟨o, e1, e2⟩ := regFull_eq (R := R) (xmsg := xmsg) (ncrit := ncrit) (eps := eps) (xo := xo) (yo := yo) false fun _ => xmsg
  refine ⟨o, e1, fun ng h1 h2 => ?_⟩
  rw [e2 ng h1 h2]
  dsimp only [regVal]
  by_cases h : firstNear R.src eps xo yo (allPoints R.src) = none
  · rw [if_pos (Or.inr h), regFullVal, h]; rfl
  · rw [if_neg (by simp [h])]

/-- One output point in closed form: with the fast path. -/
theorem regPoint_fast {R : Reg} (hnx : 2 ≤ R.nx) (hny : 2 ≤ R.ny) (xmsg : ℝ) (ncrit : ℤ) (eps xo yo : ℝ) : ∃ ax ay out,
    Bracket R.nx R.xi xo ax ∧ Bracket R.ny R.yi yo ay ∧ regPoint R xmsg ncrit eps true xo yo = some out ∧
    ∀ ng, 1 ≤ ng → ng ≤ R.ngrd → out ng = regVal R xmsg ncrit eps (some (ax, ay)) xo yo ng := by
  obtain ⟨ax, ex, hax⟩ := lowerBracket_eq hnx R.xi xo
  obtain ⟨ay, ey, hay⟩ := lowerBracket_eq hny R.yi yo
  have hx := hax.1
  have hy := hay.1
  rw [regPoint, if_pos rfl, ex, ey]
  have en : firstM (nearReg R xo yo eps) (box (max 1 ax) (min R.nx (ax + 1)) (max 1 ay) (min R.ny (ay + 1))) =
      some (firstNear R.src eps xo yo (regWin R (ax, ay))) :=
    regNear_eq (w := regWin R (ax, ay)) (by simp only [regWin]; omega)
  simp only [bind, Option.bind_some]
  rw [en]
  have rest : ∀ (h : Option (ℕ × ℕ)) (o : ℕ → ℝ), (h = none → o = fun _ => xmsg) → ∃ out',
      (if h.isSome ∧ complete R.src xmsg o then some o
        else (cellReg R xo yo (ax, ay)).bind fun c => if c = true then interpReg R xmsg ncrit xo yo (ax, ay) o
          else regFull R xmsg ncrit eps xo yo h.isSome o) = some out' ∧ ∀ ng, 1 ≤ ng → ng ≤ R.ngrd →
        out' ng = pick xmsg (o ng) (if InRegCell R xo yo (ax, ay) then regValue R xmsg ncrit xo yo (ax, ay) ng xmsg
          else if h.isSome then regCellVal R xmsg ncrit xo yo (regCell R xo yo) ng else regFullVal R xmsg ncrit eps xo yo ng) := by
    intro h o ho
    by_cases hc : h.isSome ∧ complete R.src xmsg o
    · rw [if_pos hc]
      exact ⟨o, rfl, fun ng h1 h2 => (pick_left (hc.2 ng h1 h2) _).symm⟩
    · rw [if_neg hc, cellReg_eq (p := (ax, ay)) ⟨hx, hy⟩, Option.bind_some]
      by_cases hin : InRegCell R xo yo (ax, ay)
      · rw [if_pos (by simpa using hin)]
        refine ⟨_, interpReg_ok ⟨hx, hy⟩, fun ng _ _ => ?_⟩
        rw [if_pos hin, regValue_pick]
      · rw [if_neg (by simpa using hin)]
        obtain ⟨o', e1, e2⟩ := regFull_eq (R := R) (xmsg := xmsg) (ncrit := ncrit) (eps := eps) (xo := xo) (yo := yo) h.isSome o
        refine ⟨o', e1, fun ng h1 h2 => ?_⟩
        rw [e2 ng h1 h2, if_neg hin]
        cases h with
        | none =>
          rw [ho rfl]
          simp only [Option.isSome_none, Bool.false_eq_true, if_false, false_or]
          rw [pick_miss, pick_miss]
          by_cases hn : firstNear R.src eps xo yo (allPoints R.src) = none
          · rw [if_pos hn, regFullVal, hn]
            exact (pick_miss xmsg _).symm
          · rw [if_neg hn]
        | some p => simp
  dsimp only [regVal]
  cases e : firstNear R.src eps xo yo (regWin R (ax, ay)) with
  | none =>
    obtain ⟨o, e1, e2⟩ := rest none _ fun _ => rfl
    exact ⟨ax, ay, o, hax, hay, e1, by rw [e]; exact e2⟩
  | some p =>
    obtain ⟨h1, h2⟩ := found e
    rw [mem_box] at h1
    simp only [regWin] at h1
    rw [Option.bind_some]
    dsimp only
    rw [copyPoint_ok (S := R.src) (p := p) (by simp only [Reg.src]; omega)]
    obtain ⟨o, e1, e2⟩ := rest (some p) (fun ng => R.src.fi p.1 p.2 ng) fun hc => by simp at hc
    exact ⟨ax, ay, o, hax, hay, e1, by rw [e]; exact e2⟩

/-- The anchor the kernel uses at an output point: the brackets of an increasing pair of axes. -/
def RegFast (R : Reg) (xo yo : ℝ) (f : Option (ℕ × ℕ)) : Prop :=
  match f with
  | none => ¬ (Inc R.nx R.xi ∧ Inc R.ny R.yi)
  | some a => (Inc R.nx R.xi ∧ Inc R.ny R.yi) ∧ Bracket R.nx R.xi xo a.1 ∧ Bracket R.ny R.yi yo a.2

/-- The kernel of `rgrid2rcm`. -/
theorem drgrid2rcm_eq {R : Reg} {nyo nxo : ℕ} {yo xo : ℕ → ℕ → ℝ} {xmsg : ℝ} {ncrit : ℤ} (h1 : 2 ≤ R.nx) (h2 : 2 ≤ R.ny) (h3 : 2 ≤ nxo)
    (h4 : 2 ≤ nyo) : ∃ fo : ℕ → ℕ → ℕ → ℝ, drgrid2rcm R nyo nxo yo xo xmsg ncrit = some (.done fo) ∧
      ∀ i j, 1 ≤ i → i ≤ nxo → 1 ≤ j → j ≤ nyo → ∃ f, RegFast R (xo i j) (yo i j) f ∧
        ∀ ng, 1 ≤ ng → ng ≤ R.ngrd → fo i j ng = regVal R xmsg ncrit 0.001 f (xo i j) (yo i j) ng := by
  rw [drgrid2rcm, if_neg (show ¬ (R.nx ≤ 1 ∨ R.ny ≤ 1 ∨ nxo ≤ 1 ∨ nyo ≤ 1) by omega), isIncreasing_eq, isIncreasing_eq]
  simp only [bind, Option.bind_some]
  have hp : ∀ i j, ∃ f out, RegFast R (xo i j) (yo i j) f ∧
      regPoint R xmsg ncrit 0.001 (decide (Inc R.nx R.xi) && decide (Inc R.ny R.yi)) (xo i j) (yo i j) = some out ∧
      ∀ ng, 1 ≤ ng → ng ≤ R.ngrd → out ng = regVal R xmsg ncrit 0.001 f (xo i j) (yo i j) ng := by
    intro i j
    by_cases hf : Inc R.nx R.xi ∧ Inc R.ny R.yi
    · have e : (decide (Inc R.nx R.xi) && decide (Inc R.ny R.yi)) = true := by simpa using hf
      rw [e]
      obtain ⟨ax, ay, out, q1, q2, q3, q4⟩ := regPoint_fast h1 h2 xmsg ncrit 0.001 (xo i j) (yo i j)
      exact ⟨some (ax, ay), out, ⟨hf, q1, q2⟩, q3, q4⟩
    · have e : (decide (Inc R.nx R.xi) && decide (Inc R.ny R.yi)) = false := by
        rw [Bool.and_eq_false_iff]; simp only [decide_eq_false_iff_not]; tauto
      rw [e]
      obtain ⟨out, q3, q4⟩ := regPoint_slow R xmsg ncrit 0.001 (xo i j) (yo i j)
      exact ⟨none, out, hf, q3, q4⟩
  rw [if_pos (show ∀ nx ny, 1 ≤ nx → nx ≤ nxo → 1 ≤ ny → ny ≤ nyo →
      (regPoint R xmsg ncrit 0.001 (decide (Inc R.nx R.xi) && decide (Inc R.ny R.yi)) (xo nx ny) (yo nx ny)).isSome = true from
    fun i j _ _ _ _ => by obtain ⟨_, _, _, e, _⟩ := hp i j; rw [e]; rfl)]
  refine ⟨_, rfl, fun i j _ _ _ _ => ?_⟩
  obtain ⟨f, out, q1, e, q2⟩ := hp i j
  refine ⟨f, q1, fun ng g1 g2 => ?_⟩
  rw [e, ← q2 ng g1 g2]; rfl

/-! ### The Python function -/

/-- The shapes of the five arrays of `rgrid2rcm`, with the sizes the kernel accepts. -/
structure Spec.RegShapes (lat1d lon1d : NDArr ℝ) (fi : NDArr V) (lat2d lon2d : NDArr ℝ) (ngrd nyi nxi nyo nxo : ℕ) : Prop where
  lat1d : lat1d.shape = [nyi]
  lon1d : lon1d.shape = [nxi]
  fi : fi.shape = [ngrd, nyi, nxi]
  lat2d : lat2d.shape = [nyo, nxo]
  lon2d : lon2d.shape = [nyo, nxo]
  nyi : 2 ≤ nyi
  nxi : 2 ≤ nxi
  nyo : 2 ≤ nyo
  nxo : 2 ≤ nxo

/-- The source as the kernel sees it. -/
noncomputable def regOf (mp : V) (lat1d lon1d : NDArr ℝ) (fi : NDArr V) (nxi nyi ngrd : ℕ) : Reg :=
  ⟨nxi, nyi, ngrd, fun i => lon1d.get [i - 1], fun j => lat1d.get [j - 1], fieldsOf mp fi⟩

/-- `rgrid2rcm` succeeds on arrays of the right shapes. -/
theorem rgrid2rcm_ok {lat1d lon1d : NDArr ℝ} {fi : NDArr V} {lat2d lon2d : NDArr ℝ} {ngrd nyi nxi nyo nxo : ℕ}
    (hs : Spec.RegShapes lat1d lon1d fi lat2d lon2d ngrd nyi nxi nyo nxo) (msg : Option V) :
    ∃ out, rgrid2rcm (some lat1d) (some lon1d) fi lat2d lon2d msg = .ok (out, ⟨fi.shape, fun ix => encode (missing msg) (fi.get ix)⟩) ∧
      out.shape = [ngrd, nyo, nxo] ∧ ∀ j i, j < nyo → i < nxo → ∃ f,
        RegFast (regOf (missing msg) lat1d lon1d fi nxi nyi ngrd) (lon2d.get [j, i]) (lat2d.get [j, i]) f ∧ ∀ g, g < ngrd →
        out.get [g, j, i] = decode (missing msg)
          (regVal (regOf (missing msg) lat1d lon1d fi nxi nyi ngrd) huge 1 0.001 f (lon2d.get [j, i]) (lat2d.get [j, i]) (g + 1)) := by
  obtain ⟨fo, e, hfo⟩ := drgrid2rcm_eq (R := regOf (missing msg) lat1d lon1d fi nxi nyi ngrd) (nyo := nyo) (nxo := nxo)
    (yo := fun i j => lat2d.get [j - 1, i - 1]) (xo := fun i j => lon2d.get [j - 1, i - 1]) (xmsg := huge) (ncrit := 1) hs.nxi hs.nyi hs.nxo hs.nyo
  rw [regOf] at e
  rw [rgrid2rcm]
  simp only [hs.lat2d, hs.lon2d, hs.fi, hs.lat1d, hs.lon1d]
  rw [if_neg (by simp), if_neg (by simp), e]
  refine ⟨_, rfl, rfl, fun j i hj hi => ?_⟩
  obtain ⟨f, q1, q2⟩ := hfo (i + 1) (j + 1) (by omega) (by omega) (by omega) (by omega)
  simp only [Nat.add_sub_cancel] at q1 q2
  refine ⟨f, q1, fun g hg => ?_⟩
  rw [← q2 (g + 1) (by omega) (by exact hg)]
  simp

/-- What success of `rgrid2rcm` tells about its arguments. -/
theorem rgrid2rcm_shapes {a b : Option (NDArr ℝ)} {fi : NDArr V} {lat2d lon2d : NDArr ℝ} {msg : Option V} {r : NDArr V × NDArr V}
    (h : rgrid2rcm a b fi lat2d lon2d msg = .ok r) : ∃ lat1d lon1d ngrd nyi nxi nyo nxo, a = some lat1d ∧ b = some lon1d ∧
      Spec.RegShapes lat1d lon1d fi lat2d lon2d ngrd nyi nxi nyo nxo := by
  cases a with
  | none => simp [rgrid2rcm] at h
  | some lat1d =>
    cases b with
    | none => simp [rgrid2rcm] at h
    | some lon1d =>
      rw [rgrid2rcm] at h
      dsimp only at h
      split at h
      next nyi nxi ngrd fy fx nyo nxo nyo' nxo' e1 e2 e3 e4 e5 =>
        by_cases c1 : fx ≠ nxi ∨ fy ≠ nyi
        · rw [if_pos c1] at h; cases h
        rw [if_neg c1] at h
        by_cases c2 : nxo' ≠ nxo ∨ nyo' ≠ nyo
        · rw [if_pos c2] at h; cases h
        rw [if_neg c2] at h
        push Not at c1 c2
        obtain ⟨rfl, rfl⟩ := c1
        obtain ⟨rfl, rfl⟩ := c2
        by_cases c4 : fx ≤ 1 ∨ fy ≤ 1 ∨ nxo' ≤ 1 ∨ nyo' ≤ 1
        · rw [drgrid2rcm] at h
          simp only [c4, if_true] at h
          cases h
        · exact ⟨lat1d, lon1d, ngrd, fy, fx, nyo', nxo', rfl, rfl, e1, e2, e3, e4, e5, by omega, by omega, by omega, by omega⟩
      next => cases h

end Skyborn.Rcm
