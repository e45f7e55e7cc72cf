/-
The kernel of `rcm2rgrid` in closed form, one field and one output point at a time, and the Python function on top of it.
-/
import Verif.Rcm.Curv

namespace Skyborn.Rcm

open Classical

/-- The value copied from a grid point. -/
noncomputable def hitVal (S : Src) (xmsg : ℝ) (h : Option (ℕ × ℕ)) (ng : ℕ) : ℝ := h.elim xmsg fun p => S.fi p.1 p.2 ng

/-- The value interpolated in a cell. -/
noncomputable def cellVal (S : Src) (xmsg : ℝ) (k ncrit : ℕ) (xo yo : ℝ) (c : Option (ℕ × ℕ)) (ng : ℕ) : ℝ :=
  c.elim xmsg fun p => curvValue xmsg ncrit (cornerData S k xo yo p ng) xmsg

/-- The first of two values that is not missing. -/
noncomputable def pick (xmsg a b : ℝ) : ℝ := if a ≠ xmsg then a else b

/-- The first grid point of a box at the place of the output point. -/
noncomputable def firstNear (S : Src) (eps xo yo : ℝ) (w : Win) : Option (ℕ × ℕ) :=
  (box w.ixlo w.ixhi w.iylo w.iyhi).find? fun p => decide (Near S xo yo eps p)

/-- The first cell of a box that contains the output point. -/
noncomputable def firstCell (S : Src) (k : ℕ) (xo yo : ℝ) (w : Win) : Option (ℕ × ℕ) :=
  (box w.ixlo w.ixhi w.iylo w.iyhi).find? fun p => decide (InCell S k xo yo p)

/-- The whole grid, and all its cells. -/
def allPoints (S : Src) : Win := ⟨1, S.nx, 1, S.ny⟩
@[inherit_doc allPoints] def allCells (S : Src) (k : ℕ) : Win := ⟨1, S.nx - k, 1, S.ny - k⟩

/-- The full searches: one field. -/
noncomputable def fullVal (S : Src) (xmsg : ℝ) (k ncrit : ℕ) (eps xo yo : ℝ) (ng : ℕ) : ℝ :=
  pick xmsg (hitVal S xmsg (firstNear S eps xo yo (allPoints S)) ng) (cellVal S xmsg k ncrit xo yo (firstCell S k xo yo (allCells S k)) ng)

/-- The searches in windows: one field. -/
noncomputable def localVal (S : Src) (xmsg : ℝ) (k ncrit : ℕ) (eps : ℝ) (w : Win × Win) (xo yo : ℝ) (ng : ℕ) : ℝ :=
  pick xmsg (hitVal S xmsg (firstNear S eps xo yo w.1) ng)
    (if (firstCell S k xo yo w.2).isSome then cellVal S xmsg k ncrit xo yo (firstCell S k xo yo w.2) ng
      else if (firstNear S eps xo yo w.1).isSome then cellVal S xmsg k ncrit xo yo (firstCell S k xo yo (allCells S k)) ng
      else fullVal S xmsg k ncrit eps xo yo ng)

/-- One field at one output point. -/
noncomputable def rawVal (S : Src) (xmsg : ℝ) (k ncrit : ℕ) (eps : ℝ) (fast : Option (ℕ × ℕ)) (xo yo : ℝ) (ng : ℕ) : ℝ :=
  match fast with
  | none => fullVal S xmsg k ncrit eps xo yo ng
  | some a => localVal S xmsg k ncrit eps (windows S k a.1 a.2) xo yo ng

theorem curvValue_pick (xmsg : ℝ) (ncrit : ℕ) (c : List (ℝ × ℝ)) (old : ℝ) :
    curvValue xmsg ncrit c old = pick xmsg old (curvValue xmsg ncrit c xmsg) := by
  rw [pick]
  by_cases h : old ≠ xmsg
  · rw [if_pos h, curvValue, if_pos h]
  · rw [if_neg h, not_not.mp h]

theorem pick_left {xmsg a : ℝ} (h : a ≠ xmsg) (b : ℝ) : pick xmsg a b = a := if_pos h
theorem pick_miss (xmsg b : ℝ) : pick xmsg xmsg b = b := if_neg (by simp)
theorem pick_right (xmsg a : ℝ) : pick xmsg a xmsg = a := by
  by_cases h : a = xmsg
  · rw [h, pick_miss]
  · exact pick_left h _

/-- After an exact hit or none: keep what is complete, else search a cell. -/
theorem curvFull_eq {S : Src} {xmsg : ℝ} {k ncrit : ℕ} {eps xo yo : ℝ} (hit : Bool) (out : ℕ → ℝ) :
    ∃ out', curvFull S xmsg k ncrit eps xo yo hit out = some out' ∧ ∀ ng, 1 ≤ ng → ng ≤ S.ngrd →
      out' ng = if hit = true ∨ firstNear S eps xo yo (allPoints S) = none then
          pick xmsg (out ng) (cellVal S xmsg k ncrit xo yo (firstCell S k xo yo (allCells S k)) ng)
        else fullVal S xmsg k ncrit eps xo yo ng := by
  rw [curvFull]
  have rest : ∀ (h : Option (ℕ × ℕ)) (o : ℕ → ℝ), ∃ out',
      (if h.isSome ∧ complete S xmsg o then some o
        else (cellFull S k xo yo).bind fun c => match c with
          | some p => interpCurv S xmsg k ncrit xo yo p o
          | none => some o) = some out' ∧ ∀ ng, 1 ≤ ng → ng ≤ S.ngrd →
        out' ng = pick xmsg (o ng) (cellVal S xmsg k ncrit xo yo (firstCell S k xo yo (allCells S k)) ng) := by
    intro h o
    by_cases hc : h.isSome ∧ complete S xmsg o
    · rw [if_pos hc]
      exact ⟨o, rfl, fun ng h1 h2 => (pick_left (hc.2 ng h1 h2) _).symm⟩
    · rw [if_neg hc, cellFull_eq, Option.bind_some]
      change ∃ out', (match firstCell S k xo yo (allCells S k) with
          | some p => interpCurv S xmsg k ncrit xo yo p o
          | none => some o) = some out' ∧ _
      cases e : firstCell S k xo yo (allCells S k) with
      | none => exact ⟨o, rfl, fun ng _ _ => (pick_right xmsg (o ng)).symm⟩
      | some p =>
        obtain ⟨h1, _⟩ := found e
        exact ⟨_, interpCurv_ok (mem_cells h1), fun ng _ _ => curvValue_pick ..⟩
  by_cases hh : hit = true
  · rw [if_pos hh]
    obtain ⟨o', e1, e2⟩ := rest none out
    refine ⟨o', e1, fun ng h1 h2 => ?_⟩
    rw [if_pos (Or.inl hh)]; exact e2 ng h1 h2
  · rw [if_neg hh, exactFull_eq]
    change ∃ out', (do
      let out ← match firstNear S eps xo yo (allPoints S) with
        | some p => copyPoint S p
        | none => some out
      if (firstNear S eps xo yo (allPoints S)).isSome ∧ complete S xmsg out then some out
      else match ← cellFull S k xo yo with
        | some p => interpCurv S xmsg k ncrit xo yo p out
        | none => some out) = some out' ∧ _
    cases e : firstNear S eps xo yo (allPoints S) with
    | none =>
      obtain ⟨o', e1, e2⟩ := rest none out
      refine ⟨o', e1, fun ng h1 h2 => ?_⟩
      rw [if_pos (Or.inr rfl)]; exact e2 ng h1 h2
    | some p =>
      obtain ⟨h1, _⟩ := found e
      rw [mem_box] at h1
      dsimp only
      rw [copyPoint_ok h1]
      obtain ⟨o', e1, e2⟩ := rest (some p) fun ng => S.fi p.1 p.2 ng
      refine ⟨o', e1, fun ng h1 h2 => ?_⟩
      rw [if_neg (by simp [hh]), fullVal, e]
      exact e2 ng h1 h2

/-- One output point in closed form. -/
theorem curvPoint_eq (S : Src) (xmsg : ℝ) (k ncrit : ℕ) (eps : ℝ) (fast : Option (ℕ × ℕ)) (xo yo : ℝ) :
    ∃ out, curvPoint S xmsg k ncrit eps (fast.map fun a => windows S k a.1 a.2) xo yo = some out ∧
      ∀ ng, 1 ≤ ng → ng ≤ S.ngrd → out ng = rawVal S xmsg k ncrit eps fast xo yo ng := by
  cases fast with
  | none =>
    obtain ⟨o, e1, e2⟩ := curvFull_eq (S := S) (xmsg := xmsg) (k := k) (ncrit := ncrit) (eps := eps) (xo := xo) (yo := yo) false fun _ => xmsg
    refine ⟨o, e1, fun ng h1 h2 => ?_⟩
    rw [e2 ng h1 h2, rawVal]
    by_cases h : firstNear S eps xo yo (allPoints S) = none
    · rw [if_pos (Or.inr h), fullVal, h]; rfl
    · rw [if_neg (by simp [h])]
  | some a =>
    obtain ⟨w1, w2⟩ := windows_ok S k a.1 a.2
    rw [Option.map_some, curvPoint]
    dsimp only [rawVal]
    generalize windows S k a.1 a.2 = w at w1 w2
    rw [exactLocal_eq w1]
    have rest : ∀ (h : Option (ℕ × ℕ)) (o : ℕ → ℝ), (h = none → o = fun _ => xmsg) → ∃ out',
        (if h.isSome ∧ complete S xmsg o then some o
          else (cellLocal S k xo yo w.2).bind fun c => match c with
            | some p => interpCurv S xmsg k ncrit xo yo p o
            | none => curvFull S xmsg k ncrit eps xo yo h.isSome o) = some out' ∧ ∀ ng, 1 ≤ ng → ng ≤ S.ngrd →
          out' ng = pick xmsg (o ng) (if (firstCell S k xo yo w.2).isSome then cellVal S xmsg k ncrit xo yo (firstCell S k xo yo w.2) ng
            else if h.isSome then cellVal S xmsg k ncrit xo yo (firstCell S k xo yo (allCells S k)) ng
            else fullVal S xmsg k ncrit eps xo yo ng) := by
      intro h o ho
      by_cases hc : h.isSome ∧ complete S xmsg o
      · rw [if_pos hc]
        exact ⟨o, rfl, fun ng h1 h2 => (pick_left (hc.2 ng h1 h2) _).symm⟩
      · rw [if_neg hc, cellLocal_eq w2, Option.bind_some]
        change ∃ out', (match firstCell S k xo yo w.2 with
            | some p => interpCurv S xmsg k ncrit xo yo p o
            | none => curvFull S xmsg k ncrit eps xo yo h.isSome o) = some out' ∧ _
        cases e : firstCell S k xo yo w.2 with
        | none =>
          obtain ⟨o', e1, e2⟩ := curvFull_eq (S := S) (xmsg := xmsg) (k := k) (ncrit := ncrit) (eps := eps) (xo := xo) (yo := yo) h.isSome o
          refine ⟨o', e1, fun ng h1 h2 => ?_⟩
          rw [e2 ng h1 h2]
          simp only [Option.isSome_none, Bool.false_eq_true, if_false]
          cases h with
          | none =>
            rw [ho rfl]
            simp only [Option.isSome_none, Bool.false_eq_true, if_false, false_or]
            rw [pick_miss, pick_miss]
            by_cases hn : firstNear S eps xo yo (allPoints S) = none
            · rw [if_pos hn, fullVal, hn]
              exact (pick_miss xmsg _).symm
            · rw [if_neg hn]
          | some p => simp
        | some p =>
          obtain ⟨h1, _⟩ := found e
          rw [mem_box] at h1
          have hp : (1 ≤ p.1 ∧ p.1 + k ≤ S.nx) ∧ (1 ≤ p.2 ∧ p.2 + k ≤ S.ny) := by omega
          refine ⟨_, interpCurv_ok hp, fun ng _ _ => ?_⟩
          rw [curvValue_pick]; rfl
    change ∃ out', (do
      let out ← match firstNear S eps xo yo w.1 with
        | some p => copyPoint S p
        | none => some fun _ => xmsg
      if (firstNear S eps xo yo w.1).isSome ∧ complete S xmsg out then some out
      else match ← cellLocal S k xo yo w.2 with
        | some p => interpCurv S xmsg k ncrit xo yo p out
        | none => curvFull S xmsg k ncrit eps xo yo (firstNear S eps xo yo w.1).isSome out) = some out' ∧ _
    rw [show localVal S xmsg k ncrit eps w xo yo = fun ng => pick xmsg (hitVal S xmsg (firstNear S eps xo yo w.1) ng)
      (if (firstCell S k xo yo w.2).isSome then cellVal S xmsg k ncrit xo yo (firstCell S k xo yo w.2) ng
      else if (firstNear S eps xo yo w.1).isSome then cellVal S xmsg k ncrit xo yo (firstCell S k xo yo (allCells S k)) ng
      else fullVal S xmsg k ncrit eps xo yo ng) from funext fun ng => rfl]
    cases e : firstNear S eps xo yo w.1 with
    | none => exact rest none _ fun _ => rfl
    | some p =>
      obtain ⟨h1, h2⟩ := found e
      rw [mem_box] at h1
      have hp : (1 ≤ p.1 ∧ p.1 ≤ S.nx) ∧ (1 ≤ p.2 ∧ p.2 ≤ S.ny) := by omega
      dsimp only
      rw [copyPoint_ok hp]
      exact rest (some p) _ fun hc => by simp at hc

/-- The anchors of an output point, if the fast path is used. -/
noncomputable def fastOf (S : Src) (k nxo nyo : ℕ) (xo yo : ℕ → ℝ) (i j : ℕ) : Option (ℕ × ℕ) :=
  if Fast S nxo nyo xo yo then
    some ((earliest S.nx (fun i => S.xi i 1) (xo i) k).getD 1, (earliest S.ny (fun j => S.yi 1 j) (yo j) k).getD 1)
  else none

/-- The number of valid corners a cell needs (rcm2rgrid.f90:530-533). -/
def ncritOf (ncrit : ℤ) : ℕ := (max 1 (min 4 ncrit)).toNat

/-- The kernel: the closed form at every output point, then the row filling. -/
theorem drcm2rgrid_eq {S : Src} {nyo nxo : ℕ} {yo xo : ℕ → ℝ} {xmsg : ℝ} {ncrit : ℤ} (h1 : 2 ≤ S.nx) (h2 : 2 ≤ S.ny) (h3 : 2 ≤ nxo)
    (h4 : 2 ≤ nyo) : ∃ raw : ℕ → ℕ → ℕ → ℝ,
      drcm2rgrid S nyo nxo yo xo xmsg ncrit = some (.done fun nx ny ng => shortGaps (fun i => raw i ny ng) nxo xmsg nx) ∧
      ∀ i j ng, 1 ≤ i → i ≤ nxo → 1 ≤ j → j ≤ nyo → 1 ≤ ng → ng ≤ S.ngrd →
        raw i j ng = rawVal S xmsg 2 (ncritOf ncrit) 0.0001 (fastOf S 2 nxo nyo xo yo i j) (xo i) (yo j) ng := by
  rw [drcm2rgrid, if_neg (show ¬ (S.nx ≤ 1 ∨ S.ny ≤ 1 ∨ nxo ≤ 1 ∨ nyo ≤ 1) by omega)]
  dsimp only
  obtain ⟨w, ew, hw⟩ : ∃ w : Option (ℕ → ℕ → Win × Win), anchors S 2 nxo nyo xo yo = some w ∧
      ∀ i j, 1 ≤ i → i ≤ nxo → 1 ≤ j → j ≤ nyo → (w.map fun f => f i j) = (fastOf S 2 nxo nyo xo yo i j).map fun a => windows S 2 a.1 a.2 := by
    rcases anchors_eq S (k := 2) (by omega) nxo nyo xo yo with ⟨hf, ax, ay, e, hx, hy⟩ | ⟨hf, e⟩
    · refine ⟨_, e, fun i j p1 p2 p3 p4 => ?_⟩
      rw [fastOf, if_pos hf, hx i p1 p2, hy j p3 p4]
      rfl
    · refine ⟨_, e, fun i j _ _ _ _ => ?_⟩
      rw [fastOf, if_neg hf]; rfl
  rw [ew]
  simp only [bind, Option.bind]
  have hp : ∀ i j, 1 ≤ i → i ≤ nxo → 1 ≤ j → j ≤ nyo → ∃ out,
      curvPoint S xmsg 2 (ncritOf ncrit) 0.0001 (w.map fun f => f i j) (xo i) (yo j) = some out ∧ ∀ ng, 1 ≤ ng → ng ≤ S.ngrd →
        out ng = rawVal S xmsg 2 (ncritOf ncrit) 0.0001 (fastOf S 2 nxo nyo xo yo i j) (xo i) (yo j) ng := by
    intro i j p1 p2 p3 p4
    rw [hw i j p1 p2 p3 p4]
    exact curvPoint_eq ..
  rw [if_pos (show ∀ nx ny, 1 ≤ nx → nx ≤ nxo → 1 ≤ ny → ny ≤ nyo →
      (curvPoint S xmsg 2 (max 1 (min 4 ncrit)).toNat 0.0001 (w.map fun f => f nx ny) (xo nx) (yo ny)).isSome = true from
    fun i j p1 p2 p3 p4 => by obtain ⟨o, e, _⟩ := hp i j p1 p2 p3 p4; rw [show (max 1 (min 4 ncrit)).toNat = ncritOf ncrit from rfl, e]; rfl)]
  refine ⟨fun i j ng => ((curvPoint S xmsg 2 (ncritOf ncrit) 0.0001 (w.map fun f => f i j) (xo i) (yo j)).getD fun _ => 0) ng, rfl, ?_⟩
  intro i j ng p1 p2 p3 p4 p5 p6
  obtain ⟨o, e, h⟩ := hp i j p1 p2 p3 p4
  dsimp only
  rw [e, ← h ng p5 p6]; rfl

/-- The provenance of the closed form. -/
theorem rawVal_prov (S : Src) (xmsg : ℝ) (k ncrit : ℕ) (eps : ℝ) (fast : Option (ℕ × ℕ)) (xo yo : ℝ) {ng : ℕ} (h1 : 1 ≤ ng) (h2 : ng ≤ S.ngrd) :
    Prov S xmsg k ncrit eps xo yo ng (rawVal S xmsg k ncrit eps fast xo yo ng) := by
  obtain ⟨o, e, h⟩ := curvPoint_ok S xmsg k ncrit eps fast xo yo
  obtain ⟨o', e', h'⟩ := curvPoint_eq S xmsg k ncrit eps fast xo yo
  rw [e] at e'
  cases e'
  rw [← h' ng h1 h2]; exact h ng

end Skyborn.Rcm
