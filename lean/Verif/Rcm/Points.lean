/-
The kernel of `rcm2points` in closed form and the Python function on top of it.
-/
import Verif.Rcm.RegProps3

namespace Skyborn.Rcm

open Classical

/-! ### The exact pass -/

theorem foldl_min_le (f : ℕ → ℝ) : ∀ (l : List ℕ) (m : ℝ), l.foldl (fun m i => min m (f i)) m ≤ m ∧ ∀ i ∈ l, l.foldl (fun m i => min m (f i)) m ≤ f i := by
  intro l
  induction l with
  | nil => intro m; simp
  | cons a l ih =>
    intro m
    obtain ⟨h1, h2⟩ := ih (min m (f a))
    refine ⟨h1.trans (min_le_left _ _), fun i hi => ?_⟩
    rcases List.mem_cons.mp hi with rfl | hi
    · exact h1.trans (min_le_right _ _)
    · exact h2 i hi

theorem le_foldl_max (f : ℕ → ℝ) : ∀ (l : List ℕ) (m : ℝ), m ≤ l.foldl (fun m i => max m (f i)) m ∧ ∀ i ∈ l, f i ≤ l.foldl (fun m i => max m (f i)) m := by
  intro l
  induction l with
  | nil => intro m; simp
  | cons a l ih =>
    intro m
    obtain ⟨h1, h2⟩ := ih (max m (f a))
    refine ⟨(le_max_left _ _).trans h1, fun i hi => ?_⟩
    rcases List.mem_cons.mp hi with rfl | hi
    · exact (le_max_right _ _).trans h1
    · exact h2 i hi

theorem minval_le {n : ℕ} {f : ℕ → ℝ} {i : ℕ} (h1 : 1 ≤ i) (h2 : i ≤ n) : minval n f ≤ f i :=
  (foldl_min_le f _ _).2 i (by rw [List.mem_range'_1]; omega)

theorem le_maxval {n : ℕ} {f : ℕ → ℝ} {i : ℕ} (h1 : 1 ≤ i) (h2 : i ≤ n) : f i ≤ maxval n f :=
  (le_foldl_max f _ _).2 i (by rw [List.mem_range'_1]; omega)

/-- The source point has the coordinates of the target. -/
def Same (S : Src) (xo yo : ℝ) (p : ℕ × ℕ) : Prop := xo = S.xi p.1 p.2 ∧ yo = S.yi p.1 p.2

/-- The first source point with the coordinates of the target. -/
noncomputable def firstSame (S : Src) (xo yo : ℝ) : Option (ℕ × ℕ) := (box 1 S.nx 1 S.ny).find? fun p => decide (Same S xo yo p)

theorem sameTest_eq {S : Src} {xo yo : ℝ} {p : ℕ × ℕ} (h : (1 ≤ p.1 ∧ p.1 ≤ S.nx) ∧ (1 ≤ p.2 ∧ p.2 ≤ S.ny)) :
    sameTest S xo yo p = some (decide (Same S xo yo p)) := by
  rw [sameTest, at2_ok (a := S.xi) h, at2_ok (a := S.yi) h]
  simp only [bind, Option.bind]
  refine congrArg some (decide_eq_decide.mpr ⟨fun q => q.2.2, fun q => ?_⟩)
  obtain ⟨q1, q2⟩ := q
  have a1 := minval_le (f := fun i => S.yi i p.2) h.1.1 h.1.2
  have a2 := le_maxval (f := fun i => S.yi i p.2) h.1.1 h.1.2
  have a3 := minval_le (f := fun j => S.xi p.1 j) h.2.1 h.2.2
  have a4 := le_maxval (f := fun j => S.xi p.1 j) h.2.1 h.2.2
  rw [← q1] at a3 a4
  rw [← q2] at a1 a2
  exact ⟨⟨a1, a2⟩, ⟨a3, a4⟩, q1, q2⟩

theorem pass1_eq (S : Src) (xmsg xo yo : ℝ) : pass1 S xmsg xo yo = some (hitVal S xmsg (firstSame S xo yo)) := by
  have e : firstM (sameTest S xo yo) (box 1 S.nx 1 S.ny) = some (firstSame S xo yo) := firstM_eq fun p hp => sameTest_eq (mem_box.mp hp)
  rw [pass1, e]
  cases h : firstSame S xo yo with
  | none => rfl
  | some p =>
    obtain ⟨h1, -⟩ := found h
    simp only [bind, Option.bind]
    rw [copyPoint_ok (mem_box.mp h1)]
    rfl

/-! ### The cell pass -/

/-- The cell used at an output point: the first of the window, else the first of the whole grid. -/
noncomputable def pointCell (S : Src) (k : ℕ) (fast : Option Win) (xo yo : ℝ) : Option (ℕ × ℕ) :=
  match fast.bind fun w => firstCell S k xo yo w with
  | some p => some p
  | none => firstCell S k xo yo (allCells S k)

/-- The value of a field in a cell. -/
noncomputable def cellMean (S : Src) (xmsg : ℝ) (opt ncrit : ℤ) (k : ℕ) (xo yo : ℝ) (c : Option (ℕ × ℕ)) (ng : ℕ) : ℝ :=
  c.elim xmsg fun p => (cellValue S xmsg opt ncrit k xo yo p ng xmsg).getD 0

/-- A cell window that stays inside the grid. -/
def GoodWin (S : Src) (k : ℕ) (fast : Option Win) : Prop :=
  ∀ w, fast = some w → (1 ≤ w.ixlo ∧ w.ixhi ≤ S.nx - k) ∧ (1 ≤ w.iylo ∧ w.iyhi ≤ S.ny - k)

theorem pointCell_spec {S : Src} {k : ℕ} {fast : Option Win} {xo yo : ℝ} {p : ℕ × ℕ} (hw : GoodWin S k fast) (h : pointCell S k fast xo yo = some p) :
    ((1 ≤ p.1 ∧ p.1 + k ≤ S.nx) ∧ (1 ≤ p.2 ∧ p.2 + k ≤ S.ny)) ∧ InCell S k xo yo p := by
  unfold pointCell at h
  split at h
  next q e =>
    cases h
    rw [Option.bind_eq_some_iff] at e
    obtain ⟨w, rfl, e⟩ := e
    obtain ⟨h1, h2⟩ := found e
    rw [mem_box] at h1
    have := hw w rfl
    exact ⟨by omega, h2⟩
  next e =>
    obtain ⟨h1, h2⟩ := found h
    exact ⟨mem_cells h1, h2⟩

theorem pointCell_none {S : Src} {k : ℕ} {fast : Option Win} {xo yo : ℝ} (h : pointCell S k fast xo yo = none) {p : ℕ × ℕ}
    (hp : (1 ≤ p.1 ∧ p.1 + k ≤ S.nx) ∧ (1 ≤ p.2 ∧ p.2 + k ≤ S.ny)) : ¬ InCell S k xo yo p := by
  unfold pointCell at h
  split at h
  next => cases h
  next =>
    refine not_found h p ?_
    rw [mem_box]; simp only [allCells]; omega

theorem cellValue_pick {S : Src} {xmsg : ℝ} {opt ncrit : ℤ} {k : ℕ} {xo yo : ℝ} {p : ℕ × ℕ} {ng : ℕ} (old : ℝ)
    (h : (cellValue S xmsg opt ncrit k xo yo p ng old).isSome) :
    (cellValue S xmsg opt ncrit k xo yo p ng old).getD 0 = pick xmsg old ((cellValue S xmsg opt ncrit k xo yo p ng xmsg).getD 0) := by
  by_cases ho : old ≠ xmsg
  · rw [pick_left ho, cellValue, if_pos ho]; rfl
  · rw [not_not.mp ho, pick_miss]

theorem pass2_form {S : Src} {xmsg : ℝ} {opt ncrit : ℤ} {k : ℕ} {fast : Option Win} {xo yo : ℝ} {out : ℕ → ℝ} (hw : GoodWin S k fast)
    (hc : ¬ complete S xmsg out) :
    pass2 S xmsg opt ncrit k fast xo yo out = (pointCell S k fast xo yo).elim (some out) fun p =>
      if inside S.nx S.ny (cornersOf k p) then gather S.ngrd fun ng => cellValue S xmsg opt ncrit k xo yo p ng (out ng) else none := by
  have ef : cellFull S k xo yo = some (firstCell S k xo yo (allCells S k)) := cellFull_eq S k xo yo
  unfold pass2
  rw [if_neg hc]
  cases fast with
  | none =>
    simp only [bind, Option.bind_some, pointCell, Option.bind_none]
    rw [ef]
    simp only [Option.bind_some]
    cases firstCell S k xo yo (allCells S k) <;> rfl
  | some w =>
    have e : cellLocal S k xo yo w = some (firstCell S k xo yo w) := cellLocal_eq (hw w rfl)
    simp only [bind, e, Option.bind_some, pointCell]
    cases firstCell S k xo yo w with
    | some p => rfl
    | none =>
      dsimp only
      rw [ef]
      simp only [Option.bind_some]
      cases firstCell S k xo yo (allCells S k) <;> rfl

theorem pass2_eq {S : Src} {xmsg : ℝ} {opt ncrit : ℤ} {k : ℕ} {fast : Option Win} {xo yo : ℝ} {out out' : ℕ → ℝ} (hw : GoodWin S k fast)
    (h : pass2 S xmsg opt ncrit k fast xo yo out = some out') {ng : ℕ} (h1 : 1 ≤ ng) (h2 : ng ≤ S.ngrd) :
    out' ng = pick xmsg (out ng) (cellMean S xmsg opt ncrit k xo yo (pointCell S k fast xo yo) ng) := by
  by_cases hc : complete S xmsg out
  · rw [pass2, if_pos hc] at h
    cases h
    exact (pick_left (hc ng h1 h2) _).symm
  · rw [pass2_form hw hc] at h
    cases e : pointCell S k fast xo yo with
    | none =>
      rw [e] at h
      cases h
      exact (pick_right _ _).symm
    | some p =>
      rw [e] at h
      dsimp only [Option.elim] at h
      rw [if_pos (inside_cell (pointCell_spec hw e).1), gather] at h
      split at h
      next hs =>
        cases h
        exact cellValue_pick _ (hs ng h1 h2)
      next => cases h

/-- A value is looked up in the cell without a division by zero. -/
theorem pass2_num {S : Src} {xmsg : ℝ} {opt ncrit : ℤ} {k : ℕ} {fast : Option Win} {xo yo : ℝ} {out out' : ℕ → ℝ} (hw : GoodWin S k fast)
    (h : pass2 S xmsg opt ncrit k fast xo yo out = some out') {ng : ℕ} (h1 : 1 ≤ ng) (h2 : ng ≤ S.ngrd) (ho : out ng = xmsg) {p : ℕ × ℕ}
    (hp : pointCell S k fast xo yo = some p) : (cellValue S xmsg opt ncrit k xo yo p ng xmsg).isSome := by
  rw [pass2_form hw (fun hc => hc ng h1 h2 ho), hp] at h
  dsimp only [Option.elim] at h
  rw [if_pos (inside_cell (pointCell_spec hw hp).1), gather] at h
  split at h
  next hs => have := hs ng h1 h2; rwa [ho] at this
  next => cases h

theorem pass2_some {S : Src} {xmsg : ℝ} {opt ncrit : ℤ} {k : ℕ} {fast : Option Win} {xo yo : ℝ} {out : ℕ → ℝ} (hw : GoodWin S k fast)
    (h : ∀ p ng, pointCell S k fast xo yo = some p → 1 ≤ ng → ng ≤ S.ngrd → out ng = xmsg → (cellValue S xmsg opt ncrit k xo yo p ng xmsg).isSome) :
    (pass2 S xmsg opt ncrit k fast xo yo out).isSome := by
  by_cases hc : complete S xmsg out
  · rw [pass2, if_pos hc]; rfl
  · rw [pass2_form hw hc]
    cases e : pointCell S k fast xo yo with
    | none => rfl
    | some p =>
      dsimp only [Option.elim]
      rw [if_pos (inside_cell (pointCell_spec hw e).1), gather, if_pos]
      · rfl
      · intro ng h1 h2
        by_cases ho : out ng = xmsg
        · rw [ho]; exact h p ng e h1 h2 ho
        · rw [cellValue, if_pos ho]; rfl

/-! ### The windows -/

theorem earliest_some {n : ℕ} (hn : 1 ≤ n) (x : ℕ → ℝ) (v : ℝ) {stride : ℕ} (hs : 1 ≤ stride) : ∃ c, earliest n x v stride = some c := by
  rw [earliest]
  by_cases h : n ≤ stride
  · exact ⟨1, if_pos h⟩
  · rw [if_neg h]
    obtain ⟨c, e, -⟩ := lowerBracket_eq (show 2 ≤ n by omega) x v
    rw [e]
    exact ⟨_, rfl⟩

/-- The window of an output point. -/
noncomputable def winOf (S : Src) (k : ℕ) (xo yo : ℝ) : Option Win := (pointWindows S k xo yo).getD none

theorem pointWindows_eq {S : Src} {k : ℕ} (hk : 1 ≤ k) (xo yo : ℝ) : pointWindows S k xo yo = some (winOf S k xo yo) ∧ GoodWin S k (winOf S k xo yo) := by
  have key : ∃ w, pointWindows S k xo yo = some w ∧ GoodWin S k w := by
    rw [pointWindows]
    by_cases h : S.nx > k ∧ S.ny > k
    · rw [if_pos h, isIncreasing_eq, isIncreasing_eq]
      simp only [bind, Option.bind_some]
      by_cases hf : (decide (Inc S.nx fun i => S.xi i 1) && decide (Inc S.ny fun j => S.yi 1 j)) = true
      · rw [if_pos hf]
        obtain ⟨c, e⟩ := earliest_some (n := S.nx) (by omega) (fun i => S.xi i 1) xo hk
        obtain ⟨d, e'⟩ := earliest_some (n := S.ny) (by omega) (fun j => S.yi 1 j) yo hk
        rw [e, e']
        refine ⟨_, rfl, ?_⟩
        rintro w hw
        simp only [Option.some.injEq] at hw
        subst hw
        dsimp only
        omega
      · rw [if_neg hf]
        exact ⟨none, rfl, fun w hw => by cases hw⟩
    · rw [if_neg h]
      exact ⟨none, rfl, fun w hw => by cases hw⟩
  obtain ⟨w, e, hg⟩ := key
  rw [winOf, e]
  exact ⟨rfl, hg⟩

/-! ### All passes -/

/-- The mean of the fallback. -/
noncomputable def fallMean (S : Src) (xmsg xo yo : ℝ) (ng : ℕ) : ℝ :=
  if (sums xmsg ((nearby S xo yo).map fun c => (S.fi c.1.1 c.1.2 ng, c.2))).2.2 > 0 then
    (sums xmsg ((nearby S xo yo).map fun c => (S.fi c.1.1 c.1.2 ng, c.2))).2.1 /
      (sums xmsg ((nearby S xo yo).map fun c => (S.fi c.1.1 c.1.2 ng, c.2))).2.2
  else xmsg

/-- One field at one output point after the first two passes, and after all. -/
noncomputable def pointVal12 (S : Src) (xmsg : ℝ) (opt ncrit : ℤ) (k : ℕ) (xo yo : ℝ) (ng : ℕ) : ℝ :=
  pick xmsg (hitVal S xmsg (firstSame S xo yo) ng) (cellMean S xmsg opt ncrit k xo yo (pointCell S k (winOf S k xo yo) xo yo) ng)
@[inherit_doc pointVal12] noncomputable def pointVal (S : Src) (xmsg : ℝ) (opt ncrit : ℤ) (k : ℕ) (xo yo : ℝ) (ng : ℕ) : ℝ :=
  pick xmsg (pointVal12 S xmsg opt ncrit k xo yo ng) (fallMean S xmsg xo yo ng)

/-- The lookup of a field at an output point divides by nothing that is zero. -/
def PointNum (S : Src) (xmsg : ℝ) (opt ncrit : ℤ) (xo yo : ℝ) (ng : ℕ) : Prop :=
  hitVal S xmsg (firstSame S xo yo) ng = xmsg → ∀ p, pointCell S 1 (winOf S 1 xo yo) xo yo = some p →
    (cellValue S xmsg opt ncrit 1 xo yo p ng xmsg).isSome

theorem pass12_num {S : Src} {xmsg : ℝ} {opt ncrit : ℤ} {xo yo : ℝ} {out : ℕ → ℝ} (h : pass12 S xmsg opt ncrit 1 xo yo = some out)
    {ng : ℕ} (h1 : 1 ≤ ng) (h2 : ng ≤ S.ngrd) : PointNum S xmsg opt ncrit xo yo ng := by
  rw [pass12, (pointWindows_eq le_rfl xo yo).1, pass1_eq] at h
  exact fun ho p hp => pass2_num (pointWindows_eq le_rfl xo yo).2 h h1 h2 ho hp

theorem pass12_eq {S : Src} {xmsg : ℝ} {opt ncrit : ℤ} {k : ℕ} (hk : 1 ≤ k) {xo yo : ℝ} {out : ℕ → ℝ} (h : pass12 S xmsg opt ncrit k xo yo = some out)
    {ng : ℕ} (h1 : 1 ≤ ng) (h2 : ng ≤ S.ngrd) : out ng = pointVal12 S xmsg opt ncrit k xo yo ng := by
  rw [pass12, (pointWindows_eq hk xo yo).1, pass1_eq] at h
  exact pass2_eq (pointWindows_eq hk xo yo).2 h h1 h2

theorem pass3_eq (S : Src) (xmsg xo yo : ℝ) (out : ℕ → ℝ) (ng : ℕ) : pass3 S xmsg xo yo out ng = pick xmsg (out ng) (fallMean S xmsg xo yo ng) := by
  rw [pass3]
  by_cases h : out ng ≠ xmsg
  · rw [if_pos h, pick_left h]
  · rw [if_neg h, not_not.mp h, pick_miss, fallMean]

/-- C172: the check of the kernel never refuses a grid. -/
theorem pointsCheck_eq (S : Src) : pointsCheck S = some 0 := by
  have : ∀ n x, ∃ r, dmonoinc n x 0 = some r := by
    intro n x
    rw [dmonoinc]
    by_cases h : n ≤ 1
    · exact ⟨0, if_pos h⟩
    · rw [if_neg h, incLoop_eq n x (n - 1) 1 le_rfl (by omega)]
      exact ⟨_, rfl⟩
  obtain ⟨r, e⟩ := this S.ny fun j => S.yi 1 j
  simp only [pointsCheck, e, bind, Option.bind_some]

/-- The kernel of `rcm2points` (`kval = 1`). -/
theorem drcm2points_eq {S : Src} {nxyo : ℕ} {yo xo : ℕ → ℝ} {xmsg : ℝ} {opt ncrit : ℤ} {r : Ret (ℕ → ℕ → ℝ)}
    (h : drcm2points S nxyo yo xo xmsg opt ncrit 1 = some r) (h1 : 2 ≤ S.nx) (h2 : 2 ≤ S.ny) (h3 : 1 ≤ nxyo) :
    ∃ fo, r = .done fo ∧ ∀ n ng, 1 ≤ n → n ≤ nxyo → 1 ≤ ng → ng ≤ S.ngrd → fo n ng = pointVal S xmsg opt ncrit 1 (xo n) (yo n) ng ∧
      PointNum S xmsg opt ncrit (xo n) (yo n) ng := by
  rw [drcm2points, if_neg (show ¬ (S.nx ≤ 1 ∨ S.ny ≤ 1 ∨ nxyo ≤ 0) by omega), pointsCheck_eq] at h
  simp only [bind, Option.bind_some, ne_eq, not_true_eq_false, if_false] at h
  rw [if_neg (show ¬ ((1 : ℤ) ≤ 0) by norm_num)] at h
  rw [show Int.toNat 1 = 1 from rfl] at h
  by_cases hp : ∀ n, 1 ≤ n → n ≤ nxyo → (pass12 S xmsg opt ncrit 1 (xo n) (yo n)).isSome
  · rw [if_pos hp] at h
    have e : ∀ n ng, 1 ≤ n → n ≤ nxyo → 1 ≤ ng → ng ≤ S.ngrd →
        ((pass12 S xmsg opt ncrit 1 (xo n) (yo n)).getD fun _ => 0) ng = pointVal12 S xmsg opt ncrit 1 (xo n) (yo n) ng := by
      intro n ng n1 n2 g1 g2
      obtain ⟨out, eo⟩ := Option.isSome_iff_exists.mp (hp n n1 n2)
      rw [eo]
      exact pass12_eq le_rfl eo g1 g2
    have en : ∀ n ng, 1 ≤ n → n ≤ nxyo → 1 ≤ ng → ng ≤ S.ngrd → PointNum S xmsg opt ncrit (xo n) (yo n) ng := by
      intro n ng n1 n2 g1 g2
      obtain ⟨out, eo⟩ := Option.isSome_iff_exists.mp (hp n n1 n2)
      exact pass12_num eo g1 g2
    by_cases hc : ∀ n, 1 ≤ n → n ≤ nxyo → complete S xmsg ((pass12 S xmsg opt ncrit 1 (xo n) (yo n)).getD fun _ => 0)
    · rw [if_pos hc] at h
      simp only [Option.some.injEq] at h
      refine ⟨_, h.symm, fun n ng n1 n2 g1 g2 => ⟨?_, en n ng n1 n2 g1 g2⟩⟩
      have := hc n n1 n2 ng g1 g2
      rw [e n ng n1 n2 g1 g2] at this ⊢
      rw [pointVal, pick_left this]
    · rw [if_neg hc] at h
      simp only [Option.some.injEq] at h
      refine ⟨_, h.symm, fun n ng n1 n2 g1 g2 => ⟨?_, en n ng n1 n2 g1 g2⟩⟩
      rw [pass3_eq, e n ng n1 n2 g1 g2, pointVal]
  · rw [if_neg hp] at h
    cases h

/-! ### The Python function -/

/-- The shapes of the five arrays of `rcm2points`. -/
structure Spec.PointShapes (lat2d lon2d : NDArr ℝ) (fi : NDArr V) (lat1d lon1d : NDArr ℝ) (ngrd nyi nxi n : ℕ) : Prop where
  lat2d : lat2d.shape = [nyi, nxi]
  lon2d : lon2d.shape = [nyi, nxi]
  fi : fi.shape = [ngrd, nyi, nxi]
  lat1d : lat1d.shape = [n]
  lon1d : lon1d.shape = [n]
  nyi : 2 ≤ nyi
  nxi : 2 ≤ nxi
  n : 1 ≤ n

/-- The value of the kernel at a target. -/
noncomputable def pointAt (mp : V) (lat2d lon2d : NDArr ℝ) (fi : NDArr V) (opt : ℤ) (ngrd nyi nxi : ℕ) (lat lon : ℝ) (g : ℕ) : ℝ :=
  pointVal (srcOf mp lat2d lon2d fi nxi nyi ngrd) huge opt 1 1 lon lat (g + 1)

/-- What a successful call tells about the shapes, and its result in closed form. -/
theorem rcm2points_at {a b : Option (NDArr ℝ)} {fi : NDArr V} {lat1d lon1d : NDArr ℝ} {opt : ℤ} {msg : Option V} {out after : NDArr V}
    (h : rcm2points a b fi lat1d lon1d opt msg = .ok (out, after)) : ∃ lat2d lon2d ngrd nyi nxi n, a = some lat2d ∧ b = some lon2d ∧
      Spec.PointShapes lat2d lon2d fi lat1d lon1d ngrd nyi nxi n ∧ out.shape = [ngrd, n] ∧
      (∀ g t, g < ngrd → t < n → out.get [g, t] = decode (missing msg)
        (pointAt (missing msg) lat2d lon2d fi opt ngrd nyi nxi (lat1d.get [t]) (lon1d.get [t]) g)) ∧
      (∀ g t, g < ngrd → t < n → PointNum (srcOf (missing msg) lat2d lon2d fi nxi nyi ngrd) huge opt 1 (lon1d.get [t]) (lat1d.get [t]) (g + 1)) ∧
      after = ⟨fi.shape, fun ix => if (∃ jx, InB fi.shape jx ∧ fi.get jx = missing msg) ∨ missing msg ≠ none ∧ missing msg ≠ some huge then
          (if encode (missing msg) (fi.get ix) = some huge then missing msg else encode (missing msg) (fi.get ix)) else fi.get ix⟩ := by
  cases a with
  | none => simp [rcm2points] at h
  | some lat2d =>
    cases b with
    | none => simp [rcm2points] at h
    | some lon2d =>
      rw [rcm2points] at h
      dsimp only at h
      by_cases c1 : lat2d.shape.getD 0 0 ≠ lon2d.shape.getD 0 0 ∨ lat2d.shape.getD 1 0 ≠ lon2d.shape.getD 1 0
      · rw [if_pos c1] at h; cases h
      rw [if_neg c1] at h
      by_cases c2 : lat1d.shape.getD 0 0 ≠ lon1d.shape.getD 0 0
      · rw [if_pos c2] at h; cases h
      rw [if_neg c2] at h
      by_cases c3 : lat2d.shape.getD 0 0 < 2 ∨ lat2d.shape.getD 1 0 < 2
      · rw [if_pos c3] at h; cases h
      rw [if_neg c3] at h
      by_cases c4 : fi.shape.length < 2
      · rw [if_pos c4] at h; cases h
      rw [if_neg c4] at h
      by_cases c5 : fi.shape.getD (fi.shape.length - 2) 0 ≠ lat2d.shape.getD 0 0 ∨ fi.shape.getD (fi.shape.length - 1) 0 ≠ lon2d.shape.getD 1 0
      · rw [if_pos c5] at h; cases h
      rw [if_neg c5] at h
      split at h
      next nyi nxi ny' nx' ngrd fy fx n n' e1 e2 e3 e4 e5 =>
        rw [e1, e2] at c1
        rw [e4, e5] at c2
        rw [e1] at c3
        rw [e1, e2, e3] at c5
        push Not at c1 c2 c3 c5
        simp at c1 c2 c3 c5
        obtain ⟨rfl, rfl⟩ := c1
        subst c2
        obtain ⟨rfl, rfl⟩ := c5
        cases hk : drcm2points ⟨fx, fy, ngrd, fun i j => lon2d.get [j - 1, i - 1], fun i j => lat2d.get [j - 1, i - 1],
            fieldsOf (missing msg) fi⟩ n (fun n => lat1d.get [n - 1]) (fun n => lon1d.get [n - 1]) huge opt 1 1 with
        | none => rw [hk] at h; cases h
        | some r =>
          rw [hk] at h
          by_cases hn : 1 ≤ n
          · obtain ⟨fo, rfl, hfo⟩ := drcm2points_eq hk c3.2 c3.1 hn
            dsimp only at h
            simp only [Except.ok.injEq, Prod.mk.injEq] at h
            obtain ⟨rfl, rfl⟩ := h
            refine ⟨lat2d, lon2d, ngrd, fy, fx, n, rfl, rfl, ⟨e1, e2, e3, e4, e5, c3.1, c3.2, hn⟩, rfl, fun g t hg ht => ?_, fun g t hg ht => ?_, ?_⟩
            · have := hfo (t + 1) (g + 1) (by omega) (by omega) (by omega) (by exact hg)
              change decode _ (fo (t + 1) (g + 1)) = _
              rw [this.1]
              rfl
            · exact (hfo (t + 1) (g + 1) (by omega) (by omega) (by omega) (by exact hg)).2
            · rw [e3]
          · rw [drcm2points, if_pos (by omega)] at hk
            cases hk
            cases h
      next => cases h

end Skyborn.Rcm
