/-
Lemmas about the searches of the curvilinear kernels: the searches are inside the arrays and return the first hit in row order; the
bracket of an increasing axis; the moving cursor of `rcm2rgrid` gives the same anchors as the binary search of `rcm2points`.
-/
import Verif.Rcm.Model

namespace Skyborn.Rcm

open Classical

theorem firstM_eq {α : Type} {p : α → Option Bool} {q : α → Bool} {l : List α} (h : ∀ a ∈ l, p a = some (q a)) :
    firstM p l = some (l.find? q) := by
  induction l with
  | nil => rfl
  | cons a l ih =>
    rw [firstM, h a (List.mem_cons_self ..)]
    simp only [bind, Option.bind]
    by_cases hq : q a = true
    · rw [if_pos hq, List.find?_cons_of_pos hq]
    · rw [if_neg hq, List.find?_cons_of_neg hq]
      exact ih fun b hb => h b (List.mem_cons_of_mem _ hb)

theorem mem_box {a b c d : ℕ} {p : ℕ × ℕ} : p ∈ box a b c d ↔ (a ≤ p.1 ∧ p.1 ≤ b) ∧ (c ≤ p.2 ∧ p.2 ≤ d) := by
  obtain ⟨x, y⟩ := p
  simp only [box, List.mem_flatMap, List.mem_map, List.mem_range'_1, Prod.mk.injEq]
  constructor
  · rintro ⟨iy, ⟨h1, h2⟩, ix, ⟨h3, h4⟩, rfl, rfl⟩
    omega
  · rintro ⟨⟨h1, h2⟩, h3, h4⟩
    exact ⟨y, by omega, x, by omega, rfl, rfl⟩

theorem at2_ok {α : Type} {nx ny : ℕ} {a : ℕ → ℕ → α} {i j : ℕ} (h : (1 ≤ i ∧ i ≤ nx) ∧ (1 ≤ j ∧ j ≤ ny)) :
    at2 nx ny a i j = some (a i j) := by rw [at2, if_pos h]

/-- `x 1 < x 2 < … < x n`. -/
def Inc (n : ℕ) (x : ℕ → ℝ) : Prop := ∀ i, 1 ≤ i → i + 1 ≤ n → x i < x (i + 1)

theorem Inc.lt {n : ℕ} {x : ℕ → ℝ} (h : Inc n x) {i j : ℕ} (h1 : 1 ≤ i) (hij : i < j) (hj : j ≤ n) : x i < x j := by
  induction j with
  | zero => omega
  | succ j ih =>
    rcases Nat.lt_or_eq_of_le (Nat.lt_succ_iff.mp hij) with h2 | h2
    · exact (ih h2 (by omega)).trans (h j (by omega) hj)
    · subst h2; exact h i h1 hj

theorem Inc.le {n : ℕ} {x : ℕ → ℝ} (h : Inc n x) {i j : ℕ} (h1 : 1 ≤ i) (hij : i ≤ j) (hj : j ≤ n) : x i ≤ x j := by
  rcases Nat.lt_or_eq_of_le hij with h2 | h2
  · exact (h.lt h1 h2 hj).le
  · rw [h2]

theorem Inc.lt_iff {n : ℕ} {x : ℕ → ℝ} (h : Inc n x) {i j : ℕ} (h1 : 1 ≤ i) (h2 : i ≤ n) (h3 : 1 ≤ j) (h4 : j ≤ n) :
    x i < x j ↔ i < j := by
  constructor
  · intro hx
    by_contra hc
    exact absurd (h.le h3 (by omega) h2) (not_le.mpr hx)
  · intro hij; exact h.lt h1 hij h4

theorem incLoop_eq (n : ℕ) (x : ℕ → ℝ) : ∀ left i, 1 ≤ i → i + left ≤ n →
    incLoop n x left i = some (decide (∀ j, i ≤ j → j < i + left → x j < x (j + 1)))
  | 0, i, _, _ => by
    rw [incLoop]; congr 1; symm; rw [decide_eq_true_iff]; intro j h1 h2; omega
  | left + 1, i, h1, h2 => by
    rw [incLoop, rd_ok (a := x) (by omega) (by omega), rd_ok (a := x) (by omega) (by omega)]
    simp only [bind, Option.bind]
    by_cases h : x (i + 1) ≤ x i
    · rw [if_pos h]; congr 1; symm; rw [decide_eq_false_iff_not]
      intro hc; exact absurd (hc i le_rfl (by omega)) (not_lt.mpr h)
    · rw [if_neg h, incLoop_eq n x left (i + 1) (by omega) (by omega)]
      congr 1; rw [decide_eq_decide]
      constructor
      · intro hc j h3 h4
        rcases Nat.eq_or_lt_of_le h3 with h5 | h5
        · subst h5; exact not_le.mp h
        · exact hc j (by omega) (by omega)
      · intro hc j h3 h4; exact hc j (by omega) (by omega)

theorem isIncreasing_eq (n : ℕ) (x : ℕ → ℝ) : isIncreasing n x = some (decide (Inc n x)) := by
  rw [isIncreasing]
  by_cases h : n ≤ 1
  · rw [if_pos h]; congr 1; symm; rw [decide_eq_true_iff]; intro i h1 h2; omega
  · rw [if_neg h, incLoop_eq n x (n - 1) 1 le_rfl (by omega)]
    congr 1; rw [decide_eq_decide]
    constructor
    · intro hc i h1 h2; exact hc i h1 (by omega)
    · intro hc i h1 h2; exact hc i h1 (by omega)

/-- What `lower_bracket_increasing` returns: the cell of the axis that holds the value, the first or last cell for values outside. -/
def Bracket (n : ℕ) (x : ℕ → ℝ) (v : ℝ) (c : ℕ) : Prop :=
  (1 ≤ c ∧ c + 1 ≤ n) ∧ (v ≤ x 1 → c = 1) ∧ (x n ≤ v → x 1 < v → c = n - 1) ∧ (x 1 < v → v < x n → x c ≤ v ∧ v < x (c + 1))

theorem bisect_eq (n : ℕ) (x : ℕ → ℝ) (v : ℝ) (lo hi : ℕ) (h1 : 1 ≤ lo) (h2 : lo < hi) (h3 : hi ≤ n) (h4 : x lo ≤ v) (h5 : v < x hi) :
    ∃ c, bisect n x v lo hi = some c ∧ lo ≤ c ∧ c + 1 ≤ hi ∧ x c ≤ v ∧ v < x (c + 1) := by
  induction lo, hi using bisect.induct n x v with
  | case1 lo hi hh hr => rw [rd_ok (by omega) (by omega)] at hr; cases hr
  | case2 lo hi hh a hr ha ih =>
    rw [rd_ok (by omega) (by omega)] at hr
    simp only [Option.some.injEq] at hr
    rw [bisect, dif_pos hh, rd_ok (by omega) (by omega)]
    simp only [hr]
    rw [if_pos ha]
    obtain ⟨c, e, q1, q2⟩ := ih (by omega) (by omega) h3 (hr ▸ ha) h5
    exact ⟨c, e, by omega, q2⟩
  | case3 lo hi hh a hr ha ih =>
    rw [rd_ok (by omega) (by omega)] at hr
    simp only [Option.some.injEq] at hr
    rw [bisect, dif_pos hh, rd_ok (by omega) (by omega)]
    simp only [hr]
    rw [if_neg ha]
    obtain ⟨c, e, q1, q2, q3⟩ := ih h1 (by omega) (by omega) h4 (hr ▸ not_le.mp ha)
    exact ⟨c, e, by omega, by omega, q3⟩
  | case4 lo hi hh =>
    have : hi = lo + 1 := by omega
    subst this
    rw [bisect, dif_neg hh]
    exact ⟨lo, rfl, le_rfl, le_rfl, h4, h5⟩

theorem lowerBracket_eq {n : ℕ} (hn : 2 ≤ n) (x : ℕ → ℝ) (v : ℝ) : ∃ c, lowerBracket n x v = some c ∧ Bracket n x v c := by
  rw [lowerBracket, if_neg (show ¬ n ≤ 1 by omega), rd_ok (a := x) (i := 1) (by omega) (by omega)]
  simp only [bind, Option.bind]
  by_cases h1 : v ≤ x 1
  · rw [if_pos h1]
    exact ⟨1, rfl, ⟨le_rfl, hn⟩, fun _ => rfl, fun _ h => absurd h1 (not_le.mpr h), fun h => absurd h1 (not_le.mpr h)⟩
  · rw [if_neg h1, rd_ok (a := x) (i := n) (by omega) (by omega)]
    simp only
    by_cases h2 : v ≥ x n
    · rw [if_pos h2]
      exact ⟨n - 1, rfl, ⟨by omega, by omega⟩, fun h => absurd h h1, fun _ _ => rfl, fun _ h => absurd h2 (not_le.mpr h)⟩
    · rw [if_neg h2]
      obtain ⟨c, e, q1, q2, q3⟩ := bisect_eq n x v 1 n le_rfl (by omega) le_rfl (not_le.mp h1).le (not_le.mp h2)
      exact ⟨c, e, ⟨q1, q2⟩, fun h => absurd h h1, fun h => absurd h h2, fun _ _ => q3⟩

theorem Bracket.unique {n : ℕ} {x : ℕ → ℝ} {v : ℝ} {c d : ℕ} (hx : Inc n x) (hc : Bracket n x v c) (hd : Bracket n x v d) : c = d := by
  by_cases h1 : v ≤ x 1
  · rw [hc.2.1 h1, hd.2.1 h1]
  · by_cases h2 : x n ≤ v
    · rw [hc.2.2.1 h2 (not_le.mp h1), hd.2.2.1 h2 (not_le.mp h1)]
    · obtain ⟨c1, c2⟩ := hc.2.2.2 (not_le.mp h1) (not_le.mp h2)
      obtain ⟨d1, d2⟩ := hd.2.2.2 (not_le.mp h1) (not_le.mp h2)
      have hcb := hc.1
      have hdb := hd.1
      have := (hx.lt_iff (by omega) (by omega) (by omega) (by omega)).mp (c1.trans_lt d2)
      have := (hx.lt_iff (by omega) (by omega) (by omega) (by omega)).mp (d1.trans_lt c2)
      omega

/-- A value inside the axis lies in its bracket. -/
theorem Bracket.holds {n : ℕ} {x : ℕ → ℝ} {v : ℝ} {c : ℕ} (hx : Inc n x) (h : Bracket n x v c) (h1 : x 1 ≤ v) (h2 : v ≤ x n) :
    x c ≤ v ∧ v ≤ x (c + 1) := by
  have hc := h.1
  rcases h1.lt_or_eq with h1 | h1
  · rcases h2.lt_or_eq with h2 | h2
    · exact ⟨(h.2.2.2 h1 h2).1, (h.2.2.2 h1 h2).2.le⟩
    · have e := h.2.2.1 h2.ge h1
      rw [h2]
      exact ⟨hx.le (by omega) (by omega) le_rfl, by rw [e, Nat.sub_add_cancel (by omega)]⟩
  · have e := h.2.1 h1.ge
    rw [← h1, e]
    exact ⟨le_rfl, hx.le le_rfl (by omega) (by omega)⟩

/-- The anchor that belongs to a bracket (rcm2rgrid.f90:113, 117, 123; rcm2points.f90:88). -/
def anchorOf (n stride c : ℕ) : ℕ := max 1 (min (n - stride) (c + 1 - stride))

theorem earliest_eq {n : ℕ} {x : ℕ → ℝ} {v : ℝ} {stride c : ℕ} (hs : 1 ≤ stride) (hn : stride < n) (hx : Inc n x) (hc : Bracket n x v c) :
    earliest n x v stride = some (anchorOf n stride c) := by
  rw [earliest, if_neg (show ¬ n ≤ stride by omega)]
  obtain ⟨c', e, hc'⟩ := lowerBracket_eq (n := n) (by omega) x v
  rw [e, hc.unique hx hc']
  rfl

theorem walk_eq (n : ℕ) (x : ℕ → ℝ) (v : ℝ) (cursor : ℕ) (hx : x n > v) (h1 : 1 ≤ cursor) (h2 : cursor + 1 ≤ n) (h3 : x cursor ≤ v) :
    ∃ c, walk n x v cursor = some c ∧ 1 ≤ c ∧ c + 1 ≤ n ∧ x c ≤ v ∧ v < x (c + 1) := by
  induction cursor using walk.induct n x v with
  | case1 cursor h hr => rw [rd_ok (by omega) (by omega)] at hr; cases hr
  | case2 cursor h a hr ha ih =>
    rw [rd_ok (by omega) (by omega)] at hr
    simp only [Option.some.injEq] at hr
    rw [walk, dif_pos h, rd_ok (by omega) (by omega)]
    simp only [hr]
    rw [if_pos ha]
    exact ih (by omega) (by omega) (hr ▸ ha)
  | case3 cursor h a hr ha =>
    rw [rd_ok (by omega) (by omega)] at hr
    simp only [Option.some.injEq] at hr
    rw [walk, dif_pos h, rd_ok (by omega) (by omega)]
    simp only [hr]
    rw [if_neg ha]
    exact ⟨cursor, rfl, h1, h2, h3, hr ▸ not_le.mp ha⟩
  | case4 cursor h =>
    rw [walk, dif_neg h]
    have : cursor + 1 = n := by omega
    exact ⟨cursor, rfl, h1, h2, h3, this ▸ hx⟩

/-- The moving cursor finds the bracket of every value. -/
theorem candidates_eq {n m stride : ℕ} {x values : ℕ → ℝ} (hs : 1 ≤ stride) (hn : stride < n) (hx : Inc n x) (hv : Inc m values)
    (idx : ℕ → ℕ) : ∃ f, candidates n x m values stride idx = some f ∧
      ∀ j, 1 ≤ j → j ≤ m → ∃ c, Bracket n x (values j) c ∧ f j = anchorOf n stride c := by
  rw [candidates, if_neg (show ¬ n ≤ stride by omega)]
  obtain ⟨s, e, hP⟩ := doLoopM_inv (lo := 1) (hi := m) (s := ((1, idx) : ℕ × (ℕ → ℕ)))
    (f := fun j s => do
      let v ← rd m values j
      let x1 ← rd n x 1
      let xn ← rd n x n
      if v ≤ x1 then some (s.1, Function.update s.2 j (max 1 (min (n - stride) (1 + 1 - stride))))
      else if v ≥ xn then some (n - 1, Function.update s.2 j (max 1 (min (n - stride) (n - 1 + 1 - stride))))
      else do
        let c ← walk n x v s.1
        some (c, Function.update s.2 j (max 1 (min (n - stride) (c + 1 - stride)))))
    (by omega)
    (fun j s => (1 ≤ s.1 ∧ s.1 + 1 ≤ n) ∧ (∀ i, j ≤ i → i ≤ m → x 1 < values i → x s.1 ≤ values i) ∧
      ∀ i, 1 ≤ i → i < j → ∃ c, Bracket n x (values i) c ∧ s.2 i = anchorOf n stride c)
    ⟨⟨le_rfl, by dsimp only; omega⟩, fun i _ _ h => h.le, fun i h1 h2 => by omega⟩ (by
      rintro j ⟨cur, f⟩ hj1 hj2 ⟨⟨hc1, hc2⟩, hcur, hf⟩
      dsimp only at hc1 hc2 hcur hf
      rw [rd_ok (a := values) hj1 hj2, rd_ok (a := x) (i := 1) (by omega) (by omega), rd_ok (a := x) (i := n) (by omega) (by omega)]
      simp only [bind, Option.bind]
      have close : ∀ c, Bracket n x (values j) c → ∀ i, 1 ≤ i → i < j + 1 → ∃ c', Bracket n x (values i) c' ∧
          Function.update f j (max 1 (min (n - stride) (c + 1 - stride))) i = anchorOf n stride c' := by
        intro c hc i h1 h2
        by_cases hij : i = j
        · subst hij; exact ⟨c, hc, by rw [Function.update_self]; rfl⟩
        · rw [Function.update_of_ne hij]; exact hf i h1 (by omega)
      by_cases h1 : values j ≤ x 1
      · rw [if_pos h1]
        refine ⟨_, rfl, ⟨hc1, hc2⟩, fun i h2 h3 => hcur i (by omega) h3, ?_⟩
        exact close 1 ⟨⟨le_rfl, by omega⟩, fun _ => rfl, fun _ h => absurd h1 (not_le.mpr h), fun h => absurd h1 (not_le.mpr h)⟩
      · rw [if_neg h1]
        by_cases h2 : values j ≥ x n
        · rw [if_pos h2]
          refine ⟨_, rfl, ⟨by dsimp only; omega, by dsimp only; omega⟩, ?_, ?_⟩
          · intro i h3 h4 _
            exact (hx.le (by omega) (by omega) le_rfl).trans (h2.le.trans (hv.le hj1 (by omega) h4))
          · exact close (n - 1) ⟨⟨by omega, by omega⟩, fun h => absurd h h1, fun _ _ => rfl, fun _ h => absurd h2 (not_le.mpr h)⟩
        · rw [if_neg h2]
          obtain ⟨c, e, q1, q2, q3, q4⟩ := walk_eq n x (values j) cur (not_le.mp h2) hc1 hc2 (hcur j le_rfl hj2 (not_le.mp h1))
          rw [e]
          refine ⟨_, rfl, ⟨q1, q2⟩, ?_, ?_⟩
          · intro i h3 h4 _
            exact q3.trans (hv.le hj1 (by omega) h4)
          · exact close c ⟨⟨q1, q2⟩, fun h => absurd h h1, fun h => absurd h h2, fun _ _ => ⟨q3, q4⟩⟩)
  rw [e]
  exact ⟨_, rfl, fun j h1 h2 => hP.2.2 j h1 (by omega)⟩

/-- The cursor of `rcm2rgrid` and the binary search of `rcm2points` give the same anchors. -/
theorem candidates_earliest {n m stride : ℕ} {x values : ℕ → ℝ} (hs : 1 ≤ stride) (hn : stride < n) (hx : Inc n x) (hv : Inc m values)
    (idx : ℕ → ℕ) : ∃ f, candidates n x m values stride idx = some f ∧
      ∀ j, 1 ≤ j → j ≤ m → earliest n x (values j) stride = some (f j) := by
  obtain ⟨f, e, h⟩ := candidates_eq hs hn hx hv idx
  refine ⟨f, e, fun j h1 h2 => ?_⟩
  obtain ⟨c, hc, e'⟩ := h j h1 h2
  rw [earliest_eq hs hn hx hc, e']

theorem candidates_small {n m stride : ℕ} {x values : ℕ → ℝ} (hn : n ≤ stride) (idx : ℕ → ℕ) :
    candidates n x m values stride idx = some fun _ => 1 := by rw [candidates, if_pos hn]

/-! ### The tests and the searches on a curvilinear grid -/

/-- The output point lies within `eps` of the grid point in both coordinates. -/
def Near (S : Src) (xo yo eps : ℝ) (p : ℕ × ℕ) : Prop :=
  xo ≥ S.xi p.1 p.2 - eps ∧ xo ≤ S.xi p.1 p.2 + eps ∧ yo ≥ S.yi p.1 p.2 - eps ∧ yo ≤ S.yi p.1 p.2 + eps

/-- The test the kernels apply to the cell with lower left corner `p` and stride `k`. -/
def InCell (S : Src) (k : ℕ) (xo yo : ℝ) (p : ℕ × ℕ) : Prop :=
  xo ≥ S.xi p.1 p.2 ∧ xo ≤ S.xi (p.1 + k) p.2 ∧ yo ≥ S.yi p.1 p.2 ∧ yo ≤ S.yi p.1 (p.2 + k)

theorem nearTest_eq {S : Src} {xo yo eps : ℝ} {p : ℕ × ℕ} (h : (1 ≤ p.1 ∧ p.1 ≤ S.nx) ∧ (1 ≤ p.2 ∧ p.2 ≤ S.ny)) :
    nearTest S xo yo eps p = some (decide (Near S xo yo eps p)) := by
  rw [nearTest, at2_ok h, at2_ok h]
  simp only [bind, Option.bind, Near]
  exact congrArg some (decide_eq_decide.mpr Iff.rfl)

theorem cellTest_eq {S : Src} {k : ℕ} {xo yo : ℝ} {p : ℕ × ℕ} (h : (1 ≤ p.1 ∧ p.1 + k ≤ S.nx) ∧ (1 ≤ p.2 ∧ p.2 + k ≤ S.ny)) :
    cellTest S k xo yo p = some (decide (InCell S k xo yo p)) := by
  rw [cellTest, at2_ok (by omega), at2_ok (by omega), at2_ok (by omega), at2_ok (by omega)]
  simp only [bind, Option.bind, InCell]
  exact congrArg some (decide_eq_decide.mpr Iff.rfl)

theorem exactFull_eq (S : Src) (xo yo eps : ℝ) :
    exactFull S xo yo eps = some ((box 1 S.nx 1 S.ny).find? fun p => decide (Near S xo yo eps p)) :=
  firstM_eq fun p hp => nearTest_eq (by rw [mem_box] at hp; omega)

theorem exactLocal_eq {S : Src} {xo yo eps : ℝ} {w : Win} (h : (1 ≤ w.ixlo ∧ w.ixhi ≤ S.nx) ∧ (1 ≤ w.iylo ∧ w.iyhi ≤ S.ny)) :
    exactLocal S xo yo eps w = some ((box w.ixlo w.ixhi w.iylo w.iyhi).find? fun p => decide (Near S xo yo eps p)) :=
  firstM_eq fun p hp => nearTest_eq (by rw [mem_box] at hp; omega)

theorem cellFull_eq (S : Src) (k : ℕ) (xo yo : ℝ) :
    cellFull S k xo yo = some ((box 1 (S.nx - k) 1 (S.ny - k)).find? fun p => decide (InCell S k xo yo p)) :=
  firstM_eq fun p hp => cellTest_eq (by rw [mem_box] at hp; omega)

theorem cellLocal_eq {S : Src} {k : ℕ} {xo yo : ℝ} {w : Win} (h : (1 ≤ w.ixlo ∧ w.ixhi ≤ S.nx - k) ∧ (1 ≤ w.iylo ∧ w.iyhi ≤ S.ny - k)) :
    cellLocal S k xo yo w = some ((box w.ixlo w.ixhi w.iylo w.iyhi).find? fun p => decide (InCell S k xo yo p)) :=
  firstM_eq fun p hp => cellTest_eq (by rw [mem_box] at hp; omega)

/-- A hit is inside the searched box and passes the test. -/
theorem found {l : List (ℕ × ℕ)} {P : ℕ × ℕ → Prop} {p : ℕ × ℕ} (h : (l.find? fun p => decide (P p)) = some p) : p ∈ l ∧ P p :=
  ⟨List.mem_of_find?_eq_some h, by simpa using List.find?_some h⟩

theorem not_found {l : List (ℕ × ℕ)} {P : ℕ × ℕ → Prop} (h : (l.find? fun p => decide (P p)) = none) : ∀ p ∈ l, ¬ P p := by
  intro p hp; simpa using List.find?_eq_none.mp h p hp

/-- The only point of the box that passes the test is found. -/
theorem found_of_unique {l : List (ℕ × ℕ)} {P : ℕ × ℕ → Prop} {p : ℕ × ℕ} (hp : p ∈ l) (h : P p) (hu : ∀ q ∈ l, P q → q = p) :
    (l.find? fun p => decide (P p)) = some p := by
  cases e : l.find? fun p => decide (P p) with
  | none => exact absurd h (not_found e p hp)
  | some q =>
    obtain ⟨h1, h2⟩ := found e
    rw [hu q h1 h2]

end Skyborn.Rcm
