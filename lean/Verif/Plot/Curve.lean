/-
Acceptance of the curve of a curly vector, anchors, and shrinking of rejected curves.
Modelled: plot/nclcurly_core/_ncl_curly_core.c:2509-2705 `validate_display_curve`, plot/vector.py:636-646, 705-795,
plot/_core/vector_engine.py:584-661 `_build_ncl_curve`, plot/_core/native.py:205-257 (512 steps).
-/
import Verif.Plot.Trace
import Mathlib.Analysis.SpecialFunctions.Trigonometric.Inverse

namespace Skyborn.Plot.Curly

/-! ## Model -/

/-- Differences of consecutive points. -/
def segs : List (ℝ × ℝ) → List (ℝ × ℝ)
  | p :: q :: l => (q.1 - p.1, q.2 - p.2) :: segs (q :: l)
  | _ => []

open Classical in
/-- plot/nclcurly_core/_ncl_curly_core.c:2601-2620: unit directions of the segments longer than 1e-6, in order. -/
noncomputable def dirs (l : List (ℝ × ℝ)) : List (ℝ × ℝ) :=
  ((segs l).filter (fun s => 1 / 10 ^ 6 < hyp s.1 s.2)).map (fun s => (s.1 / hyp s.1 s.2, s.2 / hyp s.1 s.2))

open Classical in
/-- plot/nclcurly_core/_ncl_curly_core.c:2617: length of those segments. -/
noncomputable def validLength (l : List (ℝ × ℝ)) : ℝ :=
  (((segs l).filter (fun s => 1 / 10 ^ 6 < hyp s.1 s.2)).map (fun s => hyp s.1 s.2)).sum

/-- plot/nclcurly_core/_ncl_curly_core.c:2651-2666: turn between two directions, in degrees. -/
noncomputable def turn (a b : ℝ × ℝ) : ℝ :=
  let dot := a.1 * b.1 + a.2 * b.2
  let dot := if dot < -1 then -1 else if 1 < dot then 1 else dot
  Real.arccos dot * 180 / Real.pi

/-- plot/nclcurly_core/_ncl_curly_core.c:2649-2672: turns along the curve. -/
noncomputable def turns : List (ℝ × ℝ) → List ℝ
  | a :: b :: l => turn a b :: turns (b :: l)
  | _ => []

open Classical in
/-- plot/nclcurly_core/_ncl_curly_core.c:2674-2684: number of changes of the sense of rotation, `prev` the last sense (0: none). -/
noncomputable def changes : ℤ → List (ℝ × ℝ) → ℕ
  | prev, a :: b :: l =>
    let cross := a.1 * b.2 - a.2 * b.1
    if 1 / 10 ^ 6 < |cross| then
      let now : ℤ := if 0 < cross then 1 else -1
      (if prev ≠ 0 ∧ now * prev < 0 then 1 else 0) + changes now (b :: l)
    else changes prev (b :: l)
  | _, _ => 0

/-- plot/nclcurly_core/_ncl_curly_core.c:2516-2705 `validate_display_curve` for a panel `w` by `h`: the curve is accepted. -/
def accepted (w h : ℝ) (l : List (ℝ × ℝ)) : Prop :=
  2 ≤ l.length ∧
  (0 < hyp w h → ∀ s ∈ segs l, hyp s.1 s.2 ≤ max (hyp w h * (35 / 100)) (1 / 10 ^ 6)) ∧
  dirs l ≠ [] ∧
  ∃ first last, l.head? = some first ∧ l.getLast? = some last ∧
    ¬ (validLength l ≤ 1 / 10 ^ 6 ∨ hyp (last.1 - first.1) (last.2 - first.2) ≤ 1 / 10 ^ 6) ∧
    validLength l / hyp (last.1 - first.1) (last.2 - first.2) ≤ 128 / 100 ∧
    (turns (dirs l)).foldl max 0 ≤ 52 ∧ (turns (dirs l)).sum ≤ 120 ∧
    ¬ (0 < changes 0 (dirs l) ∧ 70 < (turns (dirs l)).sum)

/-- The anchors of a glyph. -/
inductive Anchor
  | tail
  | center
  | head

/-- A curve: vertices on the grid and on the panel. -/
abbrev Curve := List ((ℝ × ℝ) × (ℝ × ℝ))

open Classical in
/-- plot/vector.py:705-795 `_trace_ncl_curve_with_display`; 512 steps per branch. `step`, `scale`, `view`: of the plot. -/
noncomputable def traceCurve (g : Grid) (F : Fields) (step scale : ℝ) (view : View) (anchor : Anchor) (start : ℝ × ℝ) (len : ℝ) :
    Option Curve :=
  if len ≤ 0 then none
  else match anchor with
    | .center =>
      match trace g F ⟨len / 2, -1, step, scale, view⟩ 512 start, trace g F ⟨len / 2, 1, step, scale, view⟩ 512 start with
      | none, none => none
      | none, some forward => some forward
      | some backward, none => some backward.reverse
      | some backward, some forward => some (backward.reverse ++ forward.tail)
    | .tail => trace g F ⟨len, 1, step, scale, view⟩ 512 start
    | .head => (trace g F ⟨len, -1, step, scale, view⟩ 512 start).map List.reverse

open Classical in
/-- plot/_core/vector_engine.py:601-661: at most `n` attempts, each with 0.78 of the length before. -/
noncomputable def buildLoop (g : Grid) (F : Fields) (step scale : ℝ) (view : View) (anchor : Anchor) (start : ℝ × ℝ) : ℕ → ℝ → Option Curve
  | 0, _ => none
  | n + 1, len =>
    let again := if len * (78 / 100) ≤ step then none else buildLoop g F step scale view anchor start n (len * (78 / 100))
    match traceCurve g F step scale view anchor start len with
    | none => again
    | some c => if 2 ≤ c.length ∧ accepted (view.x1 - view.x0) (view.y1 - view.y0) (c.map Prod.snd) then some c else again

/-- plot/_core/vector_engine.py:584-661 `_build_ncl_curve`: the curve of the glyph at `start`, `none`: no glyph is drawn. -/
noncomputable def buildCurve (g : Grid) (F : Fields) (step scale : ℝ) (view : View) (anchor : Anchor) (start : ℝ × ℝ) (len : ℝ) :
    Option Curve :=
  buildLoop g F step scale view anchor start 4 len

/-! ## Proofs -/

private theorem foldl_max_le (l : List ℝ) (x c : ℝ) : l.foldl max x ≤ c ↔ x ≤ c ∧ ∀ t ∈ l, t ≤ c := by
  induction l generalizing x with
  | nil => simp
  | cons a l ih => rw [List.foldl_cons, ih]; simp only [max_le_iff, List.mem_cons, forall_eq_or_imp]; tauto

theorem buildLoop_some {g : Grid} {F : Fields} {step scale : ℝ} {view : View} {anchor : Anchor} {start : ℝ × ℝ} {n : ℕ}
    {len : ℝ} {c : Curve} (h : buildLoop g F step scale view anchor start n len = some c) (hl : 0 ≤ len) :
    ∃ len', len' ≤ len ∧ traceCurve g F step scale view anchor start len' = some c ∧
      accepted (view.x1 - view.x0) (view.y1 - view.y0) (c.map Prod.snd) := by
  induction n generalizing len with
  | zero => cases h
  | succ n ih =>
    unfold buildLoop at h
    dsimp only at h
    have again : (if len * (78 / 100) ≤ step then none else buildLoop g F step scale view anchor start n (len * (78 / 100))) = some c →
        ∃ len', len' ≤ len ∧ traceCurve g F step scale view anchor start len' = some c ∧
          accepted (view.x1 - view.x0) (view.y1 - view.y0) (c.map Prod.snd) := by
      intro h
      split_ifs at h
      obtain ⟨len', h1, h2, h3⟩ := ih h (by positivity)
      exact ⟨len', by linarith, h2, h3⟩
    rcases ht : traceCurve g F step scale view anchor start len with _ | c'
    · rw [ht] at h; exact again h
    · rw [ht] at h
      dsimp only at h
      by_cases hc : 2 ≤ c'.length ∧ accepted (view.x1 - view.x0) (view.y1 - view.y0) (c'.map Prod.snd)
      · rw [if_pos hc] at h
        obtain rfl := Option.some.inj h
        exact ⟨len, le_rfl, ht, hc.2⟩
      · rw [if_neg hc] at h; exact again h

theorem turn_eq {a b : ℝ × ℝ} (ha : a.1 * a.1 + a.2 * a.2 = 1) (hb : b.1 * b.1 + b.2 * b.2 = 1) :
    turn a b = Real.arccos (a.1 * b.1 + a.2 * b.2) * 180 / Real.pi := by
  unfold turn
  dsimp only
  rw [if_neg (by nlinarith [sq_nonneg (a.1 + b.1), sq_nonneg (a.2 + b.2)]),
    if_neg (by nlinarith [sq_nonneg (a.1 - b.1), sq_nonneg (a.2 - b.2)])]

/-- A drawn curve: what the acceptance test means for consecutive segments. -/
private theorem turns_pair (l : List (ℝ × ℝ)) (a b : ℝ × ℝ) (xs ys : List (ℝ × ℝ)) (h : l = xs ++ a :: b :: ys) : turn a b ∈ turns l := by
  induction xs generalizing l with
  | nil => rw [h]; exact List.mem_cons_self
  | cons x xs ih =>
    rw [h]
    cases xs with
    | nil => exact List.mem_cons_of_mem _ (by unfold turns; exact List.mem_cons_self)
    | cons x' xs => exact List.mem_cons_of_mem _ (ih _ rfl)

/-- C275: the glyphs that are drawn have no kink: every two consecutive segments of a drawn curve, both longer than
1e-6 pixels, make an angle of at most 52 degrees. -/
theorem C275_kinks (g : Grid) (F : Fields) (step scale : ℝ) (view : View) (anchor : Anchor) (start : ℝ × ℝ) (len : ℝ) (hl : 0 ≤ len)
    (c : Curve) (h : buildCurve g F step scale view anchor start len = some c) (xs ys : List (ℝ × ℝ)) (a b : ℝ × ℝ)
    (hs : segs (c.map Prod.snd) = xs ++ a :: b :: ys) (ha : 1 / 10 ^ 6 < hyp a.1 a.2) (hb : 1 / 10 ^ 6 < hyp b.1 b.2) :
    Real.arccos ((a.1 * b.1 + a.2 * b.2) / (hyp a.1 a.2 * hyp b.1 b.2)) ≤ 52 / 180 * Real.pi := by
  obtain ⟨-, -, -, -, -, -, first, last, -, -, -, -, hturn, -⟩ := buildLoop_some h hl
  rw [foldl_max_le] at hturn
  have e0 : (0 : ℝ) < 1 / 10 ^ 6 := by norm_num
  have ha0 : 0 < hyp a.1 a.2 := by linarith
  have hb0 : 0 < hyp b.1 b.2 := by linarith
  have hmem := hturn.2 (turn (a.1 / hyp a.1 a.2, a.2 / hyp a.1 a.2) (b.1 / hyp b.1 b.2, b.2 / hyp b.1 b.2)) (by
    apply turns_pair
    unfold dirs
    rw [hs, List.filter_append, List.map_append, List.filter_cons_of_pos (by simpa using ha),
      List.filter_cons_of_pos (by simpa using hb), List.map_cons, List.map_cons])
  have hunit : ∀ s : ℝ × ℝ, 0 < hyp s.1 s.2 → s.1 / hyp s.1 s.2 * (s.1 / hyp s.1 s.2) + s.2 / hyp s.1 s.2 * (s.2 / hyp s.1 s.2) = 1 := by
    intro s hs
    have := hyp_sq s.1 s.2
    field_simp
    nlinarith
  rw [turn_eq (hunit a ha0) (hunit b hb0)] at hmem
  have hpi := Real.pi_pos
  rw [div_le_iff₀ hpi] at hmem
  have : a.1 / hyp a.1 a.2 * (b.1 / hyp b.1 b.2) + a.2 / hyp a.1 a.2 * (b.2 / hyp b.1 b.2) =
      (a.1 * b.1 + a.2 * b.2) / (hyp a.1 a.2 * hyp b.1 b.2) := by field_simp
  dsimp only at hmem
  rw [this] at hmem
  linarith

/-! ### Anchors and lengths -/

theorem trace_cons {g : Grid} {F : Fields} {p : Params} {k : ℤ} {start : ℝ × ℝ} {l : Curve} (h : trace g F p k start = some l) :
    ∃ st rest, sampleState g F start.1 start.2 = some st ∧ l = (start, st.disp) :: rest := by
  unfold trace traceWith at h
  rcases hst : sampleState g F start.1 start.2 with _ | st
  · rw [hst] at h; cases h
  rw [hst] at h
  dsimp only at h
  split_ifs at h with h1
  obtain rfl := Option.some.inj h
  exact ⟨st, _, rfl, rfl⟩

/-- C277: the glyph of a point begins, ends or passes there: the first vertex is the point with anchor `tail`, the last with
`head`, and it is one of the vertices with `center`. -/
theorem C277_anchor (g : Grid) (F : Fields) (step scale : ℝ) (view : View) (anchor : Anchor) (start : ℝ × ℝ) (len : ℝ) (hl : 0 ≤ len)
    (c : Curve) (h : buildCurve g F step scale view anchor start len = some c) :
    match anchor with
    | .tail => (c.map Prod.fst).head? = some start
    | .head => (c.map Prod.fst).getLast? = some start
    | .center => start ∈ c.map Prod.fst := by
  obtain ⟨len', -, ht, -⟩ := buildLoop_some h hl
  unfold traceCurve at ht
  split_ifs at ht with h0
  cases anchor with
  | tail =>
    dsimp only at ht ⊢
    obtain ⟨st, rest, -, rfl⟩ := trace_cons ht
    rfl
  | head =>
    dsimp only at ht ⊢
    obtain ⟨l, hl', rfl⟩ := Option.map_eq_some_iff.mp ht
    obtain ⟨st, rest, -, rfl⟩ := trace_cons hl'
    simp
  | center =>
    dsimp only at ht ⊢
    split at ht
    · cases ht
    · rename_i f hb hf
      obtain rfl := Option.some.inj ht
      obtain ⟨st, rest, -, rfl⟩ := trace_cons hf
      simp
    · rename_i b hb hf
      obtain rfl := Option.some.inj ht
      obtain ⟨st, rest, -, rfl⟩ := trace_cons hb
      simp
    · rename_i b f hb hf
      obtain rfl := Option.some.inj ht
      obtain ⟨st, rest, -, rfl⟩ := trace_cons hb
      simp

theorem dist_comm (p q : ℝ × ℝ) : dist p q = dist q p := by
  unfold dist hyp; congr 1; ring

theorem arc_append (l : List (ℝ × ℝ)) (x : ℝ × ℝ) (m : List (ℝ × ℝ)) : arc (l ++ x :: m) = arc (l ++ [x]) + arc (x :: m) := by
  induction l with
  | nil => simp [arc]
  | cons a l ih =>
    cases l with
    | nil => simp only [List.cons_append, List.nil_append, arc]; ring
    | cons b l => simp only [List.cons_append, arc] at ih ⊢; rw [ih]; ring

theorem arc_reverse (l : List (ℝ × ℝ)) : arc l.reverse = arc l := by
  induction l with
  | nil => rfl
  | cons a l ih =>
    cases l with
    | nil => rfl
    | cons b l =>
      rw [List.reverse_cons, List.reverse_cons, List.append_assoc, List.singleton_append, arc_append, ← List.reverse_cons, ih]
      simp only [arc]
      rw [dist_comm b a]; ring

/-- C277: with a linear display map, a drawn glyph is at most one step longer than its target, half a step with anchor `tail` or `head`. -/
theorem C277_length (g : Grid) (F : Fields) (a b c d e f : ℝ) (hdx : 0 < g.dx) (hdy : 0 < g.dy)
    (hF : LinearDisplay g F a b c d e f) (step scale : ℝ) (view : View) (anchor : Anchor) (start : ℝ × ℝ) (len : ℝ) (hl : 0 ≤ len)
    (l : Curve) (h : buildCurve g F step scale view anchor start len = some l) :
    arc (l.map Prod.snd) ≤ len + max step (35 / 100) * (match anchor with | .center => 1 | _ => 1 / 2) := by
  obtain ⟨len', hle, ht, -⟩ := buildLoop_some h hl
  have hσ : (0 : ℝ) < max step (35 / 100) := lt_of_lt_of_le (by norm_num) (le_max_right _ _)
  unfold traceCurve at ht
  split_ifs at ht with h0
  have key : ∀ (m s : ℝ) (q : Curve), (s = 1 ∨ s = -1) → trace g F ⟨m, s, step, scale, view⟩ 512 start = some q →
      arc (q.map Prod.snd) ≤ m + max step (35 / 100) / 2 := fun m s q hs hq =>
    C273_partial g F a b c d e f hdx hdy hF ⟨m, s, step, scale, view⟩ hs 512 start q hq
  cases anchor with
  | tail =>
    dsimp only at ht ⊢
    have := key _ _ _ (Or.inl rfl) ht
    linarith
  | head =>
    dsimp only at ht ⊢
    obtain ⟨q, hq, rfl⟩ := Option.map_eq_some_iff.mp ht
    have := key _ _ _ (Or.inr rfl) hq
    rw [List.map_reverse, arc_reverse]
    linarith
  | center =>
    dsimp only at ht ⊢
    push Not at h0
    split at ht
    · cases ht
    · rename_i q hb hf
      obtain rfl := Option.some.inj ht
      have := key _ _ _ (Or.inl rfl) hf
      linarith
    · rename_i q hb hf
      obtain rfl := Option.some.inj ht
      have := key _ _ _ (Or.inr rfl) hb
      rw [List.map_reverse, arc_reverse]
      linarith
    · rename_i q r hb hf
      obtain rfl := Option.some.inj ht
      have e1 := key _ _ _ (Or.inr rfl) hb
      have e2 := key _ _ _ (Or.inl rfl) hf
      obtain ⟨st, rest, hst, rfl⟩ := trace_cons hb
      obtain ⟨st', rest', hst', rfl⟩ := trace_cons hf
      rw [hst] at hst'
      obtain rfl := Option.some.inj hst'
      simp only [List.tail_cons, List.map_append, List.map_reverse, List.map_cons, List.reverse_cons, List.append_assoc,
        List.cons_append, List.nil_append] at e1 e2 ⊢
      rw [arc_append, ← List.reverse_cons, arc_reverse]
      linarith

/-! ### Uniform flow -/

/-- The full statement of C276: where the wind is the same everywhere, every point gets a glyph if there is room for it: the grid and the
panel reach at least the target length and one step in all directions. -/
def C276_statement : Prop :=
  ∀ (g : Grid) (F : Fields) (u v step scale : ℝ) (view : View) (anchor : Anchor) (start : ℝ × ℝ) (len : ℝ),
    0 < g.dx → 0 < g.dy → Whole g F (fun _ _ => u) (fun _ _ => v) (fun j i => (g.x0 + i * g.dx, g.y0 + j * g.dy)) →
    hyp u v = scale → eps < scale → 1 < step → 1 < len →
    (∀ q : ℝ × ℝ, dist start q ≤ len + step → g.within q.1 q.2 ∧ view.contains q) →
    buildCurve g F step scale view anchor start len ≠ none

/-- C276 is false: in a uniform flow with steps of 3 pixels, glyphs of 3.1 pixels are not drawn at all. -/
theorem C276_false : ¬ C276_statement := by
  intro H
  have hhyp : ∀ z : ℝ, hyp z 0 = |z| := by
    intro z; unfold hyp; rw [mul_zero, add_zero, ← sq, Real.sqrt_sq_eq_abs]
  refine H gridW fieldsW 1 0 3 1 ⟨0, 0, 100, 100⟩ .tail (50, 50) (31 / 10) (by unfold gridW; norm_num) (by unfold gridW; norm_num)
    ?_ (by rw [hhyp]; norm_num) (by unfold eps; norm_num) (by norm_num) (by norm_num) ?_ ?_
  · refine ⟨fun _ _ _ _ => rfl, fun _ _ _ _ => rfl, ?_, fun _ _ _ _ => rfl⟩
    intro j hj i hi
    unfold gridW at hi ⊢
    dsimp only at hi ⊢
    unfold fieldsW
    dsimp only
    have e1 : (j * 101 + i) % 101 = i := by omega
    have e2 : (j * 101 + i) / 101 = j := by omega
    rw [e1, e2]
    simp
  · intro q hq
    have hx : |q.1 - 50| ≤ dist (50, 50) q := by
      unfold dist hyp; rw [← Real.sqrt_sq_eq_abs]; apply Real.sqrt_le_sqrt; dsimp only; nlinarith [sq_nonneg (q.2 - 50)]
    have hy : |q.2 - 50| ≤ dist (50, 50) q := by
      unfold dist hyp; rw [← Real.sqrt_sq_eq_abs]; apply Real.sqrt_le_sqrt; dsimp only; nlinarith [sq_nonneg (q.1 - 50)]
    have hx' := abs_le.mp (hx.trans hq)
    have hy' := abs_le.mp (hy.trans hq)
    exact ⟨withinW (by linarith) (by linarith) (by linarith) (by linarith), by dsimp only; linarith, by dsimp only; linarith,
      by dsimp only; linarith, by dsimp only; linarith⟩
  · unfold buildCurve buildLoop traceCurve
    rw [if_neg (by norm_num : ¬ (31 / 10 : ℝ) ≤ 0)]
    have := traceW
    unfold paramsW at this
    rw [this]
    dsimp only
    rw [if_neg, if_pos (by norm_num)]
    rintro ⟨-, -, -, -, first, last, h1, h2, h3, h4, -⟩
    simp only [List.map_cons, List.map_nil, List.head?_cons, List.getLast?_cons_cons, List.getLast?_singleton] at h1 h2
    obtain rfl := Option.some.inj h1
    obtain rfl := Option.some.inj h2
    unfold validLength at h4
    simp only [List.map_cons, List.map_nil, segs] at h4
    have z1 : hyp (53 - 50) (50 - 50) = 3 := by rw [sub_self, hhyp]; norm_num
    have z2 : hyp (521 / 10 - 53) (50 - 50) = 9 / 10 := by rw [sub_self, hhyp, abs_of_neg (by norm_num)]; norm_num
    have z3 : hyp (521 / 10 - 50) (50 - 50) = 21 / 10 := by rw [sub_self, hhyp]; norm_num
    rw [List.filter_cons_of_pos (by dsimp only; rw [z1]; norm_num), List.filter_cons_of_pos (by dsimp only; rw [z2]; norm_num)] at h4
    simp only [List.filter_nil, List.map_cons, List.map_nil, List.sum_cons, List.sum_nil] at h4
    rw [z1, z2, z3] at h4
    norm_num at h4

/-- A straight curve without kinks of 52 degrees and without tiny segments runs in one direction. -/
private theorem one_way (m s : ℝ × ℝ) (l : List (ℝ × ℝ)) (hline : ∀ q ∈ l, onLine m s q) (hm : m ≠ (0, 0))
    (hfar : List.IsChain (fun v w => 2 / 10 < dist v w) l) (hturn : ∀ t ∈ turns (dirs l), t ≤ 52) :
    List.IsChain (fun p q : ℝ × ℝ => 0 < m.1 * (q.1 - p.1) + m.2 * (q.2 - p.2)) l ∨
      List.IsChain (fun p q : ℝ × ℝ => m.1 * (q.1 - p.1) + m.2 * (q.2 - p.2) < 0) l := by
  have hfarseg : ∀ {p q : ℝ × ℝ}, 2 / 10 < dist p q → 1 / 10 ^ 6 < hyp (q.1 - p.1) (q.2 - p.2) := by
    intro p q h
    unfold dist at h
    have : (1 : ℝ) / 10 ^ 6 < 2 / 10 := by norm_num
    linarith
  have hm2 : 0 < m.1 * m.1 + m.2 * m.2 := by
    rcases eq_or_ne m.1 0 with h1 | h1
    · have h2 : m.2 ≠ 0 := fun h2 => hm (Prod.ext h1 h2)
      have := mul_self_pos.mpr h2
      nlinarith [mul_self_nonneg m.1]
    · have := mul_self_pos.mpr h1
      nlinarith [mul_self_nonneg m.2]
  have hcross : ∀ {p q : ℝ × ℝ}, onLine m s p → onLine m s q → m.1 * (q.2 - p.2) - m.2 * (q.1 - p.1) = 0 := by
    intro p q hp hq; unfold onLine at hp hq; linarith
  have hne : ∀ {p q : ℝ × ℝ}, onLine m s p → onLine m s q → 2 / 10 < dist p q → m.1 * (q.1 - p.1) + m.2 * (q.2 - p.2) ≠ 0 := by
    intro p q hp hq hd h0
    have hc := hcross hp hq
    have hsq := hyp_sq (q.1 - p.1) (q.2 - p.2)
    have h1 : (m.1 * m.1 + m.2 * m.2) * ((q.1 - p.1) * (q.1 - p.1) + (q.2 - p.2) * (q.2 - p.2)) =
        (m.1 * (q.1 - p.1) + m.2 * (q.2 - p.2)) ^ 2 + (m.1 * (q.2 - p.2) - m.2 * (q.1 - p.1)) ^ 2 := by ring
    rw [h0, hc, ← hsq] at h1
    have h2 : 0 < hyp (q.1 - p.1) (q.2 - p.2) := lt_trans (by norm_num) (hfarseg hd)
    have := mul_pos hm2 (mul_pos h2 h2)
    linarith
  induction l with
  | nil => exact Or.inl List.IsChain.nil
  | cons p l ih =>
    cases l with
    | nil => exact Or.inl (List.isChain_singleton _)
    | cons q l =>
      have hp := hline p (by simp)
      have hq := hline q (by simp)
      rw [List.isChain_cons_cons] at hfar
      have hpq := hne hp hq hfar.1
      cases l with
      | nil =>
        rcases lt_or_gt_of_ne hpq with h | h
        · right; simpa using h
        · left; simpa using h
      | cons r l =>
        have hr := hline r (by simp)
        have hfar' := hfar.2
        rw [List.isChain_cons_cons] at hfar'
        have hqr := hne hq hr hfar'.1
        have e1 := hfarseg hfar.1
        have e2 := hfarseg hfar'.1
        have hd : dirs (p :: q :: r :: l) =
            ((q.1 - p.1) / hyp (q.1 - p.1) (q.2 - p.2), (q.2 - p.2) / hyp (q.1 - p.1) (q.2 - p.2)) :: dirs (q :: r :: l) := by
          unfold dirs
          rw [segs, List.filter_cons_of_pos (by simpa using e1), List.map_cons]
        have hd2 : dirs (q :: r :: l) =
            ((r.1 - q.1) / hyp (r.1 - q.1) (r.2 - q.2), (r.2 - q.2) / hyp (r.1 - q.1) (r.2 - q.2)) :: dirs (r :: l) := by
          unfold dirs
          rw [segs, List.filter_cons_of_pos (by simpa using e2), List.map_cons]
        have ht : turns (dirs (p :: q :: r :: l)) =
            turn ((q.1 - p.1) / hyp (q.1 - p.1) (q.2 - p.2), (q.2 - p.2) / hyp (q.1 - p.1) (q.2 - p.2))
              ((r.1 - q.1) / hyp (r.1 - q.1) (r.2 - q.2), (r.2 - q.2) / hyp (r.1 - q.1) (r.2 - q.2)) :: turns (dirs (q :: r :: l)) := by
          rw [hd, hd2, turns]
        rw [ht] at hturn
        have hih := ih (fun z hz => hline z (List.mem_cons_of_mem _ hz)) hfar.2 (fun t htt => hturn t (List.mem_cons_of_mem _ htt))
        have h52 := hturn _ List.mem_cons_self
        -- the two segments have the same sense
        have hsame : 0 < (m.1 * (q.1 - p.1) + m.2 * (q.2 - p.2)) * (m.1 * (r.1 - q.1) + m.2 * (r.2 - q.2)) := by
          by_contra hn
          have hlt : (m.1 * (q.1 - p.1) + m.2 * (q.2 - p.2)) * (m.1 * (r.1 - q.1) + m.2 * (r.2 - q.2)) < 0 :=
            lt_of_le_of_ne (not_lt.mp hn) (mul_ne_zero hpq hqr)
          have c1 := hcross hp hq
          have c2 := hcross hq hr
          have s1 := hyp_sq (q.1 - p.1) (q.2 - p.2)
          have s2 := hyp_sq (r.1 - q.1) (r.2 - q.2)
          have n1 : 0 < hyp (q.1 - p.1) (q.2 - p.2) := lt_trans (by norm_num) e1
          have n2 : 0 < hyp (r.1 - q.1) (r.2 - q.2) := lt_trans (by norm_num) e2
          generalize hyp (q.1 - p.1) (q.2 - p.2) = A at *
          generalize hyp (r.1 - q.1) (r.2 - q.2) = B at *
          generalize q.1 - p.1 = a1 at *
          generalize q.2 - p.2 = a2 at *
          generalize r.1 - q.1 = b1 at *
          generalize r.2 - q.2 = b2 at *
          have u1 : a1 / A * (a1 / A) + a2 / A * (a2 / A) = 1 := by field_simp; nlinarith
          have u2 : b1 / B * (b1 / B) + b2 / B * (b2 / B) = 1 := by field_simp; nlinarith
          rw [turn_eq u1 u2] at h52
          have hdotneg : a1 * b1 + a2 * b2 < 0 := by
            have : (m.1 * m.1 + m.2 * m.2) * (a1 * b1 + a2 * b2) =
                (m.1 * a1 + m.2 * a2) * (m.1 * b1 + m.2 * b2) + (m.1 * a2 - m.2 * a1) * (m.1 * b2 - m.2 * b1) := by ring
            rw [c1, zero_mul, add_zero] at this
            by_contra hge
            have := mul_nonneg hm2.le (not_lt.mp hge)
            linarith
          have hneg : a1 / A * (b1 / B) + a2 / A * (b2 / B) ≤ 0 := by
            have : a1 / A * (b1 / B) + a2 / A * (b2 / B) = (a1 * b1 + a2 * b2) / (A * B) := by field_simp
            rw [this]
            exact (div_neg_of_neg_of_pos hdotneg (mul_pos n1 n2)).le
          have h90 : Real.pi / 2 ≤ Real.arccos (a1 / A * (b1 / B) + a2 / A * (b2 / B)) := by
            rw [← Real.arccos_zero]
            exact Real.arccos_le_arccos hneg
          have hpi := Real.pi_pos
          rw [div_le_iff₀ hpi] at h52
          dsimp only at h52
          linarith
        rcases hih with h | h
        · left
          rw [List.isChain_cons_cons]
          refine ⟨?_, h⟩
          rw [List.isChain_cons_cons] at h
          exact (pos_iff_pos_of_mul_pos hsame).mpr h.1
        · right
          rw [List.isChain_cons_cons]
          refine ⟨?_, h⟩
          rw [List.isChain_cons_cons] at h
          exact (neg_iff_neg_of_mul_pos hsame).mpr h.1

/-- C276, the part that holds: where the wind is the same everywhere and the display map is linear, every glyph that is drawn
is a straight line that runs downwind from its first to its last vertex. Missing: that every point gets one
(false, see `C276_false`). -/
theorem C276_partial (g : Grid) (F : Fields) (a b c d e f u v : ℝ) (hdx : 0 < g.dx) (hdy : 0 < g.dy)
    (hF : LinearDisplay g F a b c d e f) (hu : ∀ k, F.u k = some u) (hv : ∀ k, F.v k = some v) (step scale : ℝ) (view : View)
    (anchor : Anchor) (start : ℝ × ℝ) (len : ℝ) (hl : 0 ≤ len) (l : Curve)
    (h : buildCurve g F step scale view anchor start len = some l) :
    (∀ w ∈ l, onLine (b * u + c * v, e * u + f * v) (a + b * start.1 + c * start.2, d + e * start.1 + f * start.2) w.2) ∧
    List.IsChain (fun p q : ℝ × ℝ => 0 < (b * u + c * v) * (q.1 - p.1) + (e * u + f * v) * (q.2 - p.2)) (l.map Prod.snd) := by
  obtain ⟨len', hle, ht, hacc⟩ := buildLoop_some h hl
  obtain ⟨-, -, -, _, _, -, -, -, -, hturn, -⟩ := hacc
  rw [foldl_max_le] at hturn
  set m : ℝ × ℝ := (b * u + c * v, e * u + f * v) with hm
  set S : ℝ × ℝ := (a + b * start.1 + c * start.2, d + e * start.1 + f * start.2) with hS
  have symm : ∀ q : List (ℝ × ℝ), List.IsChain (fun v w => 2 / 10 < dist v w) q → List.IsChain (fun v w => 2 / 10 < dist v w) q.reverse := by
    intro q hq
    rw [List.isChain_reverse]
    refine hq.imp ?_
    intro x y hxy
    show 2 / 10 < dist y x
    rw [dist_comm]; exact hxy
  have line : ∀ (n s : ℝ) (q : Curve), (s = 1 ∨ s = -1) → trace g F ⟨n, s, step, scale, view⟩ 512 start = some q →
      ∀ w ∈ q, onLine m S w.2 := fun n s q hs hq =>
    C274_partial g F a b c d e f u v hdx hdy hF hu hv ⟨n, s, step, scale, view⟩ hs 512 start q hq
  have far : ∀ (n s : ℝ) (q : Curve), (s = 1 ∨ s = -1) → trace g F ⟨n, s, step, scale, view⟩ 512 start = some q →
      List.IsChain (fun v w => 2 / 10 < dist v w) (q.map Prod.snd) := fun n s q hs hq =>
    (C272_trace g F a b c d e f hdx hdy hF ⟨n, s, step, scale, view⟩ hs 512 start q hq).2.1
  have first : ∀ (n s : ℝ) (q : Curve), (s = 1 ∨ s = -1) → trace g F ⟨n, s, step, scale, view⟩ 512 start = some q →
      ∃ z rest, q.map Prod.snd = S :: z :: rest ∧ 0 < s * (m.1 * (z.1 - S.1) + m.2 * (z.2 - S.2)) := fun n s q hs hq =>
    C274_first g F a b c d e f u v hdx hdy hF hu hv ⟨n, s, step, scale, view⟩ hs 512 start q hq
  have finish : (∀ w ∈ l, onLine m S w.2) → List.IsChain (fun v w => 2 / 10 < dist v w) (l.map Prod.snd) →
      (∃ xs ys p q, l.map Prod.snd = xs ++ p :: q :: ys ∧ 0 < m.1 * (q.1 - p.1) + m.2 * (q.2 - p.2)) →
      (∀ w ∈ l, onLine m S w.2) ∧ List.IsChain (fun p q : ℝ × ℝ => 0 < m.1 * (q.1 - p.1) + m.2 * (q.2 - p.2)) (l.map Prod.snd) := by
    rintro h1 h2 ⟨xs, ys, p, q, hpq, hpos⟩
    refine ⟨h1, ?_⟩
    have hm0 : m ≠ (0, 0) := by
      intro h0; rw [h0] at hpos; simp at hpos
    rcases one_way m S (l.map Prod.snd) (by
      intro z hz
      obtain ⟨w, hw, rfl⟩ := List.mem_map.mp hz
      exact h1 w hw) hm0 h2 hturn.2 with h3 | h3
    · exact h3
    · exfalso
      rw [hpq] at h3
      have := (List.isChain_append.mp h3).2.1
      rw [List.isChain_cons_cons] at this
      linarith [this.1]
  unfold traceCurve at ht
  split_ifs at ht with h0
  cases anchor with
  | tail =>
    dsimp only at ht
    refine finish (line _ _ _ (Or.inl rfl) ht) (far _ _ _ (Or.inl rfl) ht) ?_
    obtain ⟨z, rest, e1, e2⟩ := first _ _ _ (Or.inl rfl) ht
    exact ⟨[], rest, S, z, e1, by linarith⟩
  | head =>
    dsimp only at ht
    obtain ⟨q, hq, rfl⟩ := Option.map_eq_some_iff.mp ht
    refine finish (fun w hw => line _ _ _ (Or.inr rfl) hq w (List.mem_reverse.mp hw)) ?_ ?_
    · rw [List.map_reverse]; exact symm _ (far _ _ _ (Or.inr rfl) hq)
    · obtain ⟨z, rest, e1, e2⟩ := first _ _ _ (Or.inr rfl) hq
      refine ⟨rest.reverse, [], z, S, ?_, by linarith⟩
      rw [List.map_reverse, e1]; simp
  | center =>
    dsimp only at ht
    split at ht
    · cases ht
    · rename_i q hb hf
      obtain rfl := Option.some.inj ht
      refine finish (line _ _ _ (Or.inl rfl) hf) (far _ _ _ (Or.inl rfl) hf) ?_
      obtain ⟨z, rest, e1, e2⟩ := first _ _ _ (Or.inl rfl) hf
      exact ⟨[], rest, S, z, e1, by linarith⟩
    · rename_i q hq hf
      obtain rfl := Option.some.inj ht
      refine finish (fun w hw => line _ _ _ (Or.inr rfl) hq w (List.mem_reverse.mp hw)) ?_ ?_
      · rw [List.map_reverse]; exact symm _ (far _ _ _ (Or.inr rfl) hq)
      · obtain ⟨z, rest, e1, e2⟩ := first _ _ _ (Or.inr rfl) hq
        refine ⟨rest.reverse, [], z, S, ?_, by linarith⟩
        rw [List.map_reverse, e1]; simp
    · rename_i q r hq hr
      obtain rfl := Option.some.inj ht
      obtain ⟨z, rest, e1, e2⟩ := first _ _ _ (Or.inl rfl) hr
      have f1 := symm _ (far _ _ _ (Or.inr rfl) hq)
      have f2 := far _ _ _ (Or.inl rfl) hr
      obtain ⟨z', rest', e1', -⟩ := first _ _ _ (Or.inr rfl) hq
      have htail : r.tail.map Prod.snd = z :: rest := by rw [List.map_tail, e1]; rfl
      refine finish ?_ ?_ ?_
      · intro w hw
        rcases List.mem_append.mp hw with hw | hw
        · exact line _ _ _ (Or.inr rfl) hq w (List.mem_reverse.mp hw)
        · exact line _ _ _ (Or.inl rfl) hr w (List.mem_of_mem_tail hw)
      · rw [List.map_append, List.map_reverse, htail]
        rw [e1'] at f1 ⊢
        rw [e1] at f2
        rw [List.isChain_append]
        refine ⟨f1, (List.isChain_cons_cons.mp f2).2, ?_⟩
        intro x hx y hy
        simp only [List.reverse_cons, List.append_assoc, List.cons_append, List.nil_append, List.getLast?_append,
          List.getLast?_cons_cons, List.getLast?_singleton, Option.mem_def, Option.some_or, Option.some.injEq,
          List.head?_cons] at hx hy
        rw [← hx, ← hy]
        exact (List.isChain_cons_cons.mp f2).1
      · refine ⟨(z' :: rest').reverse, rest, S, z, ?_, by linarith⟩
        rw [List.map_append, List.map_reverse, htail, e1', List.reverse_cons, List.append_assoc]
        rfl

/-! ### Hypotheses are met -/

/-- A glyph that is drawn: four vertices, two kinks. -/
theorem drawnD : buildCurve gridW fieldsW 3 1 ⟨0, 0, 100, 100⟩ .tail (50, 50) 5 =
    some [((50, 50), (50, 50)), ((53, 50), (53, 50)), ((54, 50), (54, 50)), ((164 / 3, 50), (164 / 3, 50))] := by
  have hhyp : ∀ z : ℝ, hyp z 0 = |z| := by
    intro z; unfold hyp; rw [mul_zero, add_zero, ← sq, Real.sqrt_sq_eq_abs]
  have z0 : hyp (53 - 50) (50 - 50) = 3 := by rw [sub_self, hhyp]; norm_num
  have z1 : hyp (54 - 53) (50 - 50) = 1 := by rw [sub_self, hhyp]; norm_num
  have z2 : hyp (164 / 3 - 54) (50 - 50) = 2 / 3 := by rw [sub_self, hhyp, abs_of_pos (by norm_num)]; norm_num
  have z3 : hyp (164 / 3 - 50) (50 - 50) = 14 / 3 := by rw [sub_self, hhyp, abs_of_pos (by norm_num)]; norm_num
  have hf : (segs [(50, 50), (53, 50), (54, 50), ((164 / 3 : ℝ), 50)]).filter (fun s => 1 / 10 ^ 6 < hyp s.1 s.2) =
      [(53 - 50, 50 - 50), (54 - 53, 50 - 50), (164 / 3 - 54, 50 - 50)] := by
    simp only [segs]
    rw [List.filter_cons_of_pos (by dsimp only; rw [z0]; norm_num), List.filter_cons_of_pos (by dsimp only; rw [z1]; norm_num),
      List.filter_cons_of_pos (by dsimp only; rw [z2]; norm_num), List.filter_nil]
  have hdirs : dirs [(50, 50), (53, 50), (54, 50), ((164 / 3 : ℝ), 50)] = [(1, 0), (1, 0), (1, 0)] := by
    unfold dirs
    rw [hf]
    simp only [List.map_cons, List.map_nil, z0, z1, z2]
    norm_num
  have hturn : turn (1, 0) (1, 0) = 0 := by rw [turn_eq (by norm_num) (by norm_num)]; norm_num
  have hw : 100 ≤ hyp (100 - 0) (100 - 0) := by
    unfold hyp
    apply Real.le_sqrt_of_sq_le
    norm_num
  unfold buildCurve buildLoop traceCurve
  rw [if_neg (by norm_num : ¬ (5 : ℝ) ≤ 0)]
  have := traceD
  unfold paramsW at this
  rw [this]
  dsimp only
  rw [if_pos]
  refine ⟨by simp, by simp, ?_, ?_, (50, 50), (164 / 3, 50), by simp, by simp, ?_, ?_, ?_, ?_, ?_⟩
  · intro _ s hs
    refine le_trans ?_ (le_max_left _ _)
    generalize hyp (100 - 0) (100 - 0) = D at hw ⊢
    simp only [List.map_cons, List.map_nil, segs, List.mem_cons, List.not_mem_nil, or_false] at hs
    rcases hs with rfl | rfl | rfl
    · dsimp only; rw [z0]; linarith
    · dsimp only; rw [z1]; linarith
    · dsimp only; rw [z2]; linarith
  · simp only [List.map_cons, List.map_nil]; rw [hdirs]; simp
  · simp only [List.map_cons, List.map_nil]
    unfold validLength
    rw [hf]
    simp only [List.map_cons, List.map_nil, List.sum_cons, List.sum_nil]
    rw [z0, z1, z2, z3]
    norm_num
  · simp only [List.map_cons, List.map_nil]
    unfold validLength
    rw [hf]
    simp only [List.map_cons, List.map_nil, List.sum_cons, List.sum_nil]
    rw [z0, z1, z2, z3]
    norm_num
  · simp only [List.map_cons, List.map_nil]; rw [hdirs]; simp [turns, hturn]
  · simp only [List.map_cons, List.map_nil]; rw [hdirs]; simp [turns, hturn]
  · simp only [List.map_cons, List.map_nil]; rw [hdirs]; simp [turns, hturn]

end Skyborn.Plot.Curly
