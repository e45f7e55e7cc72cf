/-
Arrows along contour lines (`skyborn.plot.arrow_contour`): the native routine.
Modelled: plot/contour_core/_contour_core.c:17-353.
-/
import Verif.Plot.Cells
import Mathlib.Analysis.SpecialFunctions.Trigonometric.Inverse
import Mathlib.Analysis.SpecialFunctions.Sqrt

namespace Skyborn.Plot.Contour

open Skyborn.Plot

/-! ## Specification -/

namespace Spec

/-- Euclidean distance. -/
noncomputable def dist (p q : Pt ℝ) : ℝ := Real.sqrt ((q.x - p.x) ^ 2 + (q.y - p.y) ^ 2)

/-- Point of the line, by position in the list. -/
noncomputable def vtx (vs : List (Pt ℝ)) (k : ℕ) : Pt ℝ := vs.getD k ⟨0, 0⟩

/-- Length along the line from its first vertex to vertex `k`. -/
noncomputable def arcTo (vs : List (Pt ℝ)) (k : ℕ) : ℝ :=
  ∑ i ∈ Finset.range k, dist (vtx vs i) (vtx vs (i + 1))

/-- Length of the whole line. -/
noncomputable def length (vs : List (Pt ℝ)) : ℝ := arcTo vs (vs.length - 1)

/-- `p` lies on the line at distance `t` from its beginning, measured along the line. -/
def AtArc (vs : List (Pt ℝ)) (t : ℝ) (p : Pt ℝ) : Prop :=
  ∃ (k : ℕ) (s : ℝ), k + 1 < vs.length ∧ 0 ≤ s ∧ s ≤ 1 ∧
    p.x = (vtx vs k).x + s * ((vtx vs (k + 1)).x - (vtx vs k).x) ∧
    p.y = (vtx vs k).y + s * ((vtx vs (k + 1)).y - (vtx vs k).y) ∧
    t = arcTo vs k + s * dist (vtx vs k) (vtx vs (k + 1))

end Spec

/-! ## Model -/

/-- plot/contour_core/_contour_core.c:17-19 `hypot2`. -/
noncomputable def hypot2 (x y : ℝ) : ℝ := Real.sqrt (x ^ 2 + y ^ 2)

/-- plot/contour_core/_contour_core.c:73-82 `total_length` (and 35-39). -/
noncomputable def totalLength : List (Pt ℝ) → ℝ
  | a :: b :: rest => hypot2 (b.x - a.x) (b.y - a.y) + totalLength (b :: rest)
  | _ => 0

/-- plot/contour_core/_contour_core.c:49-69: the walk along the segments. -/
noncomputable def walk (cumulative distance : ℝ) : List (Pt ℝ) → Pt ℝ
  | a :: b :: rest =>
    let dx := b.x - a.x
    let dy := b.y - a.y
    let length := hypot2 dx dy
    if length ≤ 0 then walk cumulative distance (b :: rest)
    else if cumulative + length ≥ distance then
      let fraction := (distance - cumulative) / length
      ⟨a.x + fraction * dx, a.y + fraction * dy⟩
    else walk (cumulative + length) distance (b :: rest)
  | [a] => a
  | [] => ⟨0, 0⟩

/-- plot/contour_core/_contour_core.c:21-71 `point_at_distance`; `none`: returns 0. -/
noncomputable def pointAt (vs : List (Pt ℝ)) (distance : ℝ) : Option (Pt ℝ) :=
  if vs.length < 2 then none
  else
    let total := totalLength vs
    if total ≤ 0 then none
    else
      let distance := if distance < 0 then 0 else if distance > total then total else distance
      some (walk 0 distance vs)

/-- plot/contour_core/_contour_core.c:84-123 `local_straightness_score`; `none`: minus infinity. -/
noncomputable def score (vs : List (Pt ℝ)) (distance arrowLength : ℝ) : Option ℝ :=
  match pointAt vs (max 0 (distance - arrowLength)), pointAt vs (max 0 (distance - arrowLength * (1 / 2))),
      pointAt vs distance with
  | some s, some m, some e =>
    let fx := m.x - s.x
    let fy := m.y - s.y
    let sx := e.x - m.x
    let sy := e.y - m.y
    let first := hypot2 fx fy
    let second := hypot2 sx sy
    let chord := hypot2 (e.x - s.x) (e.y - s.y)
    if first ≤ 0 ∨ second ≤ 0 ∨ chord ≤ 0 then none
    else
      let cosine := (fx * sx + fy * sy) / (first * second)
      let cosine := if cosine < -1 then -1 else if cosine > 1 then 1 else cosine
      let turn := Real.arccos cosine
      let ratio := min (chord / max arrowLength (1 / 1000000000000)) 1
      some (ratio - 65 / 100 * (turn / Real.pi))
  | _, _, _ => none

/-- plot/contour_core/_contour_core.c:12-15 `Candidate`: score and distance. -/
abbrev Candidate := ℝ × ℝ

/-- Contract of `qsort` with plot/contour_core/_contour_core.c:125-135
`compare_candidates_desc`. -/
structure IsQsortDesc (qsort : List Candidate → List Candidate) : Prop where
  perm : ∀ l, (qsort l).Perm l
  sorted : ∀ l, (qsort l).Pairwise (fun a b => b.1 ≤ a.1)

/-- plot/contour_core/_contour_core.c:188-199 and 206-217: take a distance unless it is closer than
`gap` to one already taken, up to `count` of them. -/
noncomputable def pick (gap : ℝ) (count : ℕ) : List ℝ → List ℝ → List ℝ
  | [], sel => sel
  | d :: rest, sel =>
    if sel.length < count then
      if (sel.any (fun s => decide (|d - s| < gap))) = true then pick gap count rest sel
      else pick gap count rest (sel ++ [d])
    else sel

/-- plot/contour_core/_contour_core.c:154-158, 204-205: evenly spaced distances. -/
noncomputable def evenly (pathLength : ℝ) (count : ℕ) : List ℝ :=
  (List.range count).map (fun i : ℕ => pathLength / (count : ℝ) * ((i : ℝ) + 1 / 2))

/-- plot/contour_core/_contour_core.c:222-228: the inner loop of the final sort, which carries the
smallest value to the front. -/
noncomputable def sortPass (x : ℝ) : List ℝ → ℝ × List ℝ
  | [] => (x, [])
  | y :: ys =>
    if y < x then ((sortPass y ys).1, x :: (sortPass y ys).2)
    else ((sortPass x ys).1, y :: (sortPass x ys).2)

theorem sortPass_length (x : ℝ) (l : List ℝ) : (sortPass x l).2.length = l.length := by
  induction l generalizing x with
  | nil => rfl
  | cons y ys ih => unfold sortPass; split_ifs <;> simp [ih]

/-- plot/contour_core/_contour_core.c:221-229: the final sort by exchanges. -/
noncomputable def exchangeSort : List ℝ → List ℝ
  | [] => []
  | x :: xs => (sortPass x xs).1 :: exchangeSort (sortPass x xs).2
termination_by l => l.length
decreasing_by simp [sortPass_length]

/-- plot/contour_core/_contour_core.c:137-231 `select_arrow_distances`; allocation succeeds. -/
noncomputable def selectDistances (qsort : List Candidate → List Candidate) (vs : List (Pt ℝ))
    (pathLength : ℝ) (count : ℕ) (arrowLength : ℝ) : List ℝ :=
  if count = 0 ∨ pathLength ≤ 0 then []
  else if count ≤ 1 then [pathLength * (1 / 2)]
  else
    let lower := min pathLength (arrowLength * (11 / 10))
    let upper := max lower (pathLength - arrowLength * (1 / 2))
    if upper ≤ lower then evenly pathLength count
    else
      let samples : ℕ := if count * 28 > 64 then count * 28 else 64
      let cands : List Candidate := (List.range samples).filterMap (fun i : ℕ =>
        let fraction : ℝ := if samples = 1 then 0 else (i : ℝ) / ((samples - 1 : ℕ) : ℝ)
        let distance := lower + fraction * (upper - lower)
        (score vs distance arrowLength).map (fun s => (s, distance)))
      let minSpacing := max (arrowLength * (5 / 2)) (pathLength / max ((count : ℝ) * (22 / 10)) 1)
      let first := pick minSpacing count ((qsort cands).map Prod.snd) []
      let all := if first.length < count then pick arrowLength count (evenly pathLength count) first
        else first
      exchangeSort all

/-- One arrow: where it starts and ends, and the outer ends of its two head strokes. -/
structure Arrow where
  tail : Pt ℝ
  tip : Pt ℝ
  left : Pt ℝ
  right : Pt ℝ

/-- plot/contour_core/_contour_core.c:313-347: one pass of the loop; `none`: `continue`. -/
noncomputable def arrowAt (vs : List (Pt ℝ)) (arrowLength arrowSize d : ℝ) : Option Arrow :=
  match pointAt vs (max 0 (d - arrowLength)), pointAt vs d with
  | some s, some e =>
    let vx := e.x - s.x
    let vy := e.y - s.y
    let vlen := hypot2 vx vy
    if vlen ≤ 0 then none
    else
      let tx := vx / vlen
      let ty := vy / vlen
      let nx := -ty
      let ny := tx
      let width := vlen * arrowSize
      some { tail := s, tip := e,
             left := ⟨s.x + nx * width * (1 / 2), s.y + ny * width * (1 / 2)⟩,
             right := ⟨s.x - nx * width * (1 / 2), s.y - ny * width * (1 / 2)⟩ }
  | _, _ => none

/-- plot/contour_core/_contour_core.c:233-353 `build_arrow_segments`, for an (n, 2) array of vertices:
the rows of the two returned arrays, arrow by arrow; `none`: a row of the array that was allocated but
never written. -/
noncomputable def buildArrows (qsort : List Candidate → List Candidate) (vs : List (Pt ℝ)) (count : ℕ)
    (arrowLength arrowSize : ℝ) : List (Option Arrow) :=
  if vs.length < 2 ∨ count < 1 ∨ arrowLength ≤ 0 ∨ arrowSize ≤ 0 then []
  else
    let ds := selectDistances qsort vs (totalLength vs) count arrowLength
    let written := ds.filterMap (arrowAt vs arrowLength arrowSize)
    written.map some ++ List.replicate (ds.length - written.length) none

/-! ## Proofs: points on the line -/

theorem hypot2_eq (a b : Pt ℝ) : hypot2 (b.x - a.x) (b.y - a.y) = Spec.dist a b := rfl

theorem dist_nonneg (a b : Pt ℝ) : 0 ≤ Spec.dist a b := Real.sqrt_nonneg _

private theorem vtx_cons (a : Pt ℝ) (vs : List (Pt ℝ)) (k : ℕ) : Spec.vtx (a :: vs) (k + 1) = Spec.vtx vs k := by
  simp [Spec.vtx]

private theorem arcTo_cons (a b : Pt ℝ) (rest : List (Pt ℝ)) (k : ℕ) :
    Spec.arcTo (a :: b :: rest) (k + 1) = Spec.dist a b + Spec.arcTo (b :: rest) k := by
  unfold Spec.arcTo
  rw [Finset.sum_range_succ']
  simp only [vtx_cons]
  rw [add_comm]
  rfl

theorem totalLength_eq (vs : List (Pt ℝ)) : totalLength vs = Spec.length vs := by
  induction vs with
  | nil => simp [totalLength, Spec.length, Spec.arcTo]
  | cons a rest ih =>
    cases rest with
    | nil => simp [totalLength, Spec.length, Spec.arcTo]
    | cons b rest =>
      rw [totalLength, ih, hypot2_eq]
      unfold Spec.length
      simp only [List.length_cons, Nat.add_sub_cancel]
      rw [arcTo_cons]

theorem totalLength_nonneg (vs : List (Pt ℝ)) : 0 ≤ totalLength vs := by
  rw [totalLength_eq]
  unfold Spec.length Spec.arcTo
  exact Finset.sum_nonneg (fun i _ => dist_nonneg _ _)

private theorem walk_spec (d : ℝ) : ∀ (vs : List (Pt ℝ)) (cum : ℝ), 2 ≤ vs.length → 0 ≤ d - cum →
    d - cum ≤ totalLength vs → Spec.AtArc vs (d - cum) (walk cum d vs) := by
  intro vs
  induction vs with
  | nil => intro cum h; simp at h
  | cons a rest ih =>
    intro cum hlen h0 h1
    cases rest with
    | nil => simp at hlen
    | cons b rest =>
      rw [totalLength, hypot2_eq] at h1
      unfold walk
      dsimp only
      rw [hypot2_eq]
      have shift : ∀ t p, Spec.AtArc (b :: rest) t p → Spec.AtArc (a :: b :: rest) (Spec.dist a b + t) p := by
        rintro t p ⟨k, s, hk, hs0, hs1, hx, hy, ht⟩
        refine ⟨k + 1, s, by simp only [List.length_cons] at *; omega, hs0, hs1, ?_, ?_, ?_⟩
        · rw [vtx_cons, vtx_cons]; exact hx
        · rw [vtx_cons, vtx_cons]; exact hy
        · rw [vtx_cons, vtx_cons, arcTo_cons, ht]; ring
      split_ifs with c1 c2
      · have hz : Spec.dist a b = 0 := le_antisymm c1 (dist_nonneg a b)
        cases rest with
        | nil =>
          have hd : d - cum = 0 := by
            have : totalLength [b] = 0 := rfl
            rw [hz, this] at h1
            linarith
          refine ⟨0, 1, by simp, by norm_num, by norm_num, ?_, ?_, ?_⟩
          · simp [walk, Spec.vtx]
          · simp [walk, Spec.vtx]
          · rw [hd]
            have : Spec.dist (Spec.vtx [a, b] 0) (Spec.vtx [a, b] (0 + 1)) = Spec.dist a b := rfl
            rw [this, hz]
            simp [Spec.arcTo]
        | cons c rest =>
          have := shift _ _ (ih cum (by simp) h0 (by rw [hz] at h1; linarith))
          rw [hz, zero_add] at this
          exact this
      · push Not at c1
        refine ⟨0, (d - cum) / Spec.dist a b, by simp, div_nonneg h0 c1.le, ?_, ?_, ?_, ?_⟩
        · rw [div_le_one c1]; linarith
        · rfl
        · rfl
        · have : Spec.dist (Spec.vtx (a :: b :: rest) 0) (Spec.vtx (a :: b :: rest) (0 + 1)) =
            Spec.dist a b := rfl
          rw [this]
          simp only [Spec.arcTo, Finset.range_zero, Finset.sum_empty, zero_add]
          field_simp
      · push Not at c1 c2
        cases rest with
        | nil =>
          exfalso
          have : totalLength [b] = 0 := rfl
          rw [this] at h1
          linarith
        | cons c rest =>
          have := shift _ _ (ih (cum + Spec.dist a b) (by simp) (by linarith) (by linarith))
          convert this using 1
          ring

/-- The clamped distance. -/
theorem pointAt_spec (vs : List (Pt ℝ)) (h2 : 2 ≤ vs.length) (hL : 0 < Spec.length vs) (d : ℝ) :
    ∃ p, pointAt vs d = some p ∧ Spec.AtArc vs (max 0 (min d (Spec.length vs))) p := by
  unfold pointAt
  rw [if_neg (by omega)]
  dsimp only
  rw [totalLength_eq, if_neg (not_le.mpr hL)]
  refine ⟨_, rfl, ?_⟩
  have e : (if d < 0 then 0 else if d > Spec.length vs then Spec.length vs else d) =
      max 0 (min d (Spec.length vs)) := by
    split_ifs with h1 h3
    · rw [max_eq_left]; exact (min_le_left _ _).trans h1.le
    · rw [min_eq_right h3.le, max_eq_right hL.le]
    · push Not at h1 h3
      rw [min_eq_left h3, max_eq_right h1]
  rw [e]
  have := walk_spec (max 0 (min d (Spec.length vs))) vs 0 h2 (by simp)
    (by rw [sub_zero, totalLength_eq]; exact max_le hL.le (min_le_right _ _))
  rwa [sub_zero] at this

/-! ## Proofs: the selection -/

private theorem sortPass_perm (x : ℝ) (l : List ℝ) :
    ((sortPass x l).1 :: (sortPass x l).2).Perm (x :: l) := by
  induction l generalizing x with
  | nil => exact List.Perm.refl _
  | cons y ys ih =>
    unfold sortPass
    split_ifs
    · dsimp only
      exact (List.Perm.swap _ _ _).trans ((ih y).cons x)
    · dsimp only
      exact (List.Perm.swap _ _ _).trans (((ih x).cons y).trans (List.Perm.swap _ _ _))

private theorem sortPass_le (x : ℝ) (l : List ℝ) :
    ∀ z ∈ x :: l, (sortPass x l).1 ≤ z := by
  induction l generalizing x with
  | nil => intro z hz; rw [List.mem_singleton.mp hz]; exact le_rfl
  | cons y ys ih =>
    intro z hz
    unfold sortPass
    split_ifs with h
    · dsimp only
      rcases List.mem_cons.mp hz with rfl | hz
      · exact (ih y y List.mem_cons_self).trans h.le
      · exact ih y z hz
    · dsimp only
      push Not at h
      rcases List.mem_cons.mp hz with rfl | hz
      · exact ih z z List.mem_cons_self
      · rcases List.mem_cons.mp hz with rfl | hz
        · exact (ih x x List.mem_cons_self).trans h
        · exact ih x z (List.mem_cons_of_mem _ hz)

theorem exchangeSort_spec : ∀ (n : ℕ) (l : List ℝ), l.length = n →
    (exchangeSort l).Perm l ∧ (exchangeSort l).Pairwise (· ≤ ·) := by
  intro n
  induction n with
  | zero =>
    intro l hl
    rw [List.length_eq_zero_iff.mp hl, exchangeSort]
    exact ⟨List.Perm.refl _, List.Pairwise.nil⟩
  | succ n ih =>
    intro l hl
    cases l with
    | nil => simp at hl
    | cons x xs =>
      rw [exchangeSort]
      obtain ⟨h1, h2⟩ := ih (sortPass x xs).2 (by rw [sortPass_length]; simpa using hl)
      refine ⟨(h1.cons _).trans (sortPass_perm x xs), ?_⟩
      rw [List.pairwise_cons]
      refine ⟨?_, h2⟩
      intro z hz
      apply sortPass_le x xs
      exact (sortPass_perm x xs).subset (List.mem_cons_of_mem _ (h1.subset hz))

private theorem pick_spec (gap g : ℝ) (hg : g ≤ gap) (count : ℕ) : ∀ (l sel : List ℝ),
    sel.length ≤ count → sel.Pairwise (fun a b => g ≤ |b - a|) →
    (pick gap count l sel).length ≤ count ∧ (pick gap count l sel).Pairwise (fun a b => g ≤ |b - a|) ∧
    (∀ d ∈ pick gap count l sel, d ∈ sel ∨ d ∈ l) ∧ (∀ d ∈ sel, d ∈ pick gap count l sel) := by
  intro l
  induction l with
  | nil => intro sel h1 h2; exact ⟨h1, h2, fun d hd => Or.inl hd, fun d hd => hd⟩
  | cons x xs ih =>
    intro sel h1 h2
    unfold pick
    split_ifs with c1 c2
    · obtain ⟨a, b, c, d⟩ := ih sel h1 h2
      exact ⟨a, b, fun z hz => (c z hz).imp_right (List.mem_cons_of_mem _), d⟩
    · have hfar : ∀ s ∈ sel, gap ≤ |x - s| := by
        intro s hs
        by_contra hc
        apply c2
        rw [List.any_eq_true]
        exact ⟨s, hs, by simpa using hc⟩
      obtain ⟨a, b, c, d⟩ := ih (sel ++ [x]) (by simp; omega) (by
        rw [List.pairwise_append]
        refine ⟨h2, List.pairwise_singleton _ _, ?_⟩
        intro s hs y hy
        rw [List.mem_singleton.mp hy]
        exact hg.trans (hfar s hs))
      refine ⟨a, b, ?_, fun z hz => d z (List.mem_append_left _ hz)⟩
      intro z hz
      rcases c z hz with h | h
      · rcases List.mem_append.mp h with h | h
        · exact Or.inl h
        · rw [List.mem_singleton.mp h]; exact Or.inr List.mem_cons_self
      · exact Or.inr (List.mem_cons_of_mem _ h)
    · exact ⟨h1, h2, fun d hd => Or.inl hd, fun d hd => hd⟩

private theorem pick_head (gap : ℝ) (count : ℕ) (hc : 0 < count) (x : ℝ) (xs : List ℝ) :
    x ∈ pick gap count (x :: xs) [] := by
  unfold pick
  rw [if_pos (by simpa using hc)]
  simp only [List.any_nil, Bool.false_eq_true, if_false, List.nil_append]
  exact (pick_spec gap gap le_rfl count xs [x] (by simp; omega) (by simp)).2.2.2 x (by simp)

private theorem evenly_mem (L : ℝ) (hL : 0 < L) (count : ℕ) (hc : 0 < count) :
    ∀ d ∈ evenly L count, 0 < d ∧ d < L := by
  intro d hd
  obtain ⟨i, hi, rfl⟩ := List.mem_map.mp hd
  have hi' : (i : ℝ) + 1 ≤ count := by exact_mod_cast List.mem_range.mp hi
  have hi0 : (0 : ℝ) ≤ i := Nat.cast_nonneg i
  have hc' : (0 : ℝ) < count := by exact_mod_cast hc
  constructor
  · positivity
  · rw [div_mul_eq_mul_div, div_lt_iff₀ hc']
    nlinarith

private theorem evenly_sorted (L : ℝ) (hL : 0 < L) (count : ℕ) (hc : 0 < count) :
    (evenly L count).Pairwise (fun a b => a < b) := by
  unfold evenly
  rw [List.pairwise_map]
  refine List.pairwise_lt_range.imp ?_
  intro i j hij
  have h1 : (i : ℝ) < j := by exact_mod_cast hij
  have h2 : (0 : ℝ) < L / count := div_pos hL (by exact_mod_cast hc)
  have : L / count * ((i : ℝ) + 1 / 2) < L / count * ((j : ℝ) + 1 / 2) := by
    apply mul_lt_mul_of_pos_left _ h2; linarith
  exact this

/-- Everything about the third branch of the selection. -/
private theorem select_long (qsort : List Candidate → List Candidate) (hq : IsQsortDesc qsort)
    (vs : List (Pt ℝ)) (L : ℝ) (hL : 0 < L) (count : ℕ) (hc : 2 ≤ count) (a : ℝ) (ha : 0 < a)
    (hlong : a * (16 / 10) < L) :
    (selectDistances qsort vs L count a).Pairwise (fun x y => x + a ≤ y) ∧
    (∀ d ∈ selectDistances qsort vs L count a, 0 < d ∧ d < L) ∧
    1 ≤ (selectDistances qsort vs L count a).length ∧
    (selectDistances qsort vs L count a).length ≤ count := by
  have hlow : min L (a * (11 / 10)) = a * (11 / 10) := min_eq_right (by linarith)
  have hup : max (min L (a * (11 / 10))) (L - a * (1 / 2)) = L - a * (1 / 2) := by
    rw [hlow]; exact max_eq_right (by linarith)
  unfold selectDistances
  rw [if_neg (by push Not; exact ⟨by omega, hL⟩), if_neg (by omega)]
  dsimp only
  rw [if_neg (by rw [hup, hlow]; linarith)]
  rw [hup, hlow]
  generalize hS : (if count * 28 > 64 then count * 28 else 64) = samples
  have hS2 : 64 ≤ samples := by rw [← hS]; split_ifs <;> omega
  set cands : List Candidate := (List.range samples).filterMap (fun i : ℕ =>
    (score vs (a * (11 / 10) + (if samples = 1 then 0 else (i : ℝ) / ((samples - 1 : ℕ) : ℝ)) *
      (L - a * (1 / 2) - a * (11 / 10))) a).map (fun s => (s, a * (11 / 10) +
      (if samples = 1 then 0 else (i : ℝ) / ((samples - 1 : ℕ) : ℝ)) *
      (L - a * (1 / 2) - a * (11 / 10))))) with hcands
  have hcm : ∀ c ∈ cands, 0 < c.2 ∧ c.2 < L := by
    intro c hc
    rw [hcands, List.mem_filterMap] at hc
    obtain ⟨i, hi, hci⟩ := hc
    obtain ⟨s, -, rfl⟩ := Option.map_eq_some_iff.mp hci
    rw [if_neg (by omega)]
    have hi' : (i : ℝ) ≤ ((samples - 1 : ℕ) : ℝ) := by
      exact_mod_cast (by have := List.mem_range.mp hi; omega)
    have hpos : (0 : ℝ) < ((samples - 1 : ℕ) : ℝ) := by exact_mod_cast (by omega)
    have f0 : 0 ≤ (i : ℝ) / ((samples - 1 : ℕ) : ℝ) := by positivity
    have f1 : (i : ℝ) / ((samples - 1 : ℕ) : ℝ) ≤ 1 := by rw [div_le_one hpos]; exact hi'
    dsimp only
    constructor
    · have : 0 ≤ (i : ℝ) / ((samples - 1 : ℕ) : ℝ) * (L - a * (1 / 2) - a * (11 / 10)) :=
        mul_nonneg f0 (by linarith)
      linarith
    · have : (i : ℝ) / ((samples - 1 : ℕ) : ℝ) * (L - a * (1 / 2) - a * (11 / 10)) ≤
          1 * (L - a * (1 / 2) - a * (11 / 10)) := mul_le_mul_of_nonneg_right f1 (by linarith)
      linarith
  set gap := max (a * (5 / 2)) (L / max ((count : ℝ) * (22 / 10)) 1) with hgap
  have hga : a ≤ gap := le_trans (by linarith) (le_max_left _ _)
  set first := pick gap count ((qsort cands).map Prod.snd) [] with hfirst
  obtain ⟨p1, p2, p3, -⟩ := pick_spec gap a hga count ((qsort cands).map Prod.snd) [] (by simp) (by simp)
  rw [← hfirst] at p1 p2 p3
  have hfm : ∀ d ∈ first, 0 < d ∧ d < L := by
    intro d hd
    rcases p3 d hd with h | h
    · simp at h
    · obtain ⟨c, hc, rfl⟩ := List.mem_map.mp h
      exact hcm c ((hq.perm _).subset hc)
  have hall : ∀ all : List ℝ, all = (if first.length < count then
        pick a count (evenly L count) first else first) →
      all.Pairwise (fun x y => a ≤ |y - x|) ∧ (∀ d ∈ all, 0 < d ∧ d < L) ∧ 1 ≤ all.length ∧
        all.length ≤ count := by
    intro all hall
    split_ifs at hall with hlt
    · obtain ⟨q1, q2, q3, q4⟩ := pick_spec a a le_rfl count (evenly L count) first p1 p2
      rw [← hall] at q1 q2 q3 q4
      refine ⟨q2, ?_, ?_, q1⟩
      · intro d hd
        rcases q3 d hd with h | h
        · exact hfm d h
        · exact evenly_mem L hL count (by omega) d h
      · by_cases hf : first = []
        · have he : evenly L count = (L / (count : ℝ) * (((0 : ℕ) : ℝ) + 1 / 2)) :: ((List.range' 1 (count - 1)).map
              (fun i : ℕ => L / (count : ℝ) * ((i : ℝ) + 1 / 2))) := by
            unfold evenly
            rw [List.range_eq_range']
            obtain ⟨c, rfl⟩ : ∃ c, count = c + 1 := ⟨count - 1, by omega⟩
            rw [List.range'_succ]
            rfl
          have := pick_head a count (by omega) (L / (count : ℝ) * (((0 : ℕ) : ℝ) + 1 / 2))
            ((List.range' 1 (count - 1)).map (fun i : ℕ => L / (count : ℝ) * ((i : ℝ) + 1 / 2)))
          rw [← he, ← hf, ← hall] at this
          exact List.length_pos_of_mem this
        · obtain ⟨d, hd⟩ := List.exists_mem_of_ne_nil _ hf
          exact List.length_pos_of_mem (q4 d hd)
    · rw [hall]
      exact ⟨p2, hfm, by omega, p1⟩
  obtain ⟨r1, r2, r3, r4⟩ := hall _ rfl
  obtain ⟨s1, s2⟩ := exchangeSort_spec _ (if first.length < count then
        pick a count (evenly L count) first else first) rfl
  refine ⟨?_, fun d hd => r2 d (s1.subset hd), by rw [s1.length_eq]; exact r3,
    by rw [s1.length_eq]; exact r4⟩
  have hsym : ∀ x y : ℝ, a ≤ |y - x| → a ≤ |x - y| := by intro x y h; rwa [abs_sub_comm]
  have s3 := (s1.pairwise_iff (fun {x y} h => hsym x y h)).mpr r1
  refine (s2.and s3).imp ?_
  intro x y h
  have := h.2
  rw [abs_of_nonneg (by linarith [h.1])] at this
  linarith

/-- C258: along a line of positive length, where the arrows go: between one arrow and the requested
number, in order along the line, each tip strictly between the beginning and the end. -/
theorem C258_distances (qsort : List Candidate → List Candidate) (hq : IsQsortDesc qsort)
    (vs : List (Pt ℝ)) (L : ℝ) (hL : 0 < L) (count : ℕ) (hc : 1 ≤ count) (a : ℝ) (ha : 0 < a) :
    (selectDistances qsort vs L count a).Pairwise (· < ·) ∧
    (∀ d ∈ selectDistances qsort vs L count a, 0 < d ∧ d < L) ∧
    1 ≤ (selectDistances qsort vs L count a).length ∧
    (selectDistances qsort vs L count a).length ≤ count := by
  rcases Nat.lt_or_ge 1 count with h2 | h1
  · rcases lt_or_ge (a * (16 / 10)) L with hl | hs
    · obtain ⟨p1, p2, p3, p4⟩ := select_long qsort hq vs L hL count h2 a ha hl
      exact ⟨p1.imp (fun h => by linarith), p2, p3, p4⟩
    · have : selectDistances qsort vs L count a = evenly L count := by
        unfold selectDistances
        rw [if_neg (by push Not; exact ⟨by omega, hL⟩), if_neg (by omega)]
        dsimp only
        rw [if_pos]
        apply max_le le_rfl
        apply le_min
        · linarith
        · linarith
      rw [this]
      refine ⟨evenly_sorted L hL count (by omega), evenly_mem L hL count (by omega), ?_, ?_⟩
      · simp [evenly]; omega
      · simp [evenly]
  · have : selectDistances qsort vs L count a = [L * (1 / 2)] := by
      unfold selectDistances
      rw [if_neg (by push Not; exact ⟨by omega, hL⟩), if_pos h1]
    rw [this]
    refine ⟨List.pairwise_singleton _ _, ?_, by simp, by simpa using hc⟩
    intro d hd
    rw [List.mem_singleton.mp hd]
    constructor <;> linarith

/-- The full statement of C259: arrows on one line never overlap. -/
def C259_statement : Prop :=
  ∀ (qsort : List Candidate → List Candidate), IsQsortDesc qsort → ∀ (vs : List (Pt ℝ)) (L : ℝ), 0 < L →
    ∀ (count : ℕ) (a : ℝ), 0 < a →
      (selectDistances qsort vs L count a).Pairwise (fun x y => x + a ≤ y)

theorem qsort_exists : ∃ q : List Candidate → List Candidate, IsQsortDesc q := by
  classical
  refine ⟨fun l => l.mergeSort (fun a b => decide (b.1 ≤ a.1)), ⟨fun l => List.mergeSort_perm l _, ?_⟩⟩
  intro l
  have h := List.pairwise_mergeSort (le := fun a b : Candidate => decide (b.1 ≤ a.1)) ?_ ?_ l
  · exact h.imp (fun h => by simpa using h)
  · intro a b c h1 h2
    rw [decide_eq_true_eq] at *
    exact h2.trans h1
  · intro a b
    rw [Bool.or_eq_true, decide_eq_true_eq, decide_eq_true_eq]
    exact (le_total _ _)

/-- C259 is false: two arrows as long as the line itself are put at one and three quarters of it. -/
theorem C259_false : ¬ C259_statement := by
  intro h
  obtain ⟨q, hq⟩ := qsort_exists
  have h1 := h q hq [] 1 one_pos 2 1 one_pos
  have e : selectDistances q [] 1 2 1 = evenly 1 2 := by
    unfold selectDistances
    rw [if_neg (by norm_num), if_neg (by norm_num)]
    dsimp only
    rw [if_pos (by norm_num)]
  rw [e] at h1
  have e2 : evenly 1 2 = [1 / 4, 3 / 4] := by
    simp only [evenly, List.range_succ, List.range_zero, List.nil_append, List.cons_append,
      List.map_cons, List.map_nil]
    norm_num
  rw [e2] at h1
  norm_num at h1

/-- C259, the part that holds: on a line longer than 1.6 arrow lengths, each arrow starts at or
after the tip of the one before. Missing: shorter lines (false, see `C259_false`). -/
theorem C259_apart_partial (qsort : List Candidate → List Candidate) (hq : IsQsortDesc qsort)
    (vs : List (Pt ℝ)) (L : ℝ) (hL : 0 < L) (count : ℕ) (hc : 1 ≤ count) (a : ℝ) (ha : 0 < a)
    (hlong : a * (16 / 10) < L) :
    (selectDistances qsort vs L count a).Pairwise (fun x y => x + a ≤ y) := by
  rcases Nat.lt_or_ge 1 count with h2 | h1
  · exact (select_long qsort hq vs L hL count h2 a ha hlong).1
  · have : selectDistances qsort vs L count a = [L * (1 / 2)] := by
      unfold selectDistances
      rw [if_neg (by push Not; exact ⟨by omega, hL⟩), if_pos h1]
    rw [this]
    exact List.pairwise_singleton _ _

end Skyborn.Plot.Contour
