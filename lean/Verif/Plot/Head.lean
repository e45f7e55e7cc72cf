/-
Arrow heads of curly vectors: axis, vertices, sizes, batches, and the lines handed to Matplotlib.
Modelled: plot/nclcurly_core/_ncl_curly_core.c:104-285, 2711-3080; plot/_artists/vector_artists.py:8-288;
plot/_shared/style.py:40-58; plot/_core/vector_engine.py:835-838.
-/
import Verif.Plot.Curve
import Mathlib.Analysis.SpecialFunctions.Trigonometric.Bounds

namespace Skyborn.Plot.Curly

/-! ## Model -/

open Classical in
/-- plot/nclcurly_core/_ncl_curly_core.c:145-169: walk back from the tip. The list holds the points not yet passed, from the tip to the
tail; `first` is the first point of the curve. -/
noncomputable def walkBack (first : ℝ × ℝ) : ℝ → List (ℝ × ℝ) → ℝ × ℝ
  | remaining, r :: l :: rest =>
    let sx := r.1 - l.1
    let sy := r.2 - l.2
    let len := hyp sx sy
    if len ≤ 1 / 10 ^ 12 then walkBack first remaining (l :: rest)
    else if remaining ≤ len then (r.1 - sx * (remaining / len), r.2 - sy * (remaining / len))
    else walkBack first (remaining - len) (l :: rest)
  | _, _ => first

open Classical in
/-- plot/nclcurly_core/_ncl_curly_core.c:104-182 `resolve_curve_tip_direction` on finite points: tip and unit direction. -/
noncomputable def tipDirection (pts : List (ℝ × ℝ)) (backoff : ℝ) : Option ((ℝ × ℝ) × (ℝ × ℝ)) :=
  if pts.length < 2 then none
  else
    let tip := pts.getLastD (0, 0)
    let tail := walkBack (pts.headD (0, 0)) (max backoff 0) pts.reverse
    let dx := tip.1 - tail.1
    let dy := tip.2 - tail.2
    if hyp dx dy ≤ 1 / 10 ^ 12 then none else some (tip, (dx / hyp dx dy, dy / hyp dx dy))

/-- The three vertices of a head. -/
structure Head where
  /-- left corner of the base -/ left : ℝ × ℝ
  /-- tip -/ tip : ℝ × ℝ
  /-- right corner of the base -/ right : ℝ × ℝ

/-- plot/nclcurly_core/_ncl_curly_core.c:191-227, 244-285: the vertices; `factor` is 1.35 for open and 1.25 for filled heads. -/
noncomputable def headOf (factor : ℝ) (pts : List (ℝ × ℝ)) (len width : ℝ) : Option Head :=
  match tipDirection pts (len * factor) with
  | none => none
  | some (tip, u) =>
    let base := (tip.1 - u.1 * len, tip.2 - u.2 * len)
    let n := (-u.2, u.1)
    some ⟨(base.1 + n.1 * width * (1 / 2), base.2 + n.2 * width * (1 / 2)), tip,
      (base.1 - n.1 * width * (1 / 2), base.2 - n.2 * width * (1 / 2))⟩

/-- plot/nclcurly_core/_ncl_curly_core.c:184-228 `build_open_arrow_vertices_for_curve`. -/
noncomputable def openHead := headOf (135 / 100)

/-- plot/nclcurly_core/_ncl_curly_core.c:237-286 `build_filled_arrow_vertices_for_curve`. -/
noncomputable def filledHead := headOf (125 / 100)

/-- plot/_shared/style.py:40-48 `_ncl_arrow_edge_size_px`. -/
noncomputable def edgeSize (mag maxMag lo hi : ℝ) : ℝ :=
  let m := max maxMag (1 / 10 ^ 12)
  lo + (hi - lo) * max 0 (min (mag / m) 1)

/-- plot/_shared/style.py:51-57 `_resolve_open_arrow_size`: length and width of the head. -/
noncomputable def headSize (edge : ℝ) : ℝ × ℝ :=
  let e := max edge 1
  (e * Real.cos (1 / 2), 2 * e * Real.sin (1 / 2))

/-- plot/_core/vector_engine.py:835: the smallest edge for a panel of the given width. -/
noncomputable def minEdge (width arrowsize : ℝ) : ℝ := max (width * (3 / 1000) * max arrowsize (1 / 10)) (12 / 10)

/-- plot/_core/vector_engine.py:836-838: the largest edge. -/
noncomputable def maxEdge (width arrowsize : ℝ) : ℝ := max (width * (12 / 1000) * max arrowsize (1 / 10)) (minEdge width arrowsize)

/-- plot/_core/vector_engine.py:947-954: length and width of the head of a glyph of magnitude `mag`. -/
noncomputable def glyphHead (width arrowsize maxMag mag : ℝ) : ℝ × ℝ :=
  headSize (edgeSize mag maxMag (minEdge width arrowsize) (maxEdge width arrowsize))

/-! ## Axis and shape of one head -/

theorem hyp_pos_of {x y : ℝ} {e : ℝ} (he : 0 ≤ e) (h : e < hyp x y) : 0 < x * x + y * y := by
  have := hyp_sq x y
  nlinarith

private theorem tipDirection_some {pts : List (ℝ × ℝ)} {b : ℝ} {tip u : ℝ × ℝ} (h : tipDirection pts b = some (tip, u)) :
    pts.getLast? = some tip ∧ u.1 * u.1 + u.2 * u.2 = 1 ∧
      ∃ tail, tail = walkBack (pts.headD (0, 0)) (max b 0) pts.reverse ∧ 0 < dist tail tip ∧
        tip = (tail.1 + dist tail tip * u.1, tail.2 + dist tail tip * u.2) := by
  unfold tipDirection at h
  split_ifs at h with h1
  dsimp only at h
  split_ifs at h with h2
  obtain ⟨rfl, rfl⟩ := Prod.mk.inj (Option.some.inj h)
  push Not at h2
  have hpos := hyp_pos_of (by positivity) h2
  generalize ht : walkBack (pts.headD (0, 0)) (max b 0) pts.reverse = tail at *
  have hp : 0 < hyp ((pts.getLastD (0, 0)).1 - tail.1) ((pts.getLastD (0, 0)).2 - tail.2) := lt_trans (by positivity) h2
  have hsq := hyp_sq ((pts.getLastD (0, 0)).1 - tail.1) ((pts.getLastD (0, 0)).2 - tail.2)
  refine ⟨?_, ?_, tail, rfl, hp, ?_⟩
  · cases pts with
    | nil => simp at h1
    | cons a l => rw [List.getLastD_cons, List.getLast?_cons]; simp [List.getLastD_eq_getLast?]
  · dsimp only
    field_simp
    nlinarith
  · unfold dist
    ext
    · dsimp only; field_simp; ring
    · dsimp only; field_simp; ring

/-- Specification: `tail` is the point of the curve at distance `d` along the curve from its last point, the first point if the curve is
not longer than that. -/
def Behind (pts : List (ℝ × ℝ)) (d : ℝ) (tail : ℝ × ℝ) : Prop :=
  (∃ xs q p ys t, pts = xs ++ q :: p :: ys ∧ 0 ≤ t ∧ t ≤ 1 ∧ tail = (p.1 + t * (q.1 - p.1), p.2 + t * (q.2 - p.2)) ∧
    t * dist p q + arc (p :: ys) = d) ∨ (arc pts ≤ d ∧ pts.head? = some tail)

private theorem walkBack_spec (first : ℝ × ℝ) (rs : List (ℝ × ℝ)) (rem : ℝ) (hr : 0 ≤ rem) (hc : List.IsChain (fun p q => 1 / 10 ^ 12 < dist q p) rs)
    (hl : rs.getLast? = some first) :
    (∃ xs p q ys t, rs = xs ++ p :: q :: ys ∧ 0 ≤ t ∧ t ≤ 1 ∧
      walkBack first rem rs = (p.1 + t * (q.1 - p.1), p.2 + t * (q.2 - p.2)) ∧ arc (xs ++ [p]) + t * dist p q = rem) ∨
    (arc rs ≤ rem ∧ walkBack first rem rs = first) := by
  induction rs generalizing rem with
  | nil => simp at hl
  | cons r rs ih =>
    cases rs with
    | nil => right; exact ⟨by simpa [arc] using hr, by simp [walkBack]⟩
    | cons l rest =>
      rw [List.isChain_cons_cons] at hc
      obtain ⟨hlr, hc⟩ := hc
      have hd : hyp (r.1 - l.1) (r.2 - l.2) = dist l r := rfl
      have hpos : 0 < dist l r := lt_trans (by positivity) hlr
      have hstep : walkBack first rem (r :: l :: rest) =
          if rem ≤ dist l r then (r.1 - (r.1 - l.1) * (rem / dist l r), r.2 - (r.2 - l.2) * (rem / dist l r))
          else walkBack first (rem - dist l r) (l :: rest) := by
        rw [walkBack]
        rw [hd, if_neg (not_le.mpr hlr)]
      rw [hstep]
      by_cases h : rem ≤ dist l r
      · rw [if_pos h]
        left
        refine ⟨[], r, l, rest, rem / dist l r, rfl, by positivity, by rw [div_le_one hpos]; exact h, ?_, ?_⟩
        · ext <;> (dsimp only; ring)
        · rw [dist_comm r l]
          simp only [List.nil_append, arc]
          field_simp
          ring
      · rw [if_neg h]
        push Not at h
        rw [List.getLast?_cons_cons] at hl
        rcases ih (rem - dist l r) (by linarith) hc hl with ⟨xs, p, q, ys, t, h1, h2, h3, h4, h5⟩ | ⟨h1, h2⟩
        · left
          refine ⟨r :: xs, p, q, ys, t, by rw [h1]; rfl, h2, h3, h4, ?_⟩
          cases xs with
          | nil =>
            obtain ⟨rfl, -⟩ := List.cons.inj h1
            simp only [List.cons_append, List.nil_append, arc] at h5 ⊢
            rw [dist_comm r l]; linarith
          | cons x xs =>
            obtain ⟨rfl, -⟩ := List.cons.inj h1
            simp only [List.cons_append, arc] at h5 ⊢
            rw [dist_comm r l]; linarith
        · right
          refine ⟨?_, h2⟩
          simp only [arc]
          rw [dist_comm r l]; linarith

/-- C278: a head: the tip is the end of the curve; the axis `u` is the unit vector to the tip from the point of the curve that is
`factor * len` behind it along the curve; the middle of the base is `len` behind the tip on the axis; the base is perpendicular
to the axis and `width` wide, with its corners to the left and to the right. -/
theorem C278_shape (factor : ℝ) (hf : 0 ≤ factor) (pts : List (ℝ × ℝ)) (hp : List.IsChain (fun p q => 1 / 10 ^ 12 < dist p q) pts)
    (len width : ℝ) (hl : 0 ≤ len) (H : Head) (h : headOf factor pts len width = some H) :
    pts.getLast? = some H.tip ∧ ∃ u tail : ℝ × ℝ, u.1 ^ 2 + u.2 ^ 2 = 1 ∧
      Behind pts (factor * len) tail ∧ 0 < dist tail H.tip ∧ H.tip = (tail.1 + dist tail H.tip * u.1, tail.2 + dist tail H.tip * u.2) ∧
      ((H.left.1 + H.right.1) / 2 = H.tip.1 - len * u.1 ∧ (H.left.2 + H.right.2) / 2 = H.tip.2 - len * u.2) ∧
      (H.left.1 - H.right.1 = width * -u.2 ∧ H.left.2 - H.right.2 = width * u.1) := by
  unfold headOf at h
  rcases ht : tipDirection pts (len * factor) with _ | ⟨tip, u⟩
  · rw [ht] at h; cases h
  rw [ht] at h
  dsimp only at h
  obtain rfl := Option.some.inj h
  obtain ⟨h1, h2, tail, h3, h4, h5⟩ := tipDirection_some ht
  refine ⟨h1, u, tail, by rw [← h2]; ring, ?_, h4, h5, ⟨?_, ?_⟩, ?_, ?_⟩
  · rw [max_eq_left (mul_nonneg hl hf)] at h3
    have hne : pts ≠ [] := by rintro rfl; simp at h1
    obtain ⟨f, ps, rfl⟩ := List.exists_cons_of_ne_nil hne
    rcases walkBack_spec f (f :: ps).reverse (len * factor) (mul_nonneg hl hf) (by rw [List.isChain_reverse]; exact hp)
      (by rw [List.getLast?_reverse]; rfl) with ⟨xs, p, q, ys, t, e1, e2, e3, e4, e5⟩ | ⟨e1, e2⟩
    · left
      refine ⟨ys.reverse, q, p, xs.reverse, t, ?_, e2, e3, ?_, ?_⟩
      · rw [← List.reverse_reverse (f :: ps), e1]; simp
      · rw [h3]; exact e4
      · rw [← arc_reverse, List.reverse_cons, List.reverse_reverse]; linarith
    · right
      rw [arc_reverse] at e1
      exact ⟨by linarith, by rw [h3]; exact congrArg some e2.symm⟩
  all_goals (dsimp only; ring)

/-- C278: the head of a straight glyph points along it: if all points are behind the tip in the direction `e`, the middle of the base is
`len` behind the tip in that direction and the base perpendicular to it. -/
theorem C278_straight (factor : ℝ) (hf : 0 ≤ factor) (pts : List (ℝ × ℝ)) (hp : List.IsChain (fun p q => 1 / 10 ^ 12 < dist p q) pts)
    (len width : ℝ) (hl : 0 ≤ len) (H : Head) (h : headOf factor pts len width = some H) (e : ℝ × ℝ) (he : e.1 ^ 2 + e.2 ^ 2 = 1)
    (hs : ∀ p ∈ pts, ∃ k, 0 ≤ k ∧ p = (H.tip.1 - k * e.1, H.tip.2 - k * e.2)) :
    ((H.left.1 + H.right.1) / 2 = H.tip.1 - len * e.1 ∧ (H.left.2 + H.right.2) / 2 = H.tip.2 - len * e.2) ∧
    (H.left.1 - H.right.1 = width * -e.2 ∧ H.left.2 - H.right.2 = width * e.1) := by
  obtain ⟨-, u, tail, -, hb, hd, ht, hm, hw⟩ := C278_shape factor hf pts hp len width hl H h
  have hk : ∃ k, 0 ≤ k ∧ tail = (H.tip.1 - k * e.1, H.tip.2 - k * e.2) := by
    rcases hb with ⟨xs, q, p, ys, t, rfl, t0, t1, rfl, -⟩ | ⟨-, hh⟩
    · obtain ⟨k1, k1', hk1⟩ := hs q (by simp)
      obtain ⟨k2, k2', hk2⟩ := hs p (by simp)
      refine ⟨k2 + t * (k1 - k2), by nlinarith, ?_⟩
      have q1 := congrArg Prod.fst hk1
      have q2 := congrArg Prod.snd hk1
      have p1 := congrArg Prod.fst hk2
      have p2 := congrArg Prod.snd hk2
      dsimp only at q1 q2 p1 p2
      ext
      · dsimp only; rw [q1, p1]; ring
      · dsimp only; rw [q2, p2]; ring
    · exact hs tail (List.mem_of_mem_head? hh)
  obtain ⟨k, hk0, hkt⟩ := hk
  have hdist : dist tail H.tip = k := by
    rw [hkt]
    unfold dist
    dsimp only
    rw [show H.tip.1 - (H.tip.1 - k * e.1) = k * e.1 by ring, show H.tip.2 - (H.tip.2 - k * e.2) = k * e.2 by ring, hyp_smul _ _ _ hk0]
    unfold hyp
    rw [show e.1 * e.1 + e.2 * e.2 = 1 by rw [← he]; ring, Real.sqrt_one, mul_one]
  rw [hdist] at hd ht
  have e1 := congrArg Prod.fst ht
  have e2 := congrArg Prod.snd ht
  rw [hkt] at e1 e2
  dsimp only at e1 e2
  have u1 : u.1 = e.1 := by
    have : k * (u.1 - e.1) = 0 := by linarith
    rcases mul_eq_zero.mp this with h | h <;> linarith
  have u2 : u.2 = e.2 := by
    have : k * (u.2 - e.2) = 0 := by linarith
    rcases mul_eq_zero.mp this with h | h <;> linarith
  rw [u1, u2] at hm hw
  exact ⟨hm, hw⟩

/-! ## Every drawn glyph has a head -/

/-- The next direction along a curve, as an angle. -/
private theorem turn_angle {a : ℝ} {d' : ℝ × ℝ} (h' : d'.1 * d'.1 + d'.2 * d'.2 = 1) :
    ∃ b, d' = (Real.cos b, Real.sin b) ∧ |b - a| = Real.arccos (Real.cos a * d'.1 + Real.sin a * d'.2) := by
  have hca := Real.cos_sq_add_sin_sq a
  set c := Real.cos a * d'.1 + Real.sin a * d'.2 with hc
  set s := Real.cos a * d'.2 - Real.sin a * d'.1 with hs
  have hcs : c ^ 2 + s ^ 2 = 1 := by
    have : c ^ 2 + s ^ 2 = (Real.cos a ^ 2 + Real.sin a ^ 2) * (d'.1 * d'.1 + d'.2 * d'.2) := by rw [hc, hs]; ring
    rw [this, hca, h', one_mul]
  have e1 : d'.1 = Real.cos a * c - Real.sin a * s := by
    have : Real.cos a * c - Real.sin a * s = (Real.cos a ^ 2 + Real.sin a ^ 2) * d'.1 := by rw [hc, hs]; ring
    rw [this, hca, one_mul]
  have e2 : d'.2 = Real.sin a * c + Real.cos a * s := by
    have : Real.sin a * c + Real.cos a * s = (Real.cos a ^ 2 + Real.sin a ^ 2) * d'.2 := by rw [hc, hs]; ring
    rw [this, hca, one_mul]
  have hc1 : -1 ≤ c := by nlinarith
  have hc2 : c ≤ 1 := by nlinarith
  have hcos := Real.cos_arccos hc1 hc2
  have hsin := Real.sin_arccos c
  have h0 := Real.arccos_nonneg c
  rcases le_total 0 s with hs0 | hs0
  · refine ⟨a + Real.arccos c, ?_, by rw [add_sub_cancel_left, abs_of_nonneg h0]⟩
    have : Real.sqrt (1 - c ^ 2) = s := by rw [show 1 - c ^ 2 = s ^ 2 by linarith, Real.sqrt_sq hs0]
    rw [Real.cos_add, Real.sin_add, hcos, hsin, this]
    exact Prod.ext e1 e2
  · refine ⟨a - Real.arccos c, ?_, by rw [sub_sub_cancel_left, abs_neg, abs_of_nonneg h0]⟩
    have : Real.sqrt (1 - c ^ 2) = -s := by rw [show 1 - c ^ 2 = (-s) ^ 2 by linarith, Real.sqrt_sq (by linarith)]
    rw [Real.cos_sub, Real.sin_sub, hcos, hsin, this]
    refine Prod.ext ?_ ?_
    · dsimp only; linarith
    · dsimp only; linarith

/-- All directions of a curve lie in a sector no wider than the sum of its turns. -/
private theorem sector (ds : List (ℝ × ℝ)) (hu : ∀ d ∈ ds, d.1 * d.1 + d.2 * d.2 = 1) (a : ℝ) (d : ℝ × ℝ) (hd : d = (Real.cos a, Real.sin a)) :
    ∃ lo hi, lo ≤ a ∧ a ≤ hi ∧ (hi - lo) * 180 / Real.pi ≤ (turns (d :: ds)).sum ∧
      ∀ e ∈ d :: ds, ∃ φ, lo ≤ φ ∧ φ ≤ hi ∧ e = (Real.cos φ, Real.sin φ) := by
  have hpi := Real.pi_pos
  induction ds generalizing a d with
  | nil =>
    refine ⟨a, a, le_rfl, le_rfl, by simp [turns], ?_⟩
    intro e he
    rw [List.mem_singleton] at he
    exact ⟨a, le_rfl, le_rfl, he.trans hd⟩
  | cons d' ds ih =>
    obtain ⟨b, hb, hab⟩ := turn_angle (a := a) (hu d' List.mem_cons_self)
    obtain ⟨lo, hi, h1, h2, h3, h4⟩ := ih (fun e he => hu e (List.mem_cons_of_mem _ he)) b d' hb
    have hud : d.1 * d.1 + d.2 * d.2 = 1 := by rw [hd]; have := Real.cos_sq_add_sin_sq a; dsimp only; nlinarith
    have ht : turn d d' = |b - a| * 180 / Real.pi := by
      rw [turn_eq hud (hu d' List.mem_cons_self), hab, hd]
    refine ⟨min lo a, max hi a, min_le_right _ _, le_max_right _ _, ?_, ?_⟩
    · rw [turns, List.sum_cons, ht]
      have : max hi a - min lo a ≤ |b - a| + (hi - lo) := by
        have k1 := le_abs_self (b - a)
        have k2 := neg_abs_le (b - a)
        have k0 := abs_nonneg (b - a)
        rcases max_cases hi a with ⟨e, -⟩ | ⟨e, -⟩ <;> rcases min_cases lo a with ⟨f, -⟩ | ⟨f, -⟩ <;> rw [e, f] <;> linarith
      have h5 : (max hi a - min lo a) * 180 / Real.pi ≤ (|b - a| + (hi - lo)) * 180 / Real.pi := by
        rw [div_le_div_iff_of_pos_right hpi]; linarith
      have h6 : (|b - a| + (hi - lo)) * 180 / Real.pi = |b - a| * 180 / Real.pi + (hi - lo) * 180 / Real.pi := by ring
      linarith
    · intro e he
      rcases List.mem_cons.mp he with rfl | he
      · exact ⟨a, min_le_right _ _, le_max_right _ _, hd⟩
      · obtain ⟨φ, p1, p2, p3⟩ := h4 e he
        exact ⟨φ, (min_le_left _ _).trans p1, p2.trans (le_max_left _ _), p3⟩

private theorem unit_angle {d : ℝ × ℝ} (h : d.1 * d.1 + d.2 * d.2 = 1) : ∃ a, d = (Real.cos a, Real.sin a) := by
  obtain ⟨b, hb, -⟩ := turn_angle (a := 0) h
  exact ⟨b, hb⟩

/-- Directions with at most 120 degrees of turning have a common direction within 60 degrees of all. -/
private theorem common (ds : List (ℝ × ℝ)) (hu : ∀ d ∈ ds, d.1 * d.1 + d.2 * d.2 = 1) (ht : (turns ds).sum ≤ 120) :
    ∃ e : ℝ × ℝ, e.1 * e.1 + e.2 * e.2 = 1 ∧ ∀ d ∈ ds, 1 / 2 ≤ e.1 * d.1 + e.2 * d.2 := by
  have hpi := Real.pi_pos
  cases ds with
  | nil => exact ⟨(1, 0), by norm_num, by simp⟩
  | cons d ds =>
    obtain ⟨a, ha⟩ := unit_angle (hu d List.mem_cons_self)
    obtain ⟨lo, hi, h1, h2, h3, h4⟩ := sector ds (fun e he => hu e (List.mem_cons_of_mem _ he)) a d ha
    have hw : hi - lo ≤ 2 * (Real.pi / 3) := by
      have := h3.trans ht
      rw [div_le_iff₀ hpi] at this
      linarith
    refine ⟨(Real.cos ((lo + hi) / 2), Real.sin ((lo + hi) / 2)), ?_, ?_⟩
    · have := Real.cos_sq_add_sin_sq ((lo + hi) / 2); dsimp only; nlinarith
    · intro e he
      obtain ⟨φ, p1, p2, rfl⟩ := h4 e he
      dsimp only
      rw [← Real.cos_sub, ← Real.cos_pi_div_three, ← Real.cos_abs (_ - φ)]
      apply Real.cos_le_cos_of_nonneg_of_le_pi (abs_nonneg _) (by linarith)
      rw [abs_le]
      constructor <;> linarith

private theorem walkBack_far (first e : ℝ × ℝ) (rs : List (ℝ × ℝ)) (rem : ℝ) (hr : 0 ≤ rem) (r : ℝ × ℝ)
    (hc : List.IsChain (fun p q => 1 / 10 ^ 12 < dist q p ∧ 1 / 2 * dist q p ≤ e.1 * (p.1 - q.1) + e.2 * (p.2 - q.2)) (r :: rs))
    (hl : (r :: rs).getLast? = some first) :
    1 / 2 * min rem (arc (r :: rs)) ≤ e.1 * (r.1 - (walkBack first rem (r :: rs)).1) + e.2 * (r.2 - (walkBack first rem (r :: rs)).2) := by
  induction rs generalizing rem r with
  | nil =>
    simp only [List.getLast?_singleton, Option.some.injEq] at hl
    rw [hl]
    simp only [walkBack, arc, sub_self, mul_zero, add_zero]
    rw [min_eq_right hr, mul_zero]
  | cons l rest ih =>
    rw [List.isChain_cons_cons] at hc
    obtain ⟨⟨hlr, hdot⟩, hc⟩ := hc
    have hd : hyp (r.1 - l.1) (r.2 - l.2) = dist l r := rfl
    have hpos : 0 < dist l r := lt_trans (by positivity) hlr
    have hstep : walkBack first rem (r :: l :: rest) =
        if rem ≤ dist l r then (r.1 - (r.1 - l.1) * (rem / dist l r), r.2 - (r.2 - l.2) * (rem / dist l r))
        else walkBack first (rem - dist l r) (l :: rest) := by
      rw [walkBack]
      rw [hd, if_neg (not_le.mpr hlr)]
    rw [hstep]
    by_cases h : rem ≤ dist l r
    · rw [if_pos h]
      dsimp only
      have k : 0 ≤ rem / dist l r := by positivity
      have k2 := mul_le_mul_of_nonneg_left hdot k
      have k3 : rem / dist l r * (1 / 2 * dist l r) = 1 / 2 * rem := by field_simp
      have k4 := min_le_left rem (arc (r :: l :: rest))
      have k5 : e.1 * (r.1 - (r.1 - (r.1 - l.1) * (rem / dist l r))) + e.2 * (r.2 - (r.2 - (r.2 - l.2) * (rem / dist l r))) =
        rem / dist l r * (e.1 * (r.1 - l.1) + e.2 * (r.2 - l.2)) := by ring
      rw [k5]; linarith
    · rw [if_neg h]
      push Not at h
      rw [List.getLast?_cons_cons] at hl
      have := ih (rem - dist l r) (by linarith) l hc hl
      have k : min rem (arc (r :: l :: rest)) = dist l r + min (rem - dist l r) (arc (l :: rest)) := by
        rw [← min_add_add_left]
        simp only [arc]
        rw [dist_comm r l]
        congr 1
        ring
      rw [k]
      linarith

private theorem arc_nonneg (l : List (ℝ × ℝ)) : 0 ≤ arc l := by
  induction l with
  | nil => simp [arc]
  | cons a l ih =>
    cases l with
    | nil => simp [arc]
    | cons b l => simp only [arc]; have : 0 ≤ dist a b := hyp_nonneg _ _; linarith

/-- An accepted curve with no step below 1e-6 pixels has a head. -/
private theorem head_of_accepted (w h : ℝ) (pts : List (ℝ × ℝ)) (ha : accepted w h pts)
    (hp : List.IsChain (fun p q => 1 / 10 ^ 6 < dist p q) pts) (factor len width : ℝ) (hb : 1 / 10 ^ 6 ≤ len * factor) :
    headOf factor pts len width ≠ none := by
  obtain ⟨h2, -, -, first, last, hfirst, hlast, -, -, -, hturn, -⟩ := ha
  have hunit : ∀ d ∈ dirs pts, d.1 * d.1 + d.2 * d.2 = 1 := by
    intro d hd
    unfold dirs at hd
    obtain ⟨s, hs, rfl⟩ := List.mem_map.mp hd
    have hs' := (List.mem_filter.mp hs).2
    simp only [decide_eq_true_eq] at hs'
    have hpos : 0 < hyp s.1 s.2 := lt_trans (by positivity) hs'
    have := hyp_sq s.1 s.2
    dsimp only
    field_simp
    nlinarith
  obtain ⟨e, he, hdot⟩ := common (dirs pts) hunit hturn
  have hchain : List.IsChain (fun p q => 1 / 10 ^ 12 < dist p q ∧ 1 / 2 * dist p q ≤ e.1 * (q.1 - p.1) + e.2 * (q.2 - p.2)) pts := by
    have key : ∀ l : List (ℝ × ℝ), (∀ s ∈ segs l, 1 / 10 ^ 6 < hyp s.1 s.2 → 1 / 2 ≤ e.1 * (s.1 / hyp s.1 s.2) + e.2 * (s.2 / hyp s.1 s.2)) →
        List.IsChain (fun p q => 1 / 10 ^ 6 < dist p q) l →
        List.IsChain (fun p q => 1 / 10 ^ 12 < dist p q ∧ 1 / 2 * dist p q ≤ e.1 * (q.1 - p.1) + e.2 * (q.2 - p.2)) l := by
      intro l
      induction l with
      | nil => intro _ _; exact List.isChain_nil
      | cons a l ih =>
        intro hs hc
        cases l with
        | nil => exact List.isChain_singleton _
        | cons b l =>
          rw [List.isChain_cons_cons] at hc ⊢
          refine ⟨⟨lt_trans (by norm_num) hc.1, ?_⟩, ih (fun s hs' => hs s (by rw [segs]; exact List.mem_cons_of_mem _ hs')) hc.2⟩
          have k := hs (b.1 - a.1, b.2 - a.2) (by rw [segs]; exact List.mem_cons_self) hc.1
          have hpos : 0 < dist a b := lt_trans (by positivity) hc.1
          change 1 / 2 ≤ e.1 * ((b.1 - a.1) / dist a b) + e.2 * ((b.2 - a.2) / dist a b) at k
          have := mul_le_mul_of_nonneg_right k hpos.le
          have k2 : (e.1 * ((b.1 - a.1) / dist a b) + e.2 * ((b.2 - a.2) / dist a b)) * dist a b =
            e.1 * (b.1 - a.1) + e.2 * (b.2 - a.2) := by field_simp
          rw [k2] at this
          exact this
    refine key pts (fun s hs hlen => ?_) hp
    refine hdot (s.1 / hyp s.1 s.2, s.2 / hyp s.1 s.2) ?_
    unfold dirs
    exact List.mem_map.mpr ⟨s, List.mem_filter.mpr ⟨hs, by simpa using hlen⟩, rfl⟩
  have hrev : pts.reverse = last :: pts.reverse.tail := by
    have : pts.reverse.head? = some last := by rw [List.head?_reverse]; exact hlast
    cases hrs : pts.reverse with
    | nil => rw [hrs] at this; cases this
    | cons x xs => rw [hrs] at this; obtain rfl := Option.some.inj this; rfl
  have hfar := walkBack_far first e pts.reverse.tail (len * factor) (by linarith [show (0:ℝ) < 1 / 10 ^ 6 by positivity]) last
    (by
      rw [← hrev, List.isChain_reverse]
      exact hchain) (by rw [← hrev, List.getLast?_reverse]; exact hfirst)
  rw [← hrev, arc_reverse] at hfar
  have harc : 1 / 10 ^ 6 < arc pts := by
    cases pts with
    | nil => simp at h2
    | cons a l =>
      cases l with
      | nil => simp at h2
      | cons b l =>
        rw [List.isChain_cons_cons] at hp
        simp only [arc]
        have := arc_nonneg (b :: l)
        linarith [hp.1]
  have hmin : 1 / 10 ^ 6 ≤ min (len * factor) (arc pts) := le_min hb harc.le
  have hhead : pts.headD (0, 0) = first := by
    cases pts with
    | nil => cases hfirst
    | cons a l => exact Option.some.inj hfirst
  have hlastD : pts.getLastD (0, 0) = last := by rw [List.getLastD_eq_getLast?, hlast]; rfl
  unfold headOf tipDirection
  rw [if_neg (by omega)]
  dsimp only
  rw [hhead, hlastD, max_eq_left (by linarith [show (0:ℝ) < 1 / 10 ^ 6 by positivity])]
  generalize walkBack first (len * factor) pts.reverse = tail at hfar ⊢
  have hn : ¬ hyp (last.1 - tail.1) (last.2 - tail.2) ≤ 1 / 10 ^ 12 := by
    intro hle
    have hsq := hyp_sq (last.1 - tail.1) (last.2 - tail.2)
    have h0 := hyp_nonneg (last.1 - tail.1) (last.2 - tail.2)
    have hcs : (e.1 * (last.1 - tail.1) + e.2 * (last.2 - tail.2)) ^ 2 ≤ hyp (last.1 - tail.1) (last.2 - tail.2) ^ 2 := by
      have : hyp (last.1 - tail.1) (last.2 - tail.2) ^ 2 =
          (e.1 * e.1 + e.2 * e.2) * ((last.1 - tail.1) * (last.1 - tail.1) + (last.2 - tail.2) * (last.2 - tail.2)) := by
        rw [he, one_mul, ← hsq]; ring
      rw [this]
      nlinarith [sq_nonneg (e.1 * (last.2 - tail.2) - e.2 * (last.1 - tail.1))]
    have h1 : 1 / 2 * (1 / 10 ^ 6) ≤ e.1 * (last.1 - tail.1) + e.2 * (last.2 - tail.2) := by linarith
    have h3 := abs_le_of_sq_le_sq' hcs h0
    have h4 : (1 : ℝ) / 2 * (1 / 10 ^ 6) ≤ 1 / 10 ^ 12 := by linarith [h3.2]
    norm_num at h4
  rw [if_neg hn]
  simp

private theorem chain_join {R : ℝ × ℝ → ℝ × ℝ → Prop} (hsym : ∀ p q, R p q → R q p) (x : ℝ × ℝ) (l m : List (ℝ × ℝ))
    (h1 : List.IsChain R (x :: l)) (h2 : List.IsChain R (x :: m)) : List.IsChain R ((x :: l).reverse ++ m) := by
  have h1' : List.IsChain R (x :: l).reverse := by
    rw [List.isChain_reverse]
    exact h1.imp fun a b => hsym a b
  refine h1'.append (List.IsChain.of_cons h2) ?_
  intro a ha b hb
  rw [List.getLast?_reverse] at ha
  have : x = a := by simpa using ha
  subst this
  cases m with
  | nil => simp at hb
  | cons y m =>
    have : y = b := by simpa using hb
    subst this
    exact (List.isChain_cons_cons.mp h2).1

/-- Steps of a drawn glyph under a linear display map. -/
private theorem drawn_chain (g : Grid) (F : Fields) (a b c d e f : ℝ) (hdx : 0 < g.dx) (hdy : 0 < g.dy)
    (hF : LinearDisplay g F a b c d e f) (step scale : ℝ) (view : View) (anchor : Anchor) (start : ℝ × ℝ) (len : ℝ)
    (l : Curve) (ht : traceCurve g F step scale view anchor start len = some l) :
    List.IsChain (fun v w => 2 / 10 < dist v w) (l.map Prod.snd) := by
  have key : ∀ (m s : ℝ) (q : Curve), (s = 1 ∨ s = -1) → trace g F ⟨m, s, step, scale, view⟩ 512 start = some q →
      List.IsChain (fun v w => 2 / 10 < dist v w) (q.map Prod.snd) := fun m s q hs hq =>
    (C272_trace g F a b c d e f hdx hdy hF ⟨m, s, step, scale, view⟩ hs 512 start q hq).2.1
  have rev : ∀ q : List (ℝ × ℝ), List.IsChain (fun v w => 2 / 10 < dist v w) q → List.IsChain (fun v w => 2 / 10 < dist v w) q.reverse := by
    intro q hq
    rw [List.isChain_reverse]
    exact hq.imp fun x y h => by rw [dist_comm]; exact h
  unfold traceCurve at ht
  split_ifs at ht with h0
  cases anchor with
  | tail => exact key _ _ _ (Or.inl rfl) ht
  | head =>
    dsimp only at ht
    obtain ⟨q, hq, rfl⟩ := Option.map_eq_some_iff.mp ht
    rw [List.map_reverse]
    exact rev _ (key _ _ _ (Or.inr rfl) hq)
  | center =>
    dsimp only at ht
    split at ht
    · cases ht
    · rename_i q hb hf
      obtain rfl := Option.some.inj ht
      exact key _ _ _ (Or.inl rfl) hf
    · rename_i q hb hf
      obtain rfl := Option.some.inj ht
      rw [List.map_reverse]
      exact rev _ (key _ _ _ (Or.inr rfl) hb)
    · rename_i q r hb hf
      obtain rfl := Option.some.inj ht
      have e1 := key _ _ _ (Or.inr rfl) hb
      have e2 := key _ _ _ (Or.inl rfl) hf
      obtain ⟨st, rest, hst, rfl⟩ := trace_cons hb
      obtain ⟨st', rest', hst', rfl⟩ := trace_cons hf
      rw [hst] at hst'
      obtain rfl := Option.some.inj hst'
      rw [List.tail_cons, List.map_append, List.map_reverse]
      exact chain_join (fun p q h => by rw [dist_comm]; exact h) _ _ _ e1 e2

theorem cos_half_pos : 87 / 100 < Real.cos (1 / 2) := by
  have := Real.one_sub_sq_div_two_le_cos (x := 1 / 2)
  norm_num at this
  linarith

/-- C279: every drawn glyph has a head, open or filled, whatever the magnitudes: with a linear display map, a curve that passes the
acceptance test never fails to have an axis at its tip. -/
theorem C279_drawn (g : Grid) (F : Fields) (a b c d e f : ℝ) (hdx : 0 < g.dx) (hdy : 0 < g.dy)
    (hF : LinearDisplay g F a b c d e f) (step scale : ℝ) (view : View) (anchor : Anchor) (start : ℝ × ℝ) (len : ℝ) (hl : 0 ≤ len)
    (l : Curve) (h : buildCurve g F step scale view anchor start len = some l) (width arrowsize maxMag mag : ℝ) :
    openHead (l.map Prod.snd) (glyphHead width arrowsize maxMag mag).1 (glyphHead width arrowsize maxMag mag).2 ≠ none ∧
    filledHead (l.map Prod.snd) (glyphHead width arrowsize maxMag mag).1 (glyphHead width arrowsize maxMag mag).2 ≠ none := by
  obtain ⟨len', -, ht, ha⟩ := buildLoop_some h hl
  have hc := drawn_chain g F a b c d e f hdx hdy hF step scale view anchor start len' l ht
  have hL : 87 / 100 ≤ (glyphHead width arrowsize maxMag mag).1 := by
    unfold glyphHead headSize
    dsimp only
    generalize edgeSize mag maxMag (minEdge width arrowsize) (maxEdge width arrowsize) = k
    have := le_max_right k 1
    nlinarith [cos_half_pos]
  have hc' : List.IsChain (fun p q => 1 / 10 ^ 6 < dist p q) (l.map Prod.snd) := hc.imp fun x y h => lt_trans (by norm_num) h
  constructor
  · refine head_of_accepted _ _ _ ha hc' _ _ _ ?_
    have : (1 : ℝ) / 10 ^ 6 ≤ 87 / 100 * (135 / 100) := by norm_num
    nlinarith
  · refine head_of_accepted _ _ _ ha hc' _ _ _ ?_
    have : (1 : ℝ) / 10 ^ 6 ≤ 87 / 100 * (125 / 100) := by norm_num
    nlinarith

/-! ## Sizes -/

/-- C280: size of the heads: each barb is as long as the edge size (at least one pixel) and makes an angle of half a radian with the
axis; the edge grows with the magnitude, from `min_edge` to `max_edge`, which the largest magnitude of the plot has. -/
theorem C280_size (factor : ℝ) (hf : 0 ≤ factor) (pts : List (ℝ × ℝ)) (hp : List.IsChain (fun p q => 1 / 10 ^ 12 < dist p q) pts)
    (edge : ℝ) (H : Head) (h : headOf factor pts (headSize edge).1 (headSize edge).2 = some H) :
    dist H.left H.tip = max edge 1 ∧ dist H.right H.tip = max edge 1 ∧
    ∃ u : ℝ × ℝ, u.1 ^ 2 + u.2 ^ 2 = 1 ∧
      (H.tip.1 - H.left.1) * u.1 + (H.tip.2 - H.left.2) * u.2 = max edge 1 * Real.cos (1 / 2) ∧
      (H.tip.1 - H.right.1) * u.1 + (H.tip.2 - H.right.2) * u.2 = max edge 1 * Real.cos (1 / 2) := by
  have he : 0 ≤ max edge 1 := le_trans zero_le_one (le_max_right _ _)
  have hL : (headSize edge).1 = max edge 1 * Real.cos (1 / 2) := rfl
  have hW : (headSize edge).2 = 2 * max edge 1 * Real.sin (1 / 2) := rfl
  obtain ⟨-, u, -, hu, -, -, -, ⟨m1, m2⟩, w1, w2⟩ := C278_shape factor hf pts hp _ _ (by rw [hL]; nlinarith [cos_half_pos]) H h
  rw [hL] at m1 m2
  rw [hW] at w1 w2
  have hcs := Real.cos_sq_add_sin_sq (1 / 2)
  generalize max edge 1 = r at *
  generalize Real.cos (1 / 2) = cs at *
  generalize Real.sin (1 / 2) = sn at *
  have l1 : H.tip.1 - H.left.1 = r * (cs * u.1 + sn * u.2) := by linarith
  have l2 : H.tip.2 - H.left.2 = r * (cs * u.2 - sn * u.1) := by linarith
  have r1 : H.tip.1 - H.right.1 = r * (cs * u.1 - sn * u.2) := by linarith
  have r2 : H.tip.2 - H.right.2 = r * (cs * u.2 + sn * u.1) := by linarith
  have one : (cs * u.1 + sn * u.2) * (cs * u.1 + sn * u.2) + (cs * u.2 - sn * u.1) * (cs * u.2 - sn * u.1) = 1 := by
    have : (cs * u.1 + sn * u.2) * (cs * u.1 + sn * u.2) + (cs * u.2 - sn * u.1) * (cs * u.2 - sn * u.1) =
      (cs ^ 2 + sn ^ 2) * (u.1 ^ 2 + u.2 ^ 2) := by ring
    rw [this, hcs, hu, one_mul]
  have two : (cs * u.1 - sn * u.2) * (cs * u.1 - sn * u.2) + (cs * u.2 + sn * u.1) * (cs * u.2 + sn * u.1) = 1 := by
    have : (cs * u.1 - sn * u.2) * (cs * u.1 - sn * u.2) + (cs * u.2 + sn * u.1) * (cs * u.2 + sn * u.1) =
      (cs ^ 2 + sn ^ 2) * (u.1 ^ 2 + u.2 ^ 2) := by ring
    rw [this, hcs, hu, one_mul]
  refine ⟨?_, ?_, u, hu, ?_, ?_⟩
  · unfold dist
    rw [l1, l2, hyp_smul _ _ _ he]
    unfold hyp
    rw [one, Real.sqrt_one, mul_one]
  · unfold dist
    rw [r1, r2, hyp_smul _ _ _ he]
    unfold hyp
    rw [two, Real.sqrt_one, mul_one]
  · rw [l1, l2]
    have : r * (cs * u.1 + sn * u.2) * u.1 + r * (cs * u.2 - sn * u.1) * u.2 = r * cs * (u.1 ^ 2 + u.2 ^ 2) := by ring
    rw [this, hu, mul_one]
  · rw [r1, r2]
    have : r * (cs * u.1 - sn * u.2) * u.1 + r * (cs * u.2 + sn * u.1) * u.2 = r * cs * (u.1 ^ 2 + u.2 ^ 2) := by ring
    rw [this, hu, mul_one]

/-- C280: the edge of a glyph's head grows with its magnitude, from `lo` to `hi`; the largest magnitude has `hi`. In a plot both are at
least 1.2 pixels and four times as far apart as the panel allows. -/
theorem C280_edge (width arrowsize maxMag mag mag' : ℝ) (hm : mag ≤ mag') :
    edgeSize mag maxMag (minEdge width arrowsize) (maxEdge width arrowsize) ≤
      edgeSize mag' maxMag (minEdge width arrowsize) (maxEdge width arrowsize) ∧
    12 / 10 ≤ minEdge width arrowsize ∧
    minEdge width arrowsize ≤ edgeSize mag maxMag (minEdge width arrowsize) (maxEdge width arrowsize) ∧
    edgeSize mag maxMag (minEdge width arrowsize) (maxEdge width arrowsize) ≤ maxEdge width arrowsize ∧
    (1 / 10 ^ 12 ≤ maxMag → edgeSize maxMag maxMag (minEdge width arrowsize) (maxEdge width arrowsize) = maxEdge width arrowsize) ∧
    (400 ≤ width → 1 ≤ arrowsize → minEdge width arrowsize = 3 / 1000 * width * arrowsize ∧
      maxEdge width arrowsize = 12 / 1000 * width * arrowsize) := by
  have hle : minEdge width arrowsize ≤ maxEdge width arrowsize := le_max_right _ _
  have hM : 0 < max maxMag (1 / 10 ^ 12) := lt_of_lt_of_le (by positivity) (le_max_right _ _)
  unfold edgeSize
  dsimp only
  refine ⟨?_, le_max_right _ _, ?_, ?_, ?_, ?_⟩
  · have : max 0 (min (mag / max maxMag (1 / 10 ^ 12)) 1) ≤ max 0 (min (mag' / max maxMag (1 / 10 ^ 12)) 1) := by
      apply max_le_max le_rfl
      apply min_le_min _ le_rfl
      exact (div_le_div_iff_of_pos_right hM).mpr hm
    nlinarith
  · have := le_max_left 0 (min (mag / max maxMag (1 / 10 ^ 12)) 1)
    nlinarith
  · have : max 0 (min (mag / max maxMag (1 / 10 ^ 12)) 1) ≤ 1 := max_le zero_le_one (min_le_right _ _)
    nlinarith
  · intro h
    rw [max_eq_left h, div_self (by have : (0 : ℝ) < 1 / 10 ^ 12 := by positivity
                                    linarith)]
    norm_num
  · intro h1 h2
    have e : max arrowsize (1 / 10) = arrowsize := max_eq_left (by linarith)
    have k : (400 : ℝ) * 1 ≤ width * arrowsize := mul_le_mul h1 h2 zero_le_one (by linarith)
    have e1 : minEdge width arrowsize = 3 / 1000 * width * arrowsize := by
      unfold minEdge
      rw [e, max_eq_left (by linarith)]; ring
    refine ⟨e1, ?_⟩
    unfold maxEdge
    rw [e1, e, max_eq_left (by linarith)]; ring

/-! ## Hypotheses are met -/

/-- The head of a straight line of 10 pixels. -/
example : headOf (135 / 100) [(0, 0), (10, 0)] 4 2 = some ⟨(6, 1), (10, 0), (6, -1)⟩ ∧
    List.IsChain (fun p q => 1 / 10 ^ 12 < dist p q) [((0 : ℝ), (0 : ℝ)), (10, 0)] ∧
    ∀ p ∈ [((0 : ℝ), (0 : ℝ)), (10, 0)], ∃ k : ℝ, 0 ≤ k ∧ p = (10 - k * 1, 0 - k * 0) := by
  have hhyp : ∀ z : ℝ, hyp z 0 = |z| := by
    intro z; unfold hyp; rw [mul_zero, add_zero, ← sq, Real.sqrt_sq_eq_abs]
  refine ⟨?_, ?_, ?_⟩
  · unfold headOf tipDirection
    rw [if_neg (by simp)]
    have hw : walkBack (([((0 : ℝ), (0 : ℝ)), (10, 0)]).headD (0, 0)) (max (4 * (135 / 100)) 0) ([((0 : ℝ), (0 : ℝ)), (10, 0)]).reverse =
        (46 / 10, 0) := by
      rw [max_eq_left (by norm_num), show ([((0 : ℝ), (0 : ℝ)), (10, 0)]).reverse = [(10, 0), (0, 0)] from rfl, walkBack]
      dsimp only
      rw [sub_self, hhyp, abs_of_pos (by norm_num), if_neg (by norm_num), if_pos (by norm_num)]
      norm_num
    rw [hw]
    dsimp only [List.getLastD, List.getLast]
    rw [sub_self, hhyp, abs_of_pos (by norm_num), if_neg (by norm_num)]
    dsimp only
    norm_num
  · rw [List.isChain_cons_cons]
    refine ⟨?_, List.isChain_singleton _⟩
    unfold dist
    dsimp only
    rw [sub_self, hhyp]
    norm_num
  · intro p hp
    simp only [List.mem_cons, List.not_mem_nil, or_false] at hp
    rcases hp with rfl | rfl
    · exact ⟨10, by norm_num, by norm_num⟩
    · exact ⟨0, by norm_num, by norm_num⟩

/-- A glyph that is drawn (`drawnD`) with its heads. -/
example (mag : ℝ) : ∃ H, openHead [(50, 50), (53, 50), (54, 50), (164 / 3, 50)] (glyphHead 500 1 1 mag).1 (glyphHead 500 1 1 mag).2 = some H :=
  Option.ne_none_iff_exists'.mp (C279_drawn gridW fieldsW 0 1 0 0 0 1 (by unfold gridW; norm_num) (by unfold gridW; norm_num) linearW 3 1 _ _ _ 5
    (by norm_num) _ drawnD 500 1 1 mag).1

end Skyborn.Plot.Curly
