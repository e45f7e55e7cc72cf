/-
Arrows along contour lines: direction of closed contours and length of the arrows.
Modelled: plot/_core/contour_arrows.py:80-103, 283-392.
-/
import Verif.Plot.ContourArrows

namespace Skyborn.Plot.Contour

open Skyborn.Plot

/-! ## Specification -/

namespace Spec

/-- Signed area enclosed by the closed polygon with these corners (the last is joined to the first):
positive when it is run through counterclockwise. -/
noncomputable def area (vs : List (Pt ℝ)) : ℝ :=
  (∑ i ∈ Finset.range vs.length, ((vtx vs i).x * (vtx vs ((i + 1) % vs.length)).y -
    (vtx vs ((i + 1) % vs.length)).x * (vtx vs i).y)) / 2

/-- Run through clockwise. -/
def Clockwise (vs : List (Pt ℝ)) : Prop := area vs < 0

/-- Run through counterclockwise. -/
def Counterclockwise (vs : List (Pt ℝ)) : Prop := 0 < area vs

end Spec

/-! ## Model -/

/-- plot/_core/contour_arrows.py:80-85 `_signed_area`. -/
noncomputable def signedArea (vs : List (Pt ℝ)) : ℝ :=
  if vs.length < 3 then 0
  else 1 / 2 * ((vs.zip (vs.rotate 1)).map fun pq => pq.1.x * pq.2.y - pq.2.x * pq.1.y).sum

/-- `np.allclose` of two numbers. -/
noncomputable def close (a b : ℝ) : Prop := |a - b| ≤ 1 / 10 ^ 8 + 1 / 10 ^ 5 * |b|

open Classical in
/-- plot/_core/contour_arrows.py:88-91 `_is_closed_path`. -/
noncomputable def isClosed (vs : List (Pt ℝ)) : Bool :=
  if vs.length < 3 then false
  else decide (close (vs.getD 0 ⟨0, 0⟩).x (vs.getD (vs.length - 1) ⟨0, 0⟩).x ∧
    close (vs.getD 0 ⟨0, 0⟩).y (vs.getD (vs.length - 1) ⟨0, 0⟩).y)

open Classical in
/-- plot/_core/contour_arrows.py:94-101 `_orient_closed_vertices`; the flag says whether the array returned
is another one (`display_vertices is not original_display_vertices`). -/
noncomputable def orient (vs : List (Pt ℝ)) (clockwise : Bool) : List (Pt ℝ) × Bool :=
  let area := signedArea vs
  if area = 0 then (vs, false)
  else if decide (area < 0) = clockwise then (vs, false)
  else (vs.reverse, true)

/-- One drawn contour line. -/
structure Drawn where
  /-- `_skyborn_contour_direction` -/ direction : String
  /-- the line in data coordinates -/ vertices : List (Pt ℝ)
  /-- the line on the display -/ display : List (Pt ℝ)
  /-- the arrows on the display -/ rows : List (Option Arrow)

open Classical in
/-- plot/_core/contour_arrows.py:309-324: orientation of one line. -/
noncomputable def orientLine (T : Pt ℝ → Pt ℝ) (positive : String) (level : ℝ) (segment : List (Pt ℝ)) :
    String × List (Pt ℝ) × List (Pt ℝ) :=
  let display := segment.map T
  if isClosed segment = true ∧ level ≠ 0 then
    let positiveClockwise : Bool := decide (positive = "clockwise")
    let clockwise : Bool := if 0 < level then positiveClockwise else !positiveClockwise
    let o := orient display clockwise
    (if clockwise then "clockwise" else "counterclockwise", if o.2 then segment.reverse else segment, o.1)
  else ("forward", segment, display)

/-- plot/_core/contour_arrows.py:350-355: the arrow length, in pixels. -/
noncomputable def localLength (dpi total fraction maxLength : ℝ) : ℝ :=
  max (min (total * fraction) (maxLength * dpi / 72)) (min (4 * dpi / 72) (total * (1 / 4)))

/-- plot/_core/contour_arrows.py:309-392: one contour line; `none`: skipped, for a line without length.
Not modelled: colours, line widths and styles, and the transformation of the arrows back to data coordinates. -/
noncomputable def drawLine (qsort : List Candidate → List Candidate) (T : Pt ℝ → Pt ℝ) (dpi : ℝ) (count : ℕ)
    (size fraction maxLength : ℝ) (positive : String) (level : ℝ) (segment : List (Pt ℝ)) : Option Drawn :=
  let o := orientLine T positive level segment
  let total := totalLength o.2.2
  if total ≤ 0 then none
  else some { direction := o.1, vertices := o.2.1, display := o.2.2,
              rows := buildArrows qsort o.2.2 count (localLength dpi total fraction maxLength) size }

/-! ## Area -/

private noncomputable def cross (vs : List (Pt ℝ)) (i j : ℕ) : ℝ :=
  (Spec.vtx vs i).x * (Spec.vtx vs j).y - (Spec.vtx vs j).x * (Spec.vtx vs i).y

private theorem cross_symm (vs : List (Pt ℝ)) (i j : ℕ) : cross vs i j = -cross vs j i := by
  unfold cross; ring

private theorem area_eq (vs : List (Pt ℝ)) (m : ℕ) (h : vs.length = m + 1) :
    Spec.area vs = (∑ i ∈ Finset.range m, cross vs i (i + 1) + cross vs m 0) / 2 := by
  unfold Spec.area
  rw [h, Finset.sum_range_succ, Nat.mod_self]
  congr 2
  refine Finset.sum_congr rfl fun i hi => ?_
  have := Finset.mem_range.mp hi
  rw [Nat.mod_eq_of_lt (by omega)]
  rfl

private theorem vtx_reverse (vs : List (Pt ℝ)) (m i : ℕ) (h : vs.length = m + 1) (hi : i ≤ m) :
    Spec.vtx vs.reverse i = Spec.vtx vs (m - i) := by
  unfold Spec.vtx
  rw [List.getD_eq_getElem?_getD, List.getD_eq_getElem?_getD, List.getElem?_reverse (by omega), h]
  congr 2

/-- Running through a polygon backwards changes the sign of its area. -/
theorem area_reverse (vs : List (Pt ℝ)) : Spec.area vs.reverse = -Spec.area vs := by
  cases hvs : vs with
  | nil => simp [Spec.area]
  | cons a r =>
    rw [← hvs]
    obtain ⟨m, h⟩ : ∃ m, vs.length = m + 1 := ⟨r.length, by rw [hvs]; rfl⟩
    rw [area_eq vs m h, area_eq vs.reverse m (by rw [List.length_reverse, h])]
    have h1 : cross vs.reverse m 0 = -cross vs m 0 := by
      rw [cross_symm vs m 0, neg_neg]
      unfold cross
      rw [vtx_reverse vs m m h le_rfl, vtx_reverse vs m 0 h (by omega)]
      simp
    have h2 : ∑ i ∈ Finset.range m, cross vs.reverse i (i + 1) = -∑ i ∈ Finset.range m, cross vs i (i + 1) := by
      rw [← Finset.sum_neg_distrib, ← Finset.sum_range_reflect]
      refine Finset.sum_congr rfl fun i hi => ?_
      have hi' := Finset.mem_range.mp hi
      rw [← cross_symm]
      unfold cross
      rw [vtx_reverse vs m _ h (by omega), vtx_reverse vs m _ h (by omega),
        show m - (m - 1 - i) = i + 1 by omega, show m - (m - 1 - i + 1) = i by omega]
    rw [h1, h2]; ring

private theorem zip_rotate_sum (vs : List (Pt ℝ)) :
    ((vs.zip (vs.rotate 1)).map fun pq => pq.1.x * pq.2.y - pq.2.x * pq.1.y).sum / 2 = Spec.area vs := by
  unfold Spec.area
  congr 1
  have hl : (vs.zip (vs.rotate 1)).length = vs.length := by simp
  rw [← Fin.sum_univ_getElem, Finset.sum_fin_eq_sum_range]
  rw [show Finset.range ((vs.zip (vs.rotate 1)).map fun pq => pq.1.x * pq.2.y - pq.2.x * pq.1.y).length =
    Finset.range vs.length by rw [List.length_map, hl]]
  refine Finset.sum_congr rfl fun i hi => ?_
  have hi' := Finset.mem_range.mp hi
  have hm : (i + 1) % vs.length < vs.length := Nat.mod_lt _ (by omega)
  rw [dif_pos (by simpa using hi')]
  have e1 : Spec.vtx vs i = vs[i] := by
    unfold Spec.vtx; rw [List.getD_eq_getElem?_getD, List.getElem?_eq_getElem hi']; rfl
  have e2 : Spec.vtx vs ((i + 1) % vs.length) = vs[(i + 1) % vs.length] := by
    unfold Spec.vtx; rw [List.getD_eq_getElem?_getD, List.getElem?_eq_getElem hm]; rfl
  rw [e1, e2]
  simp [List.getElem_rotate]

/-- The area computed is the area enclosed, for polygons of at least three corners. -/
theorem signedArea_eq (vs : List (Pt ℝ)) (h : 3 ≤ vs.length) : signedArea vs = Spec.area vs := by
  unfold signedArea
  rw [if_neg (by omega), ← zip_rotate_sum]
  ring

/-! ## Direction -/

/-- C262: a closed contour of a non-zero level whose displayed polygon encloses some area is drawn
clockwise (as displayed) exactly when its level is positive and `positive_direction` is "clockwise", or its level
is negative and it is not; the recorded direction says which. The vertices are those of the contour, in
order or in reverse order, and the displayed line is that line. -/
theorem C262_closed (qsort : List Candidate → List Candidate) (T : Pt ℝ → Pt ℝ) (dpi : ℝ) (count : ℕ)
    (size fraction maxLength : ℝ) (positive : String) (level : ℝ) (segment : List (Pt ℝ)) (out : Drawn)
    (e : drawLine qsort T dpi count size fraction maxLength positive level segment = some out)
    (hclosed : isClosed segment = true) (hlevel : level ≠ 0) (harea : Spec.area (segment.map T) ≠ 0) :
    ((0 < level ↔ positive = "clockwise") → Spec.Clockwise out.display ∧ out.direction = "clockwise") ∧
    (¬ (0 < level ↔ positive = "clockwise") →
      Spec.Counterclockwise out.display ∧ out.direction = "counterclockwise") ∧
    (out.vertices = segment ∨ out.vertices = segment.reverse) ∧ out.display = out.vertices.map T := by
  have h3 : 3 ≤ segment.length := by
    by_contra h
    rw [isClosed, if_pos (by omega)] at hclosed
    exact absurd hclosed (by simp)
  have hs : signedArea (segment.map T) = Spec.area (segment.map T) := signedArea_eq _ (by simpa using h3)
  have key : ∀ c : Bool, (c = true → Spec.Clockwise (orient (segment.map T) c).1) ∧
      (c = false → Spec.Counterclockwise (orient (segment.map T) c).1) ∧
      (((orient (segment.map T) c).2 = false ∧ (orient (segment.map T) c).1 = segment.map T) ∨
       ((orient (segment.map T) c).2 = true ∧ (orient (segment.map T) c).1 = (segment.map T).reverse)) := by
    intro c
    unfold orient
    dsimp only
    rw [hs, if_neg harea]
    split_ifs with h
    · refine ⟨fun hc => ?_, fun hc => ?_, Or.inl ⟨rfl, rfl⟩⟩
      · rw [hc, decide_eq_true_eq] at h; exact h
      · rw [hc, decide_eq_false_iff_not, not_lt] at h
        exact lt_of_le_of_ne h (Ne.symm harea)
    · refine ⟨fun hc => ?_, fun hc => ?_, Or.inr ⟨rfl, rfl⟩⟩
      · rw [hc, decide_eq_true_eq, not_lt] at h
        have := lt_of_le_of_ne h (Ne.symm harea)
        unfold Spec.Clockwise
        dsimp only
        rw [area_reverse]; linarith
      · rw [hc, Bool.not_eq_false, decide_eq_true_eq] at h
        unfold Spec.Counterclockwise
        dsimp only
        rw [area_reverse]; linarith
  unfold drawLine at e
  dsimp only at e
  split_ifs at e
  obtain rfl := Option.some.inj e
  unfold orientLine
  rw [if_pos ⟨hclosed, hlevel⟩]
  dsimp only
  generalize hc : (if 0 < level then decide (positive = "clockwise") else !decide (positive = "clockwise")) = c
  have hcv : c = true ↔ (0 < level ↔ positive = "clockwise") := by
    rw [← hc]
    by_cases h1 : 0 < level <;> by_cases h2 : positive = "clockwise" <;> simp [h1, h2]
  obtain ⟨k1, k2, k3⟩ := key c
  refine ⟨fun h => ?_, fun h => ?_, ?_, ?_⟩
  · have := hcv.mpr h
    exact ⟨k1 this, by rw [this]; rfl⟩
  · have : c = false := by
      cases hcc : c with
      | false => rfl
      | true => exact absurd (hcv.mp hcc) h
    exact ⟨k2 this, by rw [this]; rfl⟩
  · rcases k3 with ⟨h, -⟩ | ⟨h, -⟩ <;> rw [h]
    · left; rfl
    · right; rfl
  · rcases k3 with ⟨h, h'⟩ | ⟨h, h'⟩ <;> rw [h, h']
    · rfl
    · simp

/-- C262: the reverse of a level swaps its direction: with `positive_direction` fixed, a closed contour of level
`-level` is drawn the other way round. -/
theorem C262_opposite (qsort : List Candidate → List Candidate) (T : Pt ℝ → Pt ℝ) (dpi : ℝ) (count : ℕ)
    (size fraction maxLength : ℝ) (positive : String) (level : ℝ) (segment : List (Pt ℝ)) (out out' : Drawn)
    (e : drawLine qsort T dpi count size fraction maxLength positive level segment = some out)
    (e' : drawLine qsort T dpi count size fraction maxLength positive (-level) segment = some out')
    (hclosed : isClosed segment = true) (hlevel : level ≠ 0) (harea : Spec.area (segment.map T) ≠ 0) :
    (Spec.Clockwise out.display ↔ Spec.Counterclockwise out'.display) := by
  obtain ⟨a1, a2, -⟩ := C262_closed _ _ _ _ _ _ _ _ _ _ _ e hclosed hlevel harea
  obtain ⟨b1, b2, -⟩ := C262_closed _ _ _ _ _ _ _ _ _ _ _ e' hclosed (neg_ne_zero.mpr hlevel) harea
  have hn : (0 < -level) ↔ ¬ 0 < level := by
    constructor
    · intro h; linarith
    · intro h; push Not at h; have := lt_of_le_of_ne h hlevel; linarith
  by_cases h : (0 < level ↔ positive = "clockwise")
  · have h' : ¬ (0 < -level ↔ positive = "clockwise") := by rw [hn]; tauto
    exact ⟨fun _ => (b2 h').1, fun _ => (a1 h).1⟩
  · have h' : (0 < -level ↔ positive = "clockwise") := by rw [hn]; tauto
    constructor
    · intro h2; have := (a2 h).1
      unfold Spec.Clockwise Spec.Counterclockwise at *; linarith
    · intro h2; have := (b1 h').1
      unfold Spec.Clockwise Spec.Counterclockwise at *; linarith

/-- C262: other contours (open ones, and those of level zero) keep their direction. -/
theorem C262_forward (qsort : List Candidate → List Candidate) (T : Pt ℝ → Pt ℝ) (dpi : ℝ) (count : ℕ)
    (size fraction maxLength : ℝ) (positive : String) (level : ℝ) (segment : List (Pt ℝ)) (out : Drawn)
    (e : drawLine qsort T dpi count size fraction maxLength positive level segment = some out)
    (h : isClosed segment = false ∨ level = 0) :
    out.direction = "forward" ∧ out.vertices = segment ∧ out.display = segment.map T := by
  unfold drawLine at e
  dsimp only at e
  split_ifs at e
  obtain rfl := Option.some.inj e
  unfold orientLine
  rw [if_neg (by rintro ⟨h1, h2⟩; rcases h with h | h <;> simp_all)]
  exact ⟨rfl, rfl, rfl⟩

/-! ## Length of the arrows -/

private theorem localLength_pos {dpi total fraction maxLength : ℝ} (hd : 0 < dpi) (ht : 0 < total) :
    0 < localLength dpi total fraction maxLength := by
  unfold localLength
  refine lt_of_lt_of_le ?_ (le_max_right _ _)
  apply lt_min <;> positivity

private theorem draw_some {qsort : List Candidate → List Candidate} {T : Pt ℝ → Pt ℝ} {dpi : ℝ} {count : ℕ}
    {size fraction maxLength : ℝ} {positive : String} {level : ℝ} {segment : List (Pt ℝ)} {out : Drawn}
    (e : drawLine qsort T dpi count size fraction maxLength positive level segment = some out) :
    0 < Spec.length out.display ∧ out.rows = buildArrows qsort out.display count
      (localLength dpi (Spec.length out.display) fraction maxLength) size := by
  unfold drawLine at e
  dsimp only at e
  split_ifs at e with h
  obtain rfl := Option.some.inj e
  push Not at h
  dsimp only
  rw [← totalLength_eq]
  exact ⟨h, rfl⟩

/-- The full statement of C263: `arrow_max_length` is the maximum side length of the arrowheads, in points
(1/72 inch). -/
def C263_statement : Prop :=
  ∀ (qsort : List Candidate → List Candidate), IsQsortDesc qsort → ∀ (T : Pt ℝ → Pt ℝ) (dpi : ℝ), 0 < dpi →
    ∀ (count : ℕ), 1 ≤ count → ∀ size fraction maxLength : ℝ, 0 < size → 0 < fraction → 0 < maxLength →
    ∀ (positive : String) (level : ℝ) (segment : List (Pt ℝ)) (out : Drawn),
    drawLine qsort T dpi count size fraction maxLength positive level segment = some out →
    ∀ A, some A ∈ out.rows → Spec.dist A.tip A.left * 72 / dpi ≤ maxLength

/-- C263, the part that holds: from tail to tip an arrow is at most `max(arrow_max_length, 4)` points long,
and at most the larger of `arrow_length_fraction` and a quarter of the length of the line; each side
is longer than that by the factor `sqrt(1 + (arrow_size / 2)²)`. Missing: the sides themselves are at most
`arrow_max_length` (false, see `C263_false`). -/
theorem C263_partial (qsort : List Candidate → List Candidate) (hq : IsQsortDesc qsort) (T : Pt ℝ → Pt ℝ) (dpi : ℝ)
    (hd : 0 < dpi) (count : ℕ) (hc : 1 ≤ count) (size fraction maxLength : ℝ) (hs : 0 < size)
    (positive : String) (level : ℝ) (segment : List (Pt ℝ)) (out : Drawn)
    (e : drawLine qsort T dpi count size fraction maxLength positive level segment = some out) (A : Arrow)
    (hA : some A ∈ out.rows) :
    Spec.dist A.tail A.tip * 72 / dpi ≤ max maxLength 4 ∧
    Spec.dist A.tail A.tip ≤ max fraction (1 / 4) * Spec.length out.display ∧
    Spec.dist A.tip A.left = Spec.dist A.tail A.tip * Real.sqrt (1 + (size / 2) ^ 2) ∧
    Spec.dist A.tip A.right = Spec.dist A.tail A.tip * Real.sqrt (1 + (size / 2) ^ 2) := by
  obtain ⟨hL, hrows⟩ := draw_some e
  rw [hrows] at hA
  obtain ⟨d, -, -, -, -, -, h1, hx, hy, hperp, hw, hiso, -⟩ := C260_geometry qsort hq _ hL count hc _ size (localLength_pos hd hL) hs A hA
  have hL' := hL
  generalize Spec.length out.display = L at *
  have hside : Spec.dist A.tip A.left = Spec.dist A.tail A.tip * Real.sqrt (1 + (size / 2) ^ 2) := by
    have e1 : A.right.x = 2 * A.tail.x - A.left.x := by linarith
    have e2 : A.right.y = 2 * A.tail.y - A.left.y := by linarith
    have hn : 0 ≤ Spec.dist A.tail A.tip := dist_nonneg _ _
    have sq1 : Spec.dist A.tail A.tip ^ 2 = (A.tip.x - A.tail.x) ^ 2 + (A.tip.y - A.tail.y) ^ 2 :=
      Real.sq_sqrt (by positivity)
    have sq2 : Spec.dist A.left A.right ^ 2 = (A.right.x - A.left.x) ^ 2 + (A.right.y - A.left.y) ^ 2 :=
      Real.sq_sqrt (by positivity)
    rw [hw, mul_pow, e1, e2, sq1] at sq2
    rw [e1, e2] at hperp
    have e3 : Spec.dist A.tail A.tip * Real.sqrt (1 + (size / 2) ^ 2) =
        Real.sqrt (Spec.dist A.tail A.tip ^ 2 * (1 + (size / 2) ^ 2)) := by
      rw [Real.sqrt_mul (sq_nonneg _), Real.sqrt_sq hn]
    rw [e3]
    unfold Spec.dist at sq1 ⊢
    congr 1
    rw [sq1]
    nlinarith
  refine ⟨?_, ?_, hside, hiso ▸ hside⟩
  · rw [div_le_iff₀ hd]
    have : localLength dpi L fraction maxLength ≤ max maxLength 4 * dpi / 72 := by
      unfold localLength
      apply max_le
      · refine (min_le_right _ _).trans ?_
        have := le_max_left maxLength 4
        apply div_le_div_of_nonneg_right _ (by norm_num)
        exact mul_le_mul_of_nonneg_right this hd.le
      · refine (min_le_left _ _).trans ?_
        have := le_max_right maxLength 4
        apply div_le_div_of_nonneg_right _ (by norm_num)
        exact mul_le_mul_of_nonneg_right this hd.le
    linarith
  · refine h1.trans ?_
    unfold localLength
    apply max_le
    · refine (min_le_left _ _).trans ?_
      rw [mul_comm]
      exact mul_le_mul_of_nonneg_right (le_max_left _ _) hL.le
    · refine (min_le_right _ _).trans ?_
      rw [mul_comm]
      exact mul_le_mul_of_nonneg_right (le_max_right _ _) hL.le

private theorem straight_length : Spec.length [⟨0, 0⟩, ⟨1000, 0⟩] = 1000 := by
  have : Spec.dist ⟨0, 0⟩ ⟨1000, 0⟩ = 1000 := by
    unfold Spec.dist
    rw [show ((1000 : ℝ) - 0) ^ 2 + (0 - 0) ^ 2 = 1000 ^ 2 by norm_num, Real.sqrt_sq (by norm_num)]
  simp [Spec.length, Spec.arcTo, Spec.vtx, this]

private theorem straight_at (d : ℝ) (p : Pt ℝ) (h : Spec.AtArc [⟨0, 0⟩, ⟨1000, 0⟩] d p) : p.x = d ∧ p.y = 0 := by
  obtain ⟨k, s, hk, -, -, hx, hy, ht⟩ := h
  have : k = 0 := by simpa using hk
  subst this
  have h1 : Spec.dist ⟨0, 0⟩ ⟨1000, 0⟩ = 1000 := by
    unfold Spec.dist
    rw [show ((1000 : ℝ) - 0) ^ 2 + (0 - 0) ^ 2 = 1000 ^ 2 by norm_num, Real.sqrt_sq (by norm_num)]
  simp [Spec.vtx, Spec.arcTo, h1] at hx hy ht
  exact ⟨by rw [hx, ht], hy⟩

private theorem straight_row (q : List Candidate → List Candidate) (hq : IsQsortDesc q) :
    ∃ out, drawLine q id 72 1 (45 / 100) (35 / 1000) 10 "clockwise" 1 [⟨0, 0⟩, ⟨1000, 0⟩] = some out ∧
      out.display = [⟨0, 0⟩, ⟨1000, 0⟩] ∧ ∃ A, some A ∈ out.rows := by
  have hor : orientLine id "clockwise" 1 [⟨0, 0⟩, ⟨1000, 0⟩] = ("forward", [⟨0, 0⟩, ⟨1000, 0⟩], [⟨0, 0⟩, ⟨1000, 0⟩]) := by
    unfold orientLine
    dsimp only
    rw [if_neg (by simp [isClosed])]
    simp
  unfold drawLine
  rw [hor]
  dsimp only
  rw [totalLength_eq, straight_length, if_neg (by norm_num)]
  refine ⟨_, rfl, rfl, ?_⟩
  dsimp only
  have hl : localLength 72 1000 (35 / 1000) 10 = 10 := by
    unfold localLength; norm_num
  rw [hl]
  have hn := C261_partial q hq [⟨0, 0⟩, ⟨1000, 0⟩] (by
    intro t t' p h1 h2 hlt
    have a1 := (straight_at _ _ h1).1
    have a2 := (straight_at _ _ h2).1
    exfalso; linarith) 1 10 (45 / 100)
  have hne := (C260_rows q hq [⟨0, 0⟩, ⟨1000, 0⟩] 1 le_rfl 10 (45 / 100) (by norm_num) (by norm_num)).2
  rcases hb : buildArrows q [⟨0, 0⟩, ⟨1000, 0⟩] 1 10 (45 / 100) with _ | ⟨o, l⟩
  · have := hne.mp hb
    rw [straight_length] at this; norm_num at this
  · cases o with
    | none => rw [hb] at hn; simp at hn
    | some A => exact ⟨A, by simp⟩

/-- C263 is false with the default sizes: on a straight contour 1000 pixels long at 72 dpi the arrow is
10 points from tail to tip, and the sides of its head are longer. -/
theorem C263_false : ¬ C263_statement := by
  intro h
  obtain ⟨q, hq⟩ := qsort_exists
  obtain ⟨out, e, hdisp, A, hA⟩ := straight_row q hq
  have h1 := h q hq id 72 (by norm_num) 1 le_rfl (45 / 100) (35 / 1000) 10 (by norm_num) (by norm_num) (by norm_num)
    "clockwise" 1 _ out e A hA
  have hside := (C263_partial q hq id 72 (by norm_num) 1 le_rfl (45 / 100) (35 / 1000) 10 (by norm_num)
    "clockwise" 1 _ out e A hA).2.2.1
  obtain ⟨hL, hrows⟩ := draw_some e
  rw [hrows, hdisp, straight_length] at hA
  have hl : localLength 72 1000 (35 / 1000) 10 = 10 := by
    unfold localLength; norm_num
  rw [hl] at hA
  have hds : selectDistances q [⟨0, 0⟩, ⟨1000, 0⟩] 1000 1 10 = [500] := by
    unfold selectDistances
    rw [if_neg (by norm_num), if_pos le_rfl]
    norm_num
  have hchord : Spec.dist A.tail A.tip = 10 := by
    unfold buildArrows at hA
    rw [if_neg (by norm_num), totalLength_eq, straight_length] at hA
    dsimp only at hA
    rw [hds] at hA
    rcases List.mem_append.mp hA with hA | hA
    · obtain ⟨B, hB, eB⟩ := List.mem_map.mp hA
      obtain rfl := Option.some.inj eB
      obtain ⟨d, hd, ed⟩ := List.mem_filterMap.mp hB
      rw [List.mem_singleton] at hd
      subst hd
      obtain ⟨s, es, hs⟩ := pointAt_spec [⟨0, 0⟩, ⟨1000, 0⟩] (by simp) (by rw [straight_length]; norm_num) (max 0 (500 - 10))
      obtain ⟨t, et, ht⟩ := pointAt_spec [⟨0, 0⟩, ⟨1000, 0⟩] (by simp) (by rw [straight_length]; norm_num) 500
      rw [straight_length] at hs ht
      norm_num at hs ht
      obtain ⟨sx, sy⟩ := straight_at _ _ hs
      obtain ⟨tx, ty⟩ := straight_at _ _ ht
      unfold arrowAt at ed
      rw [es, et] at ed
      dsimp only at ed
      split_ifs at ed
      obtain rfl := Option.some.inj ed
      unfold Spec.dist
      dsimp only
      rw [sx, sy, tx, ty]
      rw [show ((500 : ℝ) - 490) ^ 2 + (0 - 0) ^ 2 = 10 ^ 2 by norm_num, Real.sqrt_sq (by norm_num)]
    · exact absurd (List.eq_of_mem_replicate hA) (by simp)
  rw [hchord] at hside
  rw [hside] at h1
  have h2 : (1 : ℝ) < Real.sqrt (1 + (45 / 100 / 2) ^ 2) := by
    rw [Real.lt_sqrt (by norm_num)]; norm_num
  linarith

/-- C259, for the arrows drawn: with `arrow_length_fraction` up to 0.6 (the default is 0.035), every arrow of a line starts,
along the line, at or after the tip of the one before. -/
theorem C259_drawn_partial (qsort : List Candidate → List Candidate) (hq : IsQsortDesc qsort) (T : Pt ℝ → Pt ℝ) (dpi : ℝ)
    (hd : 0 < dpi) (count : ℕ) (hc : 1 ≤ count) (size fraction maxLength : ℝ) (hs : 0 < size) (hf : fraction ≤ 6 / 10)
    (positive : String) (level : ℝ) (segment : List (Pt ℝ)) (out : Drawn)
    (e : drawLine qsort T dpi count size fraction maxLength positive level segment = some out) :
    out.rows.Pairwise (fun o o' => ∀ A B, o = some A → o' = some B →
      ∃ t t', t ≤ t' ∧ Spec.AtArc out.display t A.tip ∧ Spec.AtArc out.display t' B.tail) := by
  obtain ⟨hL, hrows⟩ := draw_some e
  have h2 : 2 ≤ out.display.length := by
    by_contra h
    have : out.display.length - 1 = 0 := by omega
    rw [Spec.length, this] at hL
    simp [Spec.arcTo] at hL
  have hlong : localLength dpi (Spec.length out.display) fraction maxLength * (16 / 10) < Spec.length out.display := by
    have : localLength dpi (Spec.length out.display) fraction maxLength ≤ 6 / 10 * Spec.length out.display := by
      unfold localLength
      apply max_le
      · refine (min_le_left _ _).trans ?_
        rw [mul_comm]
        exact mul_le_mul_of_nonneg_right hf hL.le
      · refine (min_le_right _ _).trans ?_
        nlinarith
    linarith
  have hlp := localLength_pos (fraction := fraction) (maxLength := maxLength) hd hL
  rw [hrows]
  generalize localLength dpi (Spec.length out.display) fraction maxLength = a at *
  have hap := C259_apart_partial qsort hq out.display _ hL count hc a hlp hlong
  obtain ⟨-, hdd, -, -⟩ := C258_distances qsort hq out.display _ hL count hc a hlp
  unfold buildArrows
  rw [if_neg (by push Not; exact ⟨h2, hc, hlp, hs⟩), totalLength_eq]
  dsimp only
  rw [List.pairwise_append]
  refine ⟨?_, ?_, ?_⟩
  · rw [List.pairwise_map]
    have hpts : ∀ d ∈ selectDistances qsort out.display (Spec.length out.display) count a, ∀ A,
        arrowAt out.display a size d = some A →
        Spec.AtArc out.display d A.tip ∧ Spec.AtArc out.display (max 0 (d - a)) A.tail := by
      intro d hd' A hA
      obtain ⟨d0, dL⟩ := hdd d hd'
      obtain ⟨s, es, hs'⟩ := pointAt_spec out.display h2 hL (max 0 (d - a))
      obtain ⟨t, et, ht'⟩ := pointAt_spec out.display h2 hL d
      rw [min_eq_left (max_le hL.le (by linarith)), max_eq_right (le_max_left _ _)] at hs'
      rw [min_eq_left dL.le, max_eq_right d0.le] at ht'
      unfold arrowAt at hA
      rw [es, et] at hA
      dsimp only at hA
      split_ifs at hA
      obtain rfl := Option.some.inj hA
      exact ⟨ht', hs'⟩
    rw [List.pairwise_filterMap]
    refine hap.imp_of_mem ?_
    intro d d' hd1 hd2 hdd' A hA B hB A' B' eA eB
    obtain rfl := Option.some.inj eA
    obtain rfl := Option.some.inj eB
    refine ⟨d, max 0 (d' - a), ?_, (hpts d hd1 A hA).1, (hpts d' hd2 B hB).2⟩
    exact le_trans (by linarith) (le_max_right _ _)
  · exact List.pairwise_replicate.mpr (Or.inr (by intro A B h; simp at h))
  · intro o _ o' ho' A B _ h
    rw [List.eq_of_mem_replicate ho'] at h
    exact absurd h (by simp)

/-- A closed square at a positive level meets the hypotheses of `C262_closed`. -/
example : isClosed [⟨0, 0⟩, ⟨1, 0⟩, ⟨1, 1⟩, ⟨0, 1⟩, ⟨0, 0⟩] = true ∧
    Spec.area (List.map id [⟨0, 0⟩, ⟨1, 0⟩, ⟨1, 1⟩, ⟨0, 1⟩, ⟨0, 0⟩]) = 1 ∧
    ∃ q, IsQsortDesc q ∧ ∃ out, drawLine q id 72 1 (45 / 100) (35 / 1000) 10 "clockwise" 1
      [⟨0, 0⟩, ⟨1, 0⟩, ⟨1, 1⟩, ⟨0, 1⟩, ⟨0, 0⟩] = some out ∧
      out.vertices = [⟨0, 0⟩, ⟨0, 1⟩, ⟨1, 1⟩, ⟨1, 0⟩, ⟨0, 0⟩] := by
  have hcl : isClosed [⟨0, 0⟩, ⟨1, 0⟩, ⟨1, 1⟩, ⟨0, 1⟩, ⟨0, 0⟩] = true := by
    simp [isClosed, close]
  have har : signedArea [⟨0, 0⟩, ⟨1, 0⟩, ⟨1, 1⟩, ⟨0, 1⟩, ⟨0, 0⟩] = 1 := by
    simp [signedArea, List.rotate]
    norm_num
  refine ⟨hcl, ?_, ?_⟩
  · rw [List.map_id, ← signedArea_eq _ (by simp), har]
  obtain ⟨q, hq⟩ := qsort_exists
  refine ⟨q, hq, ?_⟩
  have hor : orientLine id "clockwise" 1 [⟨0, 0⟩, ⟨1, 0⟩, ⟨1, 1⟩, ⟨0, 1⟩, ⟨0, 0⟩] =
      ("clockwise", [⟨0, 0⟩, ⟨0, 1⟩, ⟨1, 1⟩, ⟨1, 0⟩, ⟨0, 0⟩], [⟨0, 0⟩, ⟨0, 1⟩, ⟨1, 1⟩, ⟨1, 0⟩, ⟨0, 0⟩]) := by
    unfold orientLine orient
    dsimp only
    rw [if_pos ⟨hcl, one_ne_zero⟩, List.map_id, har]
    norm_num
  unfold drawLine
  rw [hor]
  dsimp only
  rw [if_neg]
  · exact ⟨_, rfl, rfl⟩
  · have h1 : hypot2 0 1 = 1 := by norm_num [hypot2]
    have h2 : hypot2 1 0 = 1 := by norm_num [hypot2]
    have h3 : hypot2 0 (-1) = 1 := by norm_num [hypot2]
    have h4 : hypot2 (-1) 0 = 1 := by norm_num [hypot2]
    simp [totalLength, h1, h2, h3, h4]
    norm_num

end Skyborn.Plot.Contour
