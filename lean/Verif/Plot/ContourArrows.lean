/-
Arrows along contour lines: geometry of the arrows, and which of the allocated rows are written.
Modelled in Contour.lean: plot/contour_core/_contour_core.c:233-353.
-/
import Verif.Plot.Contour
import Mathlib.Analysis.Complex.Norm

namespace Skyborn.Plot.Contour

open Skyborn.Plot

/-! ## Specification -/

namespace Spec

/-- The line never passes through a point twice, except that it may end where it begins. -/
def Simple (vs : List (Pt ℝ)) : Prop :=
  ∀ t t' p, AtArc vs t p → AtArc vs t' p → t < t' → t = 0 ∧ t' = length vs

end Spec

/-! ## Distances -/

theorem dist_eq_norm (p q : Pt ℝ) :
    Spec.dist p q = ‖(⟨q.x - p.x, q.y - p.y⟩ : ℂ)‖ := by
  rw [Complex.norm_def, Complex.normSq_apply, Spec.dist]
  congr 1; ring

theorem dist_triangle' (p q r : Pt ℝ) : Spec.dist p r ≤ Spec.dist p q + Spec.dist q r := by
  rw [dist_eq_norm, dist_eq_norm, dist_eq_norm]
  have := norm_add_le (⟨q.x - p.x, q.y - p.y⟩ : ℂ) ⟨r.x - q.x, r.y - q.y⟩
  have e : (⟨r.x - p.x, r.y - p.y⟩ : ℂ) = ⟨q.x - p.x, q.y - p.y⟩ + ⟨r.x - q.x, r.y - q.y⟩ := by
    apply Complex.ext <;> simp
  rwa [e]

private theorem dist_scale (u v s p q : ℝ) (P Q : Pt ℝ) (hx : Q.x - P.x = s * u) (hy : Q.y - P.y = s * v)
    (hs : 0 ≤ s) (_ : p = q) : Spec.dist P Q = s * Real.sqrt (u ^ 2 + v ^ 2) := by
  unfold Spec.dist
  rw [hx, hy, show (s * u) ^ 2 + (s * v) ^ 2 = s ^ 2 * (u ^ 2 + v ^ 2) by ring,
    Real.sqrt_mul (sq_nonneg s), Real.sqrt_sq hs]

private theorem arc_between (vs : List (Pt ℝ)) (k : ℕ) : ∀ n,
    Spec.dist (Spec.vtx vs k) (Spec.vtx vs (k + n)) ≤ Spec.arcTo vs (k + n) - Spec.arcTo vs k := by
  intro n
  induction n with
  | zero => simp [Spec.dist]
  | succ n ih =>
    have h1 := dist_triangle' (Spec.vtx vs k) (Spec.vtx vs (k + n)) (Spec.vtx vs (k + n + 1))
    have h2 : Spec.arcTo vs (k + n + 1) = Spec.arcTo vs (k + n) +
        Spec.dist (Spec.vtx vs (k + n)) (Spec.vtx vs (k + n + 1)) := by
      unfold Spec.arcTo; rw [Finset.sum_range_succ]
    rw [← add_assoc, h2]
    linarith

private theorem atArc_le_aux {vs : List (Pt ℝ)} {t t' : ℝ} {p q : Pt ℝ} {k k' : ℕ} {s s' : ℝ}
    (hs0 : 0 ≤ s) (hs1 : s ≤ 1) (hs0' : 0 ≤ s') (hs1' : s' ≤ 1)
    (hx : p.x = (Spec.vtx vs k).x + s * ((Spec.vtx vs (k + 1)).x - (Spec.vtx vs k).x))
    (hy : p.y = (Spec.vtx vs k).y + s * ((Spec.vtx vs (k + 1)).y - (Spec.vtx vs k).y))
    (ht : t = Spec.arcTo vs k + s * Spec.dist (Spec.vtx vs k) (Spec.vtx vs (k + 1)))
    (hx' : q.x = (Spec.vtx vs k').x + s' * ((Spec.vtx vs (k' + 1)).x - (Spec.vtx vs k').x))
    (hy' : q.y = (Spec.vtx vs k').y + s' * ((Spec.vtx vs (k' + 1)).y - (Spec.vtx vs k').y))
    (ht' : t' = Spec.arcTo vs k' + s' * Spec.dist (Spec.vtx vs k') (Spec.vtx vs (k' + 1)))
    (hk : k < k') : Spec.dist p q ≤ t' - t := by
  have h1 : Spec.dist p (Spec.vtx vs (k + 1)) = (1 - s) * Spec.dist (Spec.vtx vs k) (Spec.vtx vs (k + 1)) :=
    dist_scale _ _ (1 - s) 0 0 _ _ (by rw [hx]; ring) (by rw [hy]; ring) (by linarith) rfl
  have h2 : Spec.dist (Spec.vtx vs k') q = s' * Spec.dist (Spec.vtx vs k') (Spec.vtx vs (k' + 1)) :=
    dist_scale _ _ s' 0 0 _ _ (by rw [hx']; ring) (by rw [hy']; ring) hs0' rfl
  obtain ⟨n, rfl⟩ : ∃ n, k' = k + 1 + n := ⟨k' - (k + 1), by omega⟩
  have h3 := arc_between vs (k + 1) n
  have h4 : Spec.arcTo vs (k + 1) = Spec.arcTo vs k + Spec.dist (Spec.vtx vs k) (Spec.vtx vs (k + 1)) := by
    unfold Spec.arcTo; rw [Finset.sum_range_succ]
  have h5 := dist_triangle' p (Spec.vtx vs (k + 1)) q
  have h6 := dist_triangle' (Spec.vtx vs (k + 1)) (Spec.vtx vs (k + 1 + n)) q
  rw [ht, ht']
  linarith

theorem dist_comm' (p q : Pt ℝ) : Spec.dist p q = Spec.dist q p := by
  unfold Spec.dist; congr 1; ring

/-- A straight line is no longer than the way along the line. -/
theorem chord_le {vs : List (Pt ℝ)} {t t' : ℝ} {p q : Pt ℝ} (hp : Spec.AtArc vs t p) (hq : Spec.AtArc vs t' q) :
    Spec.dist p q ≤ |t' - t| := by
  obtain ⟨k, s, -, a1, a2, a3, a4, a5⟩ := hp
  obtain ⟨k', s', -, b1, b2, b3, b4, b5⟩ := hq
  rcases lt_trichotomy k k' with h | h | h
  · exact (atArc_le_aux a1 a2 b1 b2 a3 a4 a5 b3 b4 b5 h).trans (le_abs_self _)
  · subst h
    have key : ∀ (P Q : Pt ℝ) (r r' : ℝ), r ≤ r' →
        P.x = (Spec.vtx vs k).x + r * ((Spec.vtx vs (k + 1)).x - (Spec.vtx vs k).x) →
        P.y = (Spec.vtx vs k).y + r * ((Spec.vtx vs (k + 1)).y - (Spec.vtx vs k).y) →
        Q.x = (Spec.vtx vs k).x + r' * ((Spec.vtx vs (k + 1)).x - (Spec.vtx vs k).x) →
        Q.y = (Spec.vtx vs k).y + r' * ((Spec.vtx vs (k + 1)).y - (Spec.vtx vs k).y) →
        Spec.dist P Q = (r' - r) * Spec.dist (Spec.vtx vs k) (Spec.vtx vs (k + 1)) := by
      intro P Q r r' hr h1 h2 h3 h4
      exact dist_scale _ _ (r' - r) 0 0 _ _ (by rw [h1, h3]; ring) (by rw [h2, h4]; ring) (by linarith) rfl
    rcases le_total s s' with hss | hss
    · rw [key p q s s' hss a3 a4 b3 b4, a5, b5]
      refine le_trans (le_of_eq ?_) (le_abs_self _)
      ring
    · rw [dist_comm', key q p s' s hss b3 b4 a3 a4, a5, b5]
      refine le_trans (le_of_eq ?_) (neg_le_abs _)
      ring
  · rw [dist_comm', abs_sub_comm]
    exact (atArc_le_aux b1 b2 a1 a2 b3 b4 b5 a3 a4 a5 h).trans (le_abs_self _)

/-! ## One arrow -/

private theorem arrowAt_spec {vs : List (Pt ℝ)} (h2 : 2 ≤ vs.length) (hL : 0 < Spec.length vs) {a size d : ℝ}
    (ha : 0 < a) (hs : 0 < size) (hd0 : 0 < d) (hdL : d < Spec.length vs) :
    ∃ s e, Spec.AtArc vs (max 0 (d - a)) s ∧ Spec.AtArc vs d e ∧
      ((s = e ∧ arrowAt vs a size d = none) ∨
       (s ≠ e ∧ ∃ A, arrowAt vs a size d = some A ∧ A.tail = s ∧ A.tip = e ∧
        A.left.x + A.right.x = 2 * s.x ∧ A.left.y + A.right.y = 2 * s.y ∧
        (A.left.x - A.right.x) * (e.x - s.x) + (A.left.y - A.right.y) * (e.y - s.y) = 0 ∧
        Spec.dist A.left A.right = size * Spec.dist s e ∧
        0 < (e.x - s.x) * (A.left.y - s.y) - (e.y - s.y) * (A.left.x - s.x))) := by
  obtain ⟨s, es, hs'⟩ := pointAt_spec vs h2 hL (max 0 (d - a))
  obtain ⟨e, ee, he'⟩ := pointAt_spec vs h2 hL d
  rw [min_eq_left (max_le hL.le (by linarith)), max_eq_right (le_max_left _ _)] at hs'
  rw [min_eq_left hdL.le, max_eq_right hd0.le] at he'
  refine ⟨s, e, hs', he', ?_⟩
  by_cases hse : s = e
  · left
    refine ⟨hse, ?_⟩
    unfold arrowAt
    rw [es, ee]
    dsimp only
    rw [if_pos (by rw [hse]; simp [hypot2])]
  · right
    refine ⟨hse, ?_⟩
    have hpos : 0 < (e.x - s.x) ^ 2 + (e.y - s.y) ^ 2 := by
      rcases eq_or_ne s.x e.x with h1 | h1
      · have : s.y ≠ e.y := by
          intro h3; apply hse; cases s; cases e; simp_all
        have := sub_ne_zero.mpr this.symm
        positivity
      · have := sub_ne_zero.mpr h1.symm
        positivity
    have hl : 0 < hypot2 (e.x - s.x) (e.y - s.y) := Real.sqrt_pos.mpr hpos
    unfold arrowAt
    rw [es, ee]
    dsimp only
    rw [if_neg (not_le.mpr hl)]
    generalize hh : hypot2 (e.x - s.x) (e.y - s.y) = l at hl ⊢
    have hsq : l ^ 2 = (e.x - s.x) ^ 2 + (e.y - s.y) ^ 2 := by
      rw [← hh, hypot2, Real.sq_sqrt hpos.le]
    refine ⟨_, rfl, rfl, rfl, ?_, ?_, ?_, ?_, ?_⟩
    · dsimp only; ring
    · dsimp only; ring
    · dsimp only; field_simp; ring
    · have : Spec.dist s e = l := hh
      rw [this]
      unfold Spec.dist
      dsimp only
      have e1 : s.x - -((e.y - s.y) / l) * (l * size) * (1 / 2) - (s.x + -((e.y - s.y) / l) * (l * size) * (1 / 2)) =
          size * (e.y - s.y) := by field_simp; ring
      have e2 : s.y - (e.x - s.x) / l * (l * size) * (1 / 2) - (s.y + (e.x - s.x) / l * (l * size) * (1 / 2)) =
          -(size * (e.x - s.x)) := by field_simp; ring
      rw [e1, e2, show (size * (e.y - s.y)) ^ 2 + (-(size * (e.x - s.x))) ^ 2 = (size * l) ^ 2 by
        rw [mul_pow, mul_pow, neg_sq, mul_pow, hsq]; ring, Real.sqrt_sq (by positivity)]
    · dsimp only
      have : (e.x - s.x) * (s.y + (e.x - s.x) / l * (l * size) * (1 / 2) - s.y) -
          (e.y - s.y) * (s.x + -((e.y - s.y) / l) * (l * size) * (1 / 2) - s.x) =
          size / 2 * ((e.x - s.x) ^ 2 + (e.y - s.y) ^ 2) := by field_simp; ring
      rw [this]
      positivity

private theorem build_eq (qsort : List Candidate → List Candidate) {vs : List (Pt ℝ)} (h2 : 2 ≤ vs.length) {count : ℕ}
    (hc : 1 ≤ count) {a size : ℝ} (ha : 0 < a) (hs : 0 < size) :
    buildArrows qsort vs count a size =
      ((selectDistances qsort vs (Spec.length vs) count a).filterMap (arrowAt vs a size)).map some ++
      List.replicate ((selectDistances qsort vs (Spec.length vs) count a).length -
        ((selectDistances qsort vs (Spec.length vs) count a).filterMap (arrowAt vs a size)).length) none := by
  unfold buildArrows
  rw [if_neg (by push Not; exact ⟨h2, hc, ha, hs⟩), totalLength_eq]

/-- C260: every arrow of the result sits on the line: its tip at some distance `d` strictly inside the line,
its tail one arrow length before it (or at the beginning of the line); the arrow is not longer than the
arrow length; its head is the isosceles triangle with that tip, whose base is centred at the tail, at
right angles to the arrow and `arrow_size` times as wide as the arrow is long, with the first stroke on the left. -/
theorem C260_geometry (qsort : List Candidate → List Candidate) (hq : IsQsortDesc qsort) (vs : List (Pt ℝ))
    (hL : 0 < Spec.length vs) (count : ℕ) (hc : 1 ≤ count) (a size : ℝ) (ha : 0 < a)
    (hs : 0 < size) (A : Arrow) (hA : some A ∈ buildArrows qsort vs count a size) :
    ∃ d, 0 < d ∧ d < Spec.length vs ∧ Spec.AtArc vs d A.tip ∧ Spec.AtArc vs (max 0 (d - a)) A.tail ∧
      A.tail ≠ A.tip ∧ Spec.dist A.tail A.tip ≤ a ∧
      A.left.x + A.right.x = 2 * A.tail.x ∧ A.left.y + A.right.y = 2 * A.tail.y ∧
      (A.left.x - A.right.x) * (A.tip.x - A.tail.x) + (A.left.y - A.right.y) * (A.tip.y - A.tail.y) = 0 ∧
      Spec.dist A.left A.right = size * Spec.dist A.tail A.tip ∧
      Spec.dist A.tip A.left = Spec.dist A.tip A.right ∧
      0 < (A.tip.x - A.tail.x) * (A.left.y - A.tail.y) - (A.tip.y - A.tail.y) * (A.left.x - A.tail.x) := by
  have h2 : 2 ≤ vs.length := by
    by_contra h
    have : vs.length - 1 = 0 := by omega
    rw [Spec.length, this] at hL
    simp [Spec.arcTo] at hL
  rw [build_eq qsort h2 hc ha hs] at hA
  rcases List.mem_append.mp hA with hA | hA
  · obtain ⟨B, hB, e⟩ := List.mem_map.mp hA
    obtain rfl := Option.some.inj e
    obtain ⟨d, hd, e⟩ := List.mem_filterMap.mp hB
    obtain ⟨-, hdd, -, -⟩ := C258_distances qsort hq vs (Spec.length vs) hL count hc a ha
    obtain ⟨d0, dL⟩ := hdd d hd
    obtain ⟨s, e', h3, h4, h5⟩ := arrowAt_spec h2 hL ha hs d0 dL
    rcases h5 with ⟨-, h5⟩ | ⟨hne, A, h5, rfl, rfl, h6, h7, h8, h9, h10⟩
    · rw [h5] at e; exact absurd e (by simp)
    · rw [h5] at e
      obtain rfl := Option.some.inj e
      refine ⟨d, d0, dL, h4, h3, hne, ?_, h6, h7, h8, h9, ?_, h10⟩
      · refine (chord_le h3 h4).trans ?_
        rw [abs_of_nonneg]
        · have := le_max_right 0 (d - a); linarith
        · have : max 0 (d - a) ≤ d := max_le d0.le (by linarith)
          linarith
      · unfold Spec.dist
        congr 1
        have e1 : A.right.x = 2 * A.tail.x - A.left.x := by linarith
        have e2 : A.right.y = 2 * A.tail.y - A.left.y := by linarith
        rw [e1, e2] at h8 ⊢
        nlinarith
  · exact absurd (List.eq_of_mem_replicate hA) (by simp)

/-- C260: between one row and the requested number of rows; no rows for a line without length. -/
theorem C260_rows (qsort : List Candidate → List Candidate) (hq : IsQsortDesc qsort) (vs : List (Pt ℝ))
    (count : ℕ) (hc : 1 ≤ count) (a size : ℝ) (ha : 0 < a) (hs : 0 < size) :
    (buildArrows qsort vs count a size).length ≤ count ∧
    (buildArrows qsort vs count a size = [] ↔ Spec.length vs = 0) := by
  have hnn : 0 ≤ Spec.length vs := by rw [← totalLength_eq]; exact totalLength_nonneg vs
  rcases hnn.eq_or_lt with h0 | hL
  · have : buildArrows qsort vs count a size = [] := by
      unfold buildArrows
      split_ifs
      · rfl
      · dsimp only
        have : selectDistances qsort vs (totalLength vs) count a = [] := by
          unfold selectDistances
          rw [if_pos (Or.inr (by rw [totalLength_eq, ← h0]))]
        rw [this]; rfl
    rw [this]
    exact ⟨by simp, fun _ => h0.symm, fun _ => rfl⟩
  · have h2 : 2 ≤ vs.length := by
      by_contra h
      have : vs.length - 1 = 0 := by omega
      rw [Spec.length, this] at hL
      simp [Spec.arcTo] at hL
    obtain ⟨-, -, h3, h4⟩ := C258_distances qsort hq vs (Spec.length vs) hL count hc a ha
    have hle := List.length_filterMap_le (arrowAt vs a size) (selectDistances qsort vs (Spec.length vs) count a)
    have hlen : (buildArrows qsort vs count a size).length =
        (selectDistances qsort vs (Spec.length vs) count a).length := by
      rw [build_eq qsort h2 hc ha hs, List.length_append, List.length_map, List.length_replicate]
      omega
    refine ⟨by omega, fun h => ?_, fun h => by linarith⟩
    rw [h, List.length_nil] at hlen
    omega

/-- The full statement of C261: every row returned was computed. -/
def C261_statement : Prop :=
  ∀ (qsort : List Candidate → List Candidate), IsQsortDesc qsort → ∀ (vs : List (Pt ℝ)) (count : ℕ) (a size : ℝ),
    none ∉ buildArrows qsort vs count a size

/-- C261, the part that holds: on a line that does not cross or touch itself, every row is computed.
Missing: other lines (false, see `C261_false`). -/
theorem C261_partial (qsort : List Candidate → List Candidate) (hq : IsQsortDesc qsort) (vs : List (Pt ℝ))
    (hsimple : Spec.Simple vs) (count : ℕ) (a size : ℝ) :
    none ∉ buildArrows qsort vs count a size := by
  by_cases hg : vs.length < 2 ∨ count < 1 ∨ a ≤ 0 ∨ size ≤ 0
  · unfold buildArrows; rw [if_pos hg]; simp
  push Not at hg
  obtain ⟨h2, hc, ha, hs⟩ := hg
  have hnn : 0 ≤ Spec.length vs := by rw [← totalLength_eq]; exact totalLength_nonneg vs
  rcases hnn.eq_or_lt with h0 | hL
  · rw [((C260_rows qsort hq vs count hc a size ha hs).2).mpr h0.symm]; simp
  rw [build_eq qsort h2 hc ha hs]
  obtain ⟨-, hdd, -, -⟩ := C258_distances qsort hq vs (Spec.length vs) hL count hc a ha
  generalize selectDistances qsort vs (Spec.length vs) count a = ds at hdd
  have hall : ∀ d ∈ ds, ∃ A, arrowAt vs a size d = some A := by
    intro d hd
    obtain ⟨d0, dL⟩ := hdd d hd
    obtain ⟨s, e, h3, h4, h5⟩ := arrowAt_spec h2 hL ha hs d0 dL
    rcases h5 with ⟨rfl, -⟩ | ⟨-, A, h5, -⟩
    · exfalso
      have hlt : max 0 (d - a) < d := max_lt d0 (by linarith)
      have := (hsimple _ _ _ h3 h4 hlt).2
      linarith
    · exact ⟨A, h5⟩
  have hlen : (ds.filterMap (arrowAt vs a size)).length = ds.length := by
    clear hdd
    induction ds with
    | nil => rfl
    | cons d ds ih =>
      obtain ⟨A, hA⟩ := hall d (by simp)
      rw [List.filterMap_cons, hA]
      simp only [List.length_cons]
      rw [ih (fun d hd => hall d (List.mem_cons_of_mem _ hd))]
  rw [hlen, Nat.sub_self]
  simp

/-- C261 is false: a line that returns half way to where it began (a figure of eight drawn flat), with one arrow. -/
theorem C261_false : ¬ C261_statement := by
  intro h
  obtain ⟨q, hq⟩ := qsort_exists
  have h1 := h q hq [⟨0, 0⟩, ⟨1, 0⟩, ⟨0, 0⟩, ⟨-1, 0⟩, ⟨0, 0⟩] 1 2 1
  have hseg : ∀ t : ℝ, hypot2 t 0 = |t| := by intro t; simp [hypot2, Real.sqrt_sq_eq_abs]
  have hlen : totalLength [⟨0, 0⟩, ⟨1, 0⟩, ⟨0, 0⟩, ⟨-1, 0⟩, ⟨0, 0⟩] = 4 := by
    simp only [totalLength, sub_self, hseg]
    norm_num
  have hp : ∀ d : ℝ, (d = 0 ∨ d = 2) → pointAt [⟨0, 0⟩, ⟨1, 0⟩, ⟨0, 0⟩, ⟨-1, 0⟩, ⟨0, 0⟩] d = some ⟨0, 0⟩ := by
    rintro d (rfl | rfl)
    · unfold pointAt
      rw [if_neg (by simp)]
      dsimp only
      rw [hlen]
      norm_num [walk, hseg]
    · unfold pointAt
      rw [if_neg (by simp)]
      dsimp only
      rw [hlen]
      norm_num [walk, hseg]
  apply h1
  unfold buildArrows
  rw [if_neg (by norm_num), hlen]
  have hsel : selectDistances q [⟨0, 0⟩, ⟨1, 0⟩, ⟨0, 0⟩, ⟨-1, 0⟩, ⟨0, 0⟩] 4 1 2 = [2] := by
    unfold selectDistances
    rw [if_neg (by norm_num), if_pos le_rfl]
    norm_num
  dsimp only
  rw [hsel]
  have harr : arrowAt [⟨0, 0⟩, ⟨1, 0⟩, ⟨0, 0⟩, ⟨-1, 0⟩, ⟨0, 0⟩] 2 1 2 = none := by
    unfold arrowAt
    rw [hp _ (Or.inl (by norm_num)), hp 2 (Or.inr rfl)]
    dsimp only
    rw [if_pos (by norm_num [hseg])]
  simp [List.filterMap_cons, harr]

/-- A straight line meets the hypotheses of `C260_geometry` and `C261_partial`. -/
example : ∃ q, IsQsortDesc q ∧ 0 < Spec.length [⟨0, 0⟩, ⟨1, 0⟩] ∧ Spec.Simple [⟨0, 0⟩, ⟨1, 0⟩] ∧
    ∃ A, some A ∈ buildArrows q [⟨0, 0⟩, ⟨1, 0⟩] 1 (1 / 4) (1 / 2) := by
  obtain ⟨q, hq⟩ := qsort_exists
  have hd : Spec.dist ⟨0, 0⟩ ⟨1, 0⟩ = 1 := by norm_num [Spec.dist]
  have hlen : Spec.length [⟨0, 0⟩, ⟨1, 0⟩] = 1 := by
    simp [Spec.length, Spec.arcTo, Spec.vtx, hd]
  have hsimple : Spec.Simple [⟨0, 0⟩, ⟨1, 0⟩] := by
    rintro t t' p ⟨k, s, hk, -, -, hx, -, ht⟩ ⟨k', s', hk', -, -, hx', -, ht'⟩ hlt
    have e1 : k = 0 := by simpa using hk
    have e2 : k' = 0 := by simpa using hk'
    subst e1 e2
    exfalso
    have h3 : Spec.arcTo [⟨0, 0⟩, ⟨1, 0⟩] 0 = 0 := by simp [Spec.arcTo]
    have h4 : Spec.dist (Spec.vtx [⟨0, 0⟩, ⟨1, 0⟩] 0) (Spec.vtx [⟨0, 0⟩, ⟨1, 0⟩] (0 + 1)) = 1 := hd
    rw [h3, h4] at ht ht'
    simp [Spec.vtx] at hx hx'
    linarith
  refine ⟨q, hq, by rw [hlen]; norm_num, hsimple, ?_⟩
  have hn := C261_partial q hq _ hsimple 1 (1 / 4) (1 / 2)
  have hne := (C260_rows q hq [⟨0, 0⟩, ⟨1, 0⟩] 1 le_rfl (1 / 4) (1 / 2) (by norm_num) (by norm_num)).2
  rcases hb : buildArrows q [⟨0, 0⟩, ⟨1, 0⟩] 1 (1 / 4) (1 / 2) with _ | ⟨o, l⟩
  · have := hne.mp hb
    rw [hlen] at this; norm_num at this
  · cases o with
    | none => rw [hb] at hn; simp at hn
    | some A => exact ⟨A, by simp⟩

end Skyborn.Plot.Contour
