/-
Display-space thinning of plotting candidates, as `skyborn.plot.scatter` and
`skyborn.plot.curly_vector` use it.
Modelled: plot/nclcurly_core/_ncl_curly_core.c:80-85, 567-785, 2097-2212,
plot/_core/thinning.py:14-41, plot/_core/scatter_engine.py:23-34.
-/
import Mathlib.Algebra.Order.Floor.Ring
import Mathlib.Algebra.Order.Field.Basic
import Mathlib.Data.Rat.Floor
import Mathlib.Data.List.Sort
import Mathlib.Tactic.Linarith
import Mathlib.Tactic.FieldSimp
import Mathlib.Tactic.Ring
import Mathlib.Tactic.NormNum

namespace Skyborn.Plot

/-- One row of an (N, 2) coordinate array. -/
structure Pt (α : Type*) where
  x : α
  y : α
  deriving DecidableEq

/-! ## Specification -/

namespace Spec

variable {α : Type*} [Field α] [LinearOrder α]

/-- Squared distance of two display points, each component measured as a fraction of the
panel (width `w`, height `h`; a panel narrower than one pixel counts as one pixel wide). -/
def dist2 (w h : α) (p q : Pt α) : α :=
  ((p.x - q.x) / max w 1) ^ 2 + ((p.y - q.y) / max h 1) ^ 2

/-- `sel` is what "walk through the candidates in order and keep each one that is not closer
than `s` to an already kept one" keeps. -/
structure Thinned (near : ℕ → ℕ → Prop) (n : ℕ) (sel : List ℕ) : Prop where
  /-- the kept candidates are candidates, listed once each in their original order -/
  ordered : sel.Pairwise (· < ·)
  inRange : ∀ i ∈ sel, i < n
  /-- no two kept candidates are too close -/
  apart : ∀ i ∈ sel, ∀ j ∈ sel, i < j → ¬ near i j
  /-- a candidate is dropped only because an earlier kept one is too close -/
  maximal : ∀ j < n, j ∉ sel → ∃ i ∈ sel, i < j ∧ near i j

end Spec

/-! ## Model -/

/-- plot/nclcurly_core/_ncl_curly_core.c:80-85 `BucketEntry` (`long` as unbounded integer). -/
structure Entry where
  bx : ℤ
  by' : ℤ
  idx : ℕ
  deriving DecidableEq, Inhabited

/-- plot/nclcurly_core/_ncl_curly_core.c:567-597 `compare_bucket_entries`. -/
def cmpEntry (a b : Entry) : ℤ :=
  if a.bx < b.bx then -1
  else if a.bx > b.bx then 1
  else if a.by' < b.by' then -1
  else if a.by' > b.by' then 1
  else if a.idx < b.idx then -1
  else if a.idx > b.idx then 1
  else 0

/-- Contract of the C library's `qsort` for `compare_bucket_entries`: the result is a
rearrangement of the input in which no entry compares greater than a later one.  (C guarantees
this for comparison functions that define a total order, which `cmpEntry` does.) -/
structure IsQsort (qsort : List Entry → List Entry) : Prop where
  perm : ∀ l, (qsort l).Perm l
  sorted : ∀ l, (qsort l).Pairwise (fun a b => cmpEntry a b ≤ 0)

/-- plot/nclcurly_core/_ncl_curly_core.c:599-623 `lower_bound_bucket`: the binary search over
`entries[left..right)`. -/
def lowerBound (es : List Entry) (bx by' : ℤ) (left right : ℕ) : ℕ :=
  if left < right then
    let middle := left + (right - left) / 2
    let entry := es.getD middle default
    if entry.bx < bx ∨ (entry.bx = bx ∧ entry.by' < by') then
      lowerBound es bx by' (middle + 1) right
    else
      lowerBound es bx by' left middle
  else left
termination_by right - left
decreasing_by all_goals omega

section
variable {α : Type*} [Field α] [LinearOrder α] [IsStrictOrderedRing α] [FloorRing α]

/-- plot/nclcurly_core/_ncl_curly_core.c:731-756: the walk over the entries of one bucket,
starting at the position found by the binary search.  `culled` is the flag array. -/
def scan (pts : ℕ → Pt α) (invW invH spacingSq : α) (idx : ℕ) (sx sy : ℤ) :
    List Entry → (ℕ → Bool) → (ℕ → Bool)
  | [], culled => culled
  | e :: rest, culled =>
    if e.bx ≠ sx ∨ e.by' ≠ sy then culled
    else if e.idx ≤ idx ∨ culled e.idx = true then scan pts invW invH spacingSq idx sx sy rest culled
    else
      let dx := ((pts idx).x - (pts e.idx).x) * invW
      let dy := ((pts idx).y - (pts e.idx).y) * invH
      if dx * dx + dy * dy < spacingSq then
        scan pts invW invH spacingSq idx sx sy rest (fun k => if k = e.idx then true else culled k)
      else scan pts invW invH spacingSq idx sx sy rest culled

/-- plot/nclcurly_core/_ncl_curly_core.c:692-694, 709-710: the bucket of a point. -/
def bucket (o scale v : α) : ℤ := ⌊(v - o) * scale⌋

/-- plot/nclcurly_core/_ncl_curly_core.c:725-758: the 3 by 3 neighbourhood of one kept point. -/
def cullAround (pts : ℕ → Pt α) (invW invH spacingSq : α) (es : List Entry) (n idx : ℕ)
    (bx by' : ℤ) (culled : ℕ → Bool) : ℕ → Bool :=
  [bx - 1, bx, bx + 1].foldl (fun c sx =>
    [by' - 1, by', by' + 1].foldl (fun c sy =>
      scan pts invW invH spacingSq idx sx sy (es.drop (lowerBound es sx sy 0 n)) c) c) culled

/-- plot/nclcurly_core/_ncl_curly_core.c:704-759: the outer loop over the candidates; the state
is the flag array and the list of selected indices. -/
def thinLoop (pts : ℕ → Pt α) (ox oy invW invH scaleX scaleY spacingSq : α) (es : List Entry)
    (n : ℕ) : List ℕ → (ℕ → Bool) × List ℕ → (ℕ → Bool) × List ℕ
  | [], st => st
  | idx :: rest, (culled, sel) =>
    if culled idx = true then
      thinLoop pts ox oy invW invH scaleX scaleY spacingSq es n rest (culled, sel)
    else
      thinLoop pts ox oy invW invH scaleX scaleY spacingSq es n rest
        (cullAround pts invW invH spacingSq es n idx
          (bucket ox scaleX (pts idx).x) (bucket oy scaleY (pts idx).y) culled, sel ++ [idx])

/-- plot/nclcurly_core/_ncl_curly_core.c:634-785 `thin_scaled_points`: the indices of the kept
rows.  Memory allocation is taken to succeed. -/
def thinScaled (qsort : List Entry → List Entry) (pts : ℕ → Pt α) (n : ℕ)
    (ox oy invW invH spacingFrac : α) : List ℕ :=
  if n = 0 then []
  else
    let s := max spacingFrac (1 / 1000000)
    let spacingSq := s * s
    let bucketScale := 1 / s
    let scaleX := invW * bucketScale
    let scaleY := invH * bucketScale
    let entries := (List.range n).map (fun i =>
      { bx := bucket ox scaleX (pts i).x, by' := bucket oy scaleY (pts i).y, idx := i : Entry })
    let es := qsort entries
    (thinLoop pts ox oy invW invH scaleX scaleY spacingSq es n (List.range n)
      (fun _ => false, [])).2

/-- plot/nclcurly_core/_ncl_curly_core.c:2151-2212 `thin_display_candidates`. -/
def thinDisplay (qsort : List Entry → List Entry) (pts : ℕ → Pt α) (n : ℕ)
    (vx0 vy0 vw vh spacingFrac : α) : List ℕ :=
  let w := if vw > 1 then vw else 1
  let h := if vh > 1 then vh else 1
  thinScaled qsort pts n vx0 vy0 (1 / w) (1 / h) spacingFrac

/-- plot/nclcurly_core/_ncl_curly_core.c:2097-2144 `thin_mapped_candidates`. -/
def thinMapped (qsort : List Entry → List Entry) (pts : ℕ → Pt α) (n : ℕ)
    (spacingFrac : α) : List ℕ :=
  thinScaled qsort pts n 0 0 1 1 spacingFrac

/-- plot/_core/thinning.py:14-20 `_map_ncl_display_points_to_viewport`, one point. -/
def mapToViewport (vx0 vy0 vw vh : α) (p : Pt α) : Pt α :=
  { x := (p.x - vx0) / max vw 1, y := (p.y - vy0) / max vh 1 }

end

/-! ## The order on entries -/

/-- Lexicographic "bucket of `a` before the bucket (bx, by)". -/
private def Before (a : Entry) (bx by' : ℤ) : Prop := a.bx < bx ∨ (a.bx = bx ∧ a.by' < by')

private theorem cmp_le {a b : Entry} (h : cmpEntry a b ≤ 0) :
    a.bx < b.bx ∨ (a.bx = b.bx ∧ a.by' ≤ b.by') := by
  unfold cmpEntry at h
  split_ifs at h <;> omega

private theorem before_mono {a b : Entry} (h : cmpEntry a b ≤ 0) {bx by' : ℤ}
    (hb : Before b bx by') : Before a bx by' := by
  have := cmp_le h
  unfold Before at *
  omega

/-- What the binary search returns. -/
theorem lowerBound_spec (es : List Entry)
    (hs : es.Pairwise (fun a b => cmpEntry a b ≤ 0)) (bx by' : ℤ) :
    ∀ (left right : ℕ), left ≤ right → right ≤ es.length →
      (∀ i, (hi : i < es.length) → i < left → Before es[i] bx by') →
      (∀ i, (hi : i < es.length) → right ≤ i → ¬ Before es[i] bx by') →
      lowerBound es bx by' left right ≤ es.length ∧
      (∀ i, (hi : i < es.length) → i < lowerBound es bx by' left right → Before es[i] bx by') ∧
      (∀ i, (hi : i < es.length) → lowerBound es bx by' left right ≤ i → ¬ Before es[i] bx by') := by
  intro left right
  induction left, right using lowerBound.induct es bx by' with
  | case1 left right hlt middle entry hb ih =>
    intro hle hr h1 h2
    have hm : middle < es.length := by simp only [middle]; omega
    have he : entry = es[middle] := by
      simp only [entry, List.getD_eq_getElem?_getD, List.getElem?_eq_getElem hm, Option.getD_some]
    rw [lowerBound]
    simp only [hlt, if_true]
    rw [if_pos hb]
    apply ih (by simp only [middle]; omega) hr _ h2
    intro i hi hil
    rcases Nat.lt_or_ge i middle with h | h
    · have hc := List.pairwise_iff_getElem.mp hs i middle hi hm h
      refine before_mono hc ?_
      rw [← he]; exact hb
    · have : i = middle := by omega
      subst this
      rw [← he]; exact hb
  | case2 left right hlt middle entry hb ih =>
    intro hle hr h1 h2
    have hm : middle < es.length := by simp only [middle]; omega
    have he : entry = es[middle] := by
      simp only [entry, List.getD_eq_getElem?_getD, List.getElem?_eq_getElem hm, Option.getD_some]
    rw [lowerBound]
    simp only [hlt, if_true]
    rw [if_neg hb]
    apply ih (by simp only [middle]; omega) (by omega) h1
    intro i hi hil
    rcases Nat.lt_or_ge middle i with h | h
    · have hc := List.pairwise_iff_getElem.mp hs middle i hm hi h
      intro hbi
      exact hb (by rw [he]; exact before_mono hc hbi)
    · have : i = middle := by omega
      subst this
      rw [← he]; exact hb
  | case3 left right hlt =>
    intro hle hr h1 h2
    rw [lowerBound, if_neg hlt]
    have : left = right := by omega
    subst this
    exact ⟨hr, h1, h2⟩

section
variable {α : Type*} [Field α] [LinearOrder α] [IsStrictOrderedRing α] [FloorRing α]

/-- The test the C code applies to a pair of rows. -/
def Near (pts : ℕ → Pt α) (invW invH spacingSq : α) (i j : ℕ) : Prop :=
  ((pts i).x - (pts j).x) * invW * (((pts i).x - (pts j).x) * invW) +
    ((pts i).y - (pts j).y) * invH * (((pts i).y - (pts j).y) * invH) < spacingSq

private theorem scan_spec (pts : ℕ → Pt α) (invW invH spacingSq : α) (idx : ℕ) (sx sy : ℤ) :
    ∀ (l : List Entry) (c : ℕ → Bool),
      l.Pairwise (fun a b => cmpEntry a b ≤ 0) → (∀ e ∈ l, ¬ Before e sx sy) →
      ∀ k, scan pts invW invH spacingSq idx sx sy l c k = true ↔
        c k = true ∨ ∃ e ∈ l, e.idx = k ∧ e.bx = sx ∧ e.by' = sy ∧ idx < k ∧
          Near pts invW invH spacingSq idx k := by
  intro l
  induction l with
  | nil => intro c _ _ k; simp [scan]
  | cons e rest ih =>
    intro c hs hb k
    obtain ⟨hs1, hs2⟩ := List.pairwise_cons.mp hs
    have hb2 : ∀ e ∈ rest, ¬ Before e sx sy := fun e he => hb e (List.mem_cons_of_mem _ he)
    unfold scan
    by_cases h1 : e.bx ≠ sx ∨ e.by' ≠ sy
    · rw [if_pos h1]
      constructor
      · exact Or.inl
      · rintro (h | ⟨f, hf, -, hf1, hf2, -, -⟩)
        · exact h
        · exfalso
          rcases List.mem_cons.mp hf with rfl | hf
          · rcases h1 with h1 | h1
            · exact h1 hf1
            · exact h1 hf2
          · have hc := cmp_le (hs1 f hf)
            have he := hb e List.mem_cons_self
            unfold Before at he
            omega
    · rw [if_neg h1]
      push Not at h1
      by_cases h2 : e.idx ≤ idx ∨ c e.idx = true
      · rw [if_pos h2, ih c hs2 hb2 k]
        constructor
        · rintro (h | ⟨f, hf, h⟩)
          · exact Or.inl h
          · exact Or.inr ⟨f, List.mem_cons_of_mem _ hf, h⟩
        · rintro (h | ⟨f, hf, hk, h⟩)
          · exact Or.inl h
          · rcases List.mem_cons.mp hf with rfl | hf
            · rcases h2 with h2 | h2
              · omega
              · left; rw [← hk]; exact h2
            · exact Or.inr ⟨f, hf, hk, h⟩
      · rw [if_neg h2]
        push Not at h2
        split_ifs with h3
        · rw [ih _ hs2 hb2 k]
          constructor
          · rintro (h | ⟨f, hf, h⟩)
            · split_ifs at h with hk
              · subst hk
                exact Or.inr ⟨e, List.mem_cons_self, rfl, h1.1, h1.2, h2.1, h3⟩
              · exact Or.inl h
            · exact Or.inr ⟨f, List.mem_cons_of_mem _ hf, h⟩
          · rintro (h | ⟨f, hf, hk, h⟩)
            · left; simp [h]
            · rcases List.mem_cons.mp hf with rfl | hf
              · left; simp [hk]
              · exact Or.inr ⟨f, hf, hk, h⟩
        · rw [ih c hs2 hb2 k]
          constructor
          · rintro (h | ⟨f, hf, h⟩)
            · exact Or.inl h
            · exact Or.inr ⟨f, List.mem_cons_of_mem _ hf, h⟩
          · rintro (h | ⟨f, hf, hk, h⟩)
            · exact Or.inl h
            · rcases List.mem_cons.mp hf with rfl | hf
              · exfalso; subst hk; exact h3 h.2.2.2
              · exact Or.inr ⟨f, hf, hk, h⟩

private theorem scanBucket_spec (pts : ℕ → Pt α) (invW invH spacingSq : α) (es : List Entry)
    (hs : es.Pairwise (fun a b => cmpEntry a b ≤ 0)) (idx : ℕ) (sx sy : ℤ) (c : ℕ → Bool) (k : ℕ) :
    scan pts invW invH spacingSq idx sx sy (es.drop (lowerBound es sx sy 0 es.length)) c k = true ↔
      c k = true ∨ ∃ e ∈ es, e.idx = k ∧ e.bx = sx ∧ e.by' = sy ∧ idx < k ∧
          Near pts invW invH spacingSq idx k := by
  obtain ⟨hl, h1, h2⟩ := lowerBound_spec es hs sx sy 0 es.length (Nat.zero_le _) le_rfl
    (fun i _ h => absurd h (Nat.not_lt_zero _)) (fun i hi h => absurd hi (by omega))
  rw [scan_spec pts invW invH spacingSq idx sx sy _ c (hs.sublist (List.drop_sublist _ _))]
  · constructor
    · rintro (h | ⟨e, he, h⟩)
      · exact Or.inl h
      · exact Or.inr ⟨e, List.mem_of_mem_drop he, h⟩
    · rintro (h | ⟨e, he, hk, hx, hy, h⟩)
      · exact Or.inl h
      · right
        refine ⟨e, ?_, hk, hx, hy, h⟩
        obtain ⟨i, hi, rfl⟩ := List.getElem_of_mem he
        rcases Nat.lt_or_ge i (lowerBound es sx sy 0 es.length) with hlt | hge
        · exfalso
          have := h1 i hi hlt
          unfold Before at this
          omega
        · rw [List.mem_drop_iff_getElem]
          refine ⟨i - lowerBound es sx sy 0 es.length, by omega, ?_⟩
          congr 1
          omega
  · intro e he
    rw [List.mem_drop_iff_getElem] at he
    obtain ⟨i, hi, rfl⟩ := he
    exact h2 _ (by omega) (by omega)

private theorem cullAround_spec (pts : ℕ → Pt α) (invW invH spacingSq : α) (es : List Entry)
    (hs : es.Pairwise (fun a b => cmpEntry a b ≤ 0)) (idx : ℕ) (bx by' : ℤ) (c : ℕ → Bool) (k : ℕ) :
    cullAround pts invW invH spacingSq es es.length idx bx by' c k = true ↔
      c k = true ∨ ∃ e ∈ es, e.idx = k ∧ (bx - 1 ≤ e.bx ∧ e.bx ≤ bx + 1) ∧
          (by' - 1 ≤ e.by' ∧ e.by' ≤ by' + 1) ∧ idx < k ∧ Near pts invW invH spacingSq idx k := by
  unfold cullAround
  simp only [List.foldl_cons, List.foldl_nil]
  simp only [scanBucket_spec pts invW invH spacingSq es hs]
  constructor
  · intro h
    rcases h with ((((((((h | h) | h) | h) | h) | h) | h) | h) | h) | h
    · exact Or.inl h
    all_goals
      obtain ⟨e, he, h0, h1, h2, h3⟩ := h
      exact Or.inr ⟨e, he, h0, by omega, by omega, h3⟩
  · rintro (h | ⟨e, he, h0, h1, h2, h3⟩)
    · tauto
    · have hx : e.bx = bx - 1 ∨ e.bx = bx ∨ e.bx = bx + 1 := by omega
      have hy : e.by' = by' - 1 ∨ e.by' = by' ∨ e.by' = by' + 1 := by omega
      rcases hx with hx | hx | hx <;> rcases hy with hy | hy | hy
      · exact Or.inl (Or.inl (Or.inl (Or.inl (Or.inl (Or.inl (Or.inl (Or.inl (Or.inr ⟨e, he, h0, hx, hy, h3⟩))))))))
      · exact Or.inl (Or.inl (Or.inl (Or.inl (Or.inl (Or.inl (Or.inl (Or.inr ⟨e, he, h0, hx, hy, h3⟩)))))))
      · exact Or.inl (Or.inl (Or.inl (Or.inl (Or.inl (Or.inl (Or.inr ⟨e, he, h0, hx, hy, h3⟩))))))
      · exact Or.inl (Or.inl (Or.inl (Or.inl (Or.inl (Or.inr ⟨e, he, h0, hx, hy, h3⟩)))))
      · exact Or.inl (Or.inl (Or.inl (Or.inl (Or.inr ⟨e, he, h0, hx, hy, h3⟩))))
      · exact Or.inl (Or.inl (Or.inl (Or.inr ⟨e, he, h0, hx, hy, h3⟩)))
      · exact Or.inl (Or.inl (Or.inr ⟨e, he, h0, hx, hy, h3⟩))
      · exact Or.inl (Or.inr ⟨e, he, h0, hx, hy, h3⟩)
      · exact Or.inr ⟨e, he, h0, hx, hy, h3⟩

/-- Two values less than one bucket width apart lie in the same or in adjacent buckets. -/
private theorem bucket_near (o inv s a b : α) (hs : 0 < s)
    (h : (a - b) * inv < s) (h' : -s < (a - b) * inv) :
    bucket o (inv * (1 / s)) a - 1 ≤ bucket o (inv * (1 / s)) b ∧
      bucket o (inv * (1 / s)) b ≤ bucket o (inv * (1 / s)) a + 1 := by
  unfold bucket
  have e : (a - o) * (inv * (1 / s)) - (b - o) * (inv * (1 / s)) = (a - b) * inv / s := by
    field_simp; ring
  have h1 : (a - b) * inv / s < 1 := by rw [div_lt_one hs]; exact h
  have h2 : -1 < (a - b) * inv / s := by rw [lt_div_iff₀ hs]; linarith
  constructor
  · have := Int.floor_le_floor (show (a - o) * (inv * (1 / s)) - 1 ≤ (b - o) * (inv * (1 / s)) by linarith)
    rwa [Int.floor_sub_one] at this
  · have := Int.floor_le_floor (show (b - o) * (inv * (1 / s)) ≤ (a - o) * (inv * (1 / s)) + 1 by linarith)
    rwa [Int.floor_add_one] at this

private theorem lt_of_sq_sum {u v s : α} (hs : 0 < s) (h : u * u + v * v < s * s) :
    u < s ∧ -s < u := by
  have : u * u < s * s := by nlinarith [mul_self_nonneg v]
  constructor <;> nlinarith

/-- Invariant of the outer loop. -/
private theorem thinLoop_spec (pts : ℕ → Pt α) (ox oy invW invH s : α) (hs0 : 0 < s)
    (es : List Entry) (n : ℕ) (hlen : es.length = n)
    (hs : es.Pairwise (fun a b => cmpEntry a b ≤ 0))
    (hes : ∀ e, e ∈ es ↔ e.idx < n ∧ e.bx = bucket ox (invW * (1 / s)) (pts e.idx).x ∧
      e.by' = bucket oy (invH * (1 / s)) (pts e.idx).y) :
    ∀ (m a : ℕ) (c : ℕ → Bool) (sel : List ℕ), a + m = n →
      sel.Pairwise (· < ·) → (∀ i ∈ sel, i < a) →
      (∀ i ∈ sel, ∀ j ∈ sel, i < j → ¬ Near pts invW invH (s * s) i j) →
      (∀ j < a, j ∉ sel → ∃ i ∈ sel, i < j ∧ Near pts invW invH (s * s) i j) →
      (∀ j, a ≤ j → j < n → (c j = true ↔ ∃ i ∈ sel, i < j ∧ Near pts invW invH (s * s) i j)) →
      Spec.Thinned (Near pts invW invH (s * s)) n
        (thinLoop pts ox oy invW invH (invW * (1 / s)) (invH * (1 / s)) (s * s) es n
          (List.range' a m) (c, sel)).2 := by
  intro m
  induction m with
  | zero =>
    intro a c sel ha h1 h2 h3 h4 h5
    have : a = n := by omega
    subst this
    simp only [List.range'_zero, thinLoop]
    exact ⟨h1, h2, h3, h4⟩
  | succ m ih =>
    intro a c sel ha h1 h2 h3 h4 h5
    rw [List.range'_succ]
    unfold thinLoop
    by_cases hc : c a = true
    · rw [if_pos hc]
      apply ih (a + 1) c sel (by omega) h1 (fun i hi => by have := h2 i hi; omega) h3
      · intro j hj hjs
        rcases Nat.lt_or_ge j a with hja | hja
        · exact h4 j hja hjs
        · have : j = a := by omega
          subst this
          exact (h5 j le_rfl (by omega)).mp hc
      · intro j hj hjn
        exact h5 j (by omega) hjn
    · rw [if_neg hc]
      have hfar : ∀ i ∈ sel, ¬ Near pts invW invH (s * s) i a := by
        intro i hi hn
        exact hc ((h5 a le_rfl (by omega)).mpr ⟨i, hi, h2 i hi, hn⟩)
      apply ih (a + 1) _ (sel ++ [a]) (by omega)
      · rw [List.pairwise_append]
        refine ⟨h1, List.pairwise_singleton _ _, ?_⟩
        intro i hi j hj
        rw [List.mem_singleton.mp hj]
        exact h2 i hi
      · intro i hi
        rcases List.mem_append.mp hi with hi | hi
        · have := h2 i hi; omega
        · rw [List.mem_singleton.mp hi]; omega
      · intro i hi j hj hij
        rcases List.mem_append.mp hi with hi | hi <;> rcases List.mem_append.mp hj with hj | hj
        · exact h3 i hi j hj hij
        · rw [List.mem_singleton.mp hj]; exact hfar i hi
        · rw [List.mem_singleton.mp hi] at hij
          have := h2 j hj; omega
        · rw [List.mem_singleton.mp hi, List.mem_singleton.mp hj] at hij; omega
      · intro j hj hjs
        have hjs1 : j ∉ sel := fun h => hjs (List.mem_append_left _ h)
        have hja : j ≠ a := fun h => hjs (by rw [h]; exact List.mem_append_right _ (by simp))
        obtain ⟨i, hi, h⟩ := h4 j (by omega) hjs1
        exact ⟨i, List.mem_append_left _ hi, h⟩
      · intro j hj hjn
        have hcs := cullAround_spec pts invW invH (s * s) es hs a
          (bucket ox (invW * (1 / s)) (pts a).x) (bucket oy (invH * (1 / s)) (pts a).y) c j
        rw [hlen] at hcs
        rw [hcs, h5 j (by omega) hjn]
        constructor
        · rintro (⟨i, hi, h⟩ | ⟨e, -, -, -, -, haj, hn⟩)
          · exact ⟨i, List.mem_append_left _ hi, h⟩
          · exact ⟨a, List.mem_append_right _ (by simp), haj, hn⟩
        · rintro ⟨i, hi, hij, hn⟩
          rcases List.mem_append.mp hi with hi | hi
          · exact Or.inl ⟨i, hi, hij, hn⟩
          · rw [List.mem_singleton.mp hi] at hij hn
            right
            have hx := lt_of_sq_sum hs0 hn
            have hy := lt_of_sq_sum hs0 (u := ((pts a).y - (pts j).y) * invH)
              (v := ((pts a).x - (pts j).x) * invW) (by rw [add_comm]; exact hn)
            exact ⟨⟨bucket ox (invW * (1 / s)) (pts j).x, bucket oy (invH * (1 / s)) (pts j).y, j⟩,
              (hes _).mpr ⟨hjn, rfl, rfl⟩, rfl,
              bucket_near ox invW s _ _ hs0 hx.1 hx.2,
              bucket_near oy invH s _ _ hs0 hy.1 hy.2, hij, hn⟩

/-- The C routine keeps exactly what the sequential rule keeps. -/
theorem thinScaled_spec (qsort : List Entry → List Entry) (hq : IsQsort qsort)
    (pts : ℕ → Pt α) (n : ℕ) (ox oy invW invH frac : α) :
    Spec.Thinned (Near pts invW invH (max frac (1 / 1000000) * max frac (1 / 1000000))) n
      (thinScaled qsort pts n ox oy invW invH frac) := by
  unfold thinScaled
  by_cases hn : n = 0
  · rw [if_pos hn]
    subst hn
    exact ⟨List.Pairwise.nil, by simp, by simp, by simp⟩
  rw [if_neg hn]
  dsimp only
  have hs0 : (0 : α) < max frac (1 / 1000000) := lt_max_of_lt_right (by norm_num)
  rw [List.range_eq_range']
  apply thinLoop_spec pts ox oy invW invH _ hs0 _ n
  · rw [(hq.perm _).length_eq]; simp
  · exact hq.sorted _
  · intro e
    rw [(hq.perm _).mem_iff, List.mem_map]
    constructor
    · rintro ⟨i, hi, rfl⟩
      have : i < n := by simpa [List.mem_range'] using hi
      exact ⟨this, rfl, rfl⟩
    · rintro ⟨h1, h2, h3⟩
      refine ⟨e.idx, by simpa [List.mem_range'] using h1, ?_⟩
      rw [← h2, ← h3]
  · omega
  · exact List.Pairwise.nil
  · simp
  · simp
  · intro j hj; omega
  · intro j _ _; simp

/-- What "too close" means for `thin_display_candidates`, in panel fractions. -/
def Spec.TooClose (pts : ℕ → Pt α) (w h frac : α) (i j : ℕ) : Prop :=
  Spec.dist2 w h (pts i) (pts j) < (max frac (1 / 1000000)) ^ 2

private theorem near_iff (pts : ℕ → Pt α) (w h frac : α) (i j : ℕ) :
    Near pts (1 / max w 1) (1 / max h 1) (max frac (1 / 1000000) * max frac (1 / 1000000)) i j ↔
      Spec.TooClose pts w h frac i j := by
  unfold Near Spec.TooClose Spec.dist2
  have e1 : ∀ u v : α, u * (1 / v) * (u * (1 / v)) = (u / v) ^ 2 := by intro u v; ring
  rw [e1, e1, pow_two (max frac _)]

private theorem gt_ite_eq_max (v : α) : (if v > 1 then v else 1) = max v 1 := by
  split_ifs with h
  · rw [max_eq_left h.le]
  · rw [max_eq_right (not_lt.mp h)]

theorem thinDisplay_spec (qsort : List Entry → List Entry) (hq : IsQsort qsort)
    (pts : ℕ → Pt α) (n : ℕ) (vx0 vy0 vw vh frac : α) :
    Spec.Thinned (Spec.TooClose pts vw vh frac) n
      (thinDisplay qsort pts n vx0 vy0 vw vh frac) := by
  unfold thinDisplay
  dsimp only
  rw [gt_ite_eq_max, gt_ite_eq_max]
  obtain ⟨h1, h2, h3, h4⟩ := thinScaled_spec qsort hq pts n vx0 vy0 (1 / max vw 1) (1 / max vh 1) frac
  refine ⟨h1, h2, ?_, ?_⟩
  · intro i hi j hj hij
    rw [← near_iff]; exact h3 i hi j hj hij
  · intro j hj hjs
    obtain ⟨i, hi, hij, hn⟩ := h4 j hj hjs
    exact ⟨i, hi, hij, (near_iff pts vw vh frac i j).mp hn⟩

/-- The sequential rule determines the kept set. -/
theorem Spec.Thinned.unique {near near' : ℕ → ℕ → Prop} {n : ℕ} {a b : List ℕ}
    (hnear : ∀ i j, near i j ↔ near' i j)
    (ha : Spec.Thinned near n a) (hb : Spec.Thinned near' n b) : a = b := by
  have key : ∀ j, j < n → (j ∈ a ↔ j ∈ b) := by
    intro j
    induction j using Nat.strong_induction_on with
    | _ j ih =>
      intro hj
      constructor
      · intro hja
        by_contra hjb
        obtain ⟨i, hi, hij, hn⟩ := hb.maximal j hj hjb
        exact ha.apart i ((ih i hij (by omega)).mpr hi) j hja hij ((hnear i j).mpr hn)
      · intro hjb
        by_contra hja
        obtain ⟨i, hi, hij, hn⟩ := ha.maximal j hj hja
        exact hb.apart i ((ih i hij (by omega)).mp hi) j hjb hij ((hnear i j).mp hn)
  have hmem : ∀ j, j ∈ a ↔ j ∈ b := by
    intro j
    constructor
    · intro h; exact (key j (ha.inRange j h)).mp h
    · intro h; exact (key j (hb.inRange j h)).mpr h
  have hp : a.Perm b :=
    (List.perm_ext_iff_of_nodup (ha.ordered.imp (fun h => Nat.ne_of_lt h))
      (hb.ordered.imp (fun h => Nat.ne_of_lt h))).mpr hmem
  exact hp.eq_of_pairwise (le := (· < ·)) (by intro x y _ _ h1 h2; omega) ha.ordered hb.ordered

/-- C246: whatever the candidates, the panel and the requested spacing, no two kept points are
closer than the requested fraction of the panel, the kept points are among the candidates, in
their order and without repetition. -/
theorem C246_spacing (qsort : List Entry → List Entry) (hq : IsQsort qsort)
    (pts : ℕ → Pt α) (n : ℕ) (vx0 vy0 vw vh frac : α) :
    (thinDisplay qsort pts n vx0 vy0 vw vh frac).Pairwise
      (fun i j => i < j ∧ (max frac (1 / 1000000)) ^ 2 ≤ Spec.dist2 vw vh (pts i) (pts j)) ∧
    ∀ i ∈ thinDisplay qsort pts n vx0 vy0 vw vh frac, i < n := by
  obtain ⟨h1, h2, h3, -⟩ := thinDisplay_spec qsort hq pts n vx0 vy0 vw vh frac
  refine ⟨h1.imp_of_mem ?_, h2⟩
  intro i j hi hj hij
  exact ⟨hij, not_lt.mp (h3 i hi j hj hij)⟩

/-- C247: a candidate is dropped only if a kept candidate that comes before it is closer than the
spacing; in particular the first candidate is always kept and the drawing cannot lose a whole
region. -/
theorem C247_maximal (qsort : List Entry → List Entry) (hq : IsQsort qsort)
    (pts : ℕ → Pt α) (n : ℕ) (vx0 vy0 vw vh frac : α) :
    (∀ j < n, j ∉ thinDisplay qsort pts n vx0 vy0 vw vh frac →
      ∃ i ∈ thinDisplay qsort pts n vx0 vy0 vw vh frac, i < j ∧
        Spec.dist2 vw vh (pts i) (pts j) < (max frac (1 / 1000000)) ^ 2) ∧
    (0 < n → 0 ∈ thinDisplay qsort pts n vx0 vy0 vw vh frac) := by
  obtain ⟨-, -, -, h4⟩ := thinDisplay_spec qsort hq pts n vx0 vy0 vw vh frac
  refine ⟨h4, ?_⟩
  intro hn
  by_contra h0
  obtain ⟨i, -, hi, -⟩ := h4 0 hn h0
  omega

/-- C248: thinning display points gives the same rows as mapping them to panel fractions first and
thinning those, and neither the position of the panel nor the order in which equal buckets
are stored by the sort matters. -/
theorem C248_same_as_mapped (qsort qsort' : List Entry → List Entry) (hq : IsQsort qsort)
    (hq' : IsQsort qsort') (pts : ℕ → Pt α) (n : ℕ) (vx0 vy0 vw vh frac vx0' vy0' : α) :
    thinDisplay qsort pts n vx0 vy0 vw vh frac =
      thinMapped qsort' (fun i => mapToViewport vx0' vy0' vw vh (pts i)) n frac := by
  refine Spec.Thinned.unique ?_ (thinDisplay_spec qsort hq pts n vx0 vy0 vw vh frac)
    (thinScaled_spec qsort' hq' (fun i => mapToViewport vx0' vy0' vw vh (pts i)) n 0 0 1 1 frac)
  intro i j
  unfold Near Spec.TooClose Spec.dist2 mapToViewport
  have e1 : ∀ u v o w : α, ((u - o) / w - (v - o) / w) * 1 * (((u - o) / w - (v - o) / w) * 1) =
      ((u - v) / w) ^ 2 := by intro u v o w; ring
  dsimp only
  rw [e1, e1, pow_two (max frac _)]

end

/-! ## The hypotheses are met -/

private theorem cmp_le_iff (a b : Entry) : cmpEntry a b ≤ 0 ↔
    a.bx < b.bx ∨ (a.bx = b.bx ∧ (a.by' < b.by' ∨ (a.by' = b.by' ∧ a.idx ≤ b.idx))) := by
  unfold cmpEntry
  split_ifs <;> omega

/-- A sort that meets the contract. -/
def qsortM (l : List Entry) : List Entry := l.mergeSort (fun a b => decide (cmpEntry a b ≤ 0))

theorem qsortM_isQsort : IsQsort qsortM where
  perm := fun l => List.mergeSort_perm l _
  sorted := by
    intro l
    have h := List.pairwise_mergeSort (le := fun a b => decide (cmpEntry a b ≤ 0)) ?_ ?_ l
    · exact h.imp (fun h => by simpa using h)
    · intro a b c h1 h2
      rw [decide_eq_true_eq, cmp_le_iff] at *
      omega
    · intro a b
      rw [Bool.or_eq_true, decide_eq_true_eq, decide_eq_true_eq, cmp_le_iff, cmp_le_iff]
      omega

/-- Five candidates on a 100 by 50 panel, spacing a tenth of the panel. -/
def exPts : ℕ → Pt ℚ
  | 0 => ⟨10, 10⟩
  | 1 => ⟨15, 10⟩
  | 2 => ⟨20, 10⟩
  | 3 => ⟨20, 14⟩
  | _ => ⟨20, 15⟩

instance (i j : ℕ) : Decidable (Spec.TooClose exPts 100 50 (1 / 10) i j) := by
  unfold Spec.TooClose; infer_instance

/-- Rows 1 and 3 are dropped, row 2 is exactly at the spacing from row 0 and stays. -/
theorem exPts_thinned : thinDisplay qsortM exPts 5 0 0 100 50 (1 / 10) = [0, 2, 4] :=
  Spec.Thinned.unique (fun _ _ => Iff.rfl)
    (thinDisplay_spec qsortM qsortM_isQsort exPts 5 0 0 100 50 (1 / 10))
    ⟨by decide, by decide, by decide +kernel, by decide +kernel⟩

end Skyborn.Plot
