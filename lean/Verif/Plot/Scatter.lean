/-
`skyborn.plot.scatter`: which points are drawn, and with which sizes and colours.
Modelled: plot/_core/scatter_engine.py:23-34, 99-231, 311-533,
plot/_shared/coords.py:70-141, plot/_core/thinning.py:23-41.
-/
import Verif.Plot.Lattice

namespace Skyborn.Plot

variable {α β : Type*} [Field α] [LinearOrder α]

/-! ## Model -/

/-- plot/_core/thinning.py:23-41 `_resolve_ncl_min_distance_fraction` for a scalar density without
preset and without `min_distance`. -/
def densitySpacing (density : α) : α := 9 / 10 / (30 * max density (1 / 10))

/-- plot/_core/scatter_engine.py:23-34 `_resolve_spacing_fraction`, scalar density. -/
def spacingFraction (density distance : Option α) (gridLike : Bool) : Option α :=
  match distance with
  | some d => some (max d (1 / 1000000))
  | none =>
    match density with
    | none => if gridLike then some (densitySpacing 1) else none
    | some d => some (densitySpacing d)

/-- A `where`/`mask` argument, flattened. -/
inductive Mask (α : Type*)
  | none
  | bools (b : ℕ → Bool)
  | numbers (v : ℕ → Option α)

/-- plot/_shared/coords.py:126-141 `_normalize_selection_mask`, for a selector of the right shape:
numbers select where finite and non-zero. -/
def Mask.selects [DecidableEq α] : Mask α → ℕ → Bool
  | .none, _ => true
  | .bools b, k => b k
  | .numbers v, k => match v k with
    | Option.none => false
    | some x => decide (x ≠ 0)

/-- The candidates a mask selects: all without a mask; the true ones of a mask of booleans; the ones with a number
other than zero in a mask of numbers. -/
def Spec.Selected : Mask α → ℕ → Prop
  | .none, _ => True
  | .bools b, k => b k = true
  | .numbers v, k => ∃ x, v k = some x ∧ x ≠ 0

theorem selects_iff [DecidableEq α] (m : Mask α) (k : ℕ) : m.selects k = true ↔ Spec.Selected m k := by
  cases m with
  | none => simp [Mask.selects, Spec.Selected]
  | bools b => simp [Mask.selects, Spec.Selected]
  | numbers v => unfold Mask.selects Spec.Selected; cases h : v k <;> simp [h]

/-- plot/_core/scatter_engine.py:369-372: flat indices of the selected candidates with finite
coordinates. -/
def sourceFlat (n : ℕ) (xf yf : ℕ → Option α) (sel : ℕ → Bool) : List ℕ :=
  (List.range n).filter (fun k => (sel k && (xf k).isSome) && (yf k).isSome)

/-- plot/_core/scatter_engine.py:135-144: the same for one-dimensional axes that span a grid. -/
def sourceAxes (ny nx : ℕ) (xa ya : ℕ → Option α) (sel : ℕ → Bool) : List ℕ :=
  ((List.range (ny * nx)).filter sel).filter
    (fun k => (xa (k % nx)).isSome && (ya (k / nx)).isSome)

/-- A style argument (`s`, `c`, `linewidths`, ...): `None`, a string or a scalar, or an array. -/
inductive Style (β : Type*)
  | plain (b : Option β)
  | array (shape : List ℕ) (get : List ℕ → β)

/-- What is handed to Matplotlib: the argument itself or one row per drawn marker. -/
inductive Styled (β : Type*)
  | same (s : Style β)
  | rows (r : List (List ℕ → β))

/-- Row-major multi-index of a flat index. -/
def unravel : List ℕ → ℕ → List ℕ
  | [], _ => []
  | _ :: rest, k => k / rest.prod :: unravel rest (k % rest.prod)

/-- Fancy indexing `values[idx]`, `none` for an IndexError. -/
def take (values : List β) (idx : List ℕ) : Option (List β) := idx.mapM (fun i => values[i]?)

/-- plot/_core/scatter_engine.py:162-208 `_subset_scatter_value`; `none`: IndexError. -/
def subsetStyle (shape : List ℕ) (src pos ret : List ℕ) (st : Style β) : Option (Styled β) :=
  match st with
  | .plain b => some (.same (.plain b))
  | .array ashape get =>
    let full := shape.prod
    let rowOf : ℕ → List ℕ → β := fun k rest => get (k :: rest)
    if ashape = shape then
      let ravelled : ℕ → List ℕ → β := fun k _ => get (unravel shape k)
      ((take (src.map ravelled) pos).bind (fun v => take v ret)).map .rows
    else if ashape ≠ [] ∧ ashape.headD 0 = full then
      ((take (src.map rowOf) pos).bind (fun v => take v ret)).map .rows
    else if src.length ≠ full ∧ ashape ≠ [] ∧ ashape.headD 0 = src.length then
      ((take ((List.range src.length).map rowOf) pos).bind (fun v => take v ret)).map .rows
    else if pos.length ≠ src.length ∧ ashape ≠ [] ∧ ashape.headD 0 = pos.length then
      (take ((List.range pos.length).map rowOf) ret).map .rows
    else some (.same (.array ashape get))

section
variable [FloorRing α]

/-- Everything that reaches the drawing stage of `_scatter_impl`. -/
structure Panel (α : Type*) where
  /-- the Matplotlib transform; `none`: not finite -/
  T : Pt α → Option (Pt α)
  x0 : α
  y0 : α
  width : α
  height : α

/-- plot/_core/scatter_engine.py:477-496: candidates with finite display position and the rows that
survive thinning. -/
def retain (qsort : List Entry → List Entry) (P : Panel α) (spacing : Option α)
    (cands : List (Pt α × ℕ)) : List (Pt α × ℕ) × List ℕ :=
  let kept := cands.filter (fun c => (P.T c.1).isSome)
  let display := kept.filterMap (fun c => P.T c.1)
  let ret := match spacing with
    | none => List.range kept.length
    | some s =>
      if kept.length ≤ 1 then List.range kept.length
      else thinDisplay qsort (fun i => display.getD i ⟨0, 0⟩) kept.length P.x0 P.y0 P.width P.height s
  (kept, ret)

/-- plot/_core/scatter_engine.py:389-424, 463-533: markers and one style argument, from the selected
flat indices `src` and the candidates made from them. -/
def draw (qsort : List Entry → List Entry) (P : Panel α) (spacing : Option α) (shape : List ℕ)
    (src : List ℕ) (cands : List (Pt α × ℕ)) (st : Style β) :
    Option (List (Pt α) × Styled β) :=
  if src = [] then (subsetStyle shape [] [] [] st).map (fun s => ([], s))
  else
    let r := retain qsort P spacing cands
    match take (r.1.map Prod.fst) r.2, subsetStyle shape src (r.1.map Prod.snd) r.2 st with
    | some pts, some s => some (pts, s)
    | _, _ => none

/-- plot/_core/scatter_engine.py:369-375, 473-475: `placement="points"`, coordinates given for every
candidate. -/
def scatterPoints (qsort : List Entry → List Entry) (P : Panel α) (density distance : Option α)
    (gridLike : Bool) (shape : List ℕ) (xf yf : ℕ → Option α) (sel : ℕ → Bool) (st : Style β) :
    Option (List (Pt α) × Styled β) :=
  let src := sourceFlat shape.prod xf yf sel
  let cands := (List.range src.length).map (fun i =>
    ((⟨(xf (src.getD i 0)).getD 0, (yf (src.getD i 0)).getD 0⟩ : Pt α), i))
  draw qsort P (spacingFraction density distance gridLike) shape src cands st

/-- plot/_core/scatter_engine.py:99-159, 473-475: `placement="points"`, one-dimensional axes spanning
a grid. -/
def scatterAxes (qsort : List Entry → List Entry) (P : Panel α) (density distance : Option α)
    (ny nx : ℕ) (xa ya : ℕ → Option α) (sel : ℕ → Bool) (st : Style β) :
    Option (List (Pt α) × Styled β) :=
  let src := sourceAxes ny nx xa ya sel
  let cands := (List.range src.length).map (fun i =>
    ((⟨(xa (src.getD i 0 % nx)).getD 0, (ya (src.getD i 0 / nx)).getD 0⟩ : Pt α), i))
  draw qsort P (spacingFraction density distance true) [ny, nx] src cands st

/-- plot/_core/scatter_engine.py:147-151, 463-472: `placement="cells"` on finite one-dimensional
axes. -/
def scatterAxesCells (qsort : List Entry → List Entry) (P : Panel α) (density distance : Option α)
    (ny nx : ℕ) (xa ya : ℕ → α) (sel : ℕ → Bool) (st : Style β) :
    Option (List (Pt α) × Styled β) :=
  let src := sourceAxes ny nx (fun i => some (xa i)) (fun i => some (ya i)) sel
  let cands := scatterCells P.T P.x0 P.y0 P.width P.height src.length
    (fun i => rectCorner (cellEdges nx xa) (cellEdges ny ya) (src.getD i 0 / nx) (src.getD i 0 % nx))
    (fun i => ⟨xa (src.getD i 0 % nx), ya (src.getD i 0 / nx)⟩)
    (spacingFraction density distance true)
  draw qsort P (spacingFraction density distance true) [ny, nx] src cands st

end

/-! ## Specification -/

namespace Spec

/-- `styled` gives marker `i` the entry of a per-candidate array that belongs to candidate
`ks[i]`. -/
def Follows (ks : List ℕ) (value : ℕ → List ℕ → β) : Styled β → Prop
  | .same _ => False
  | .rows r => r = ks.map value

end Spec

/-! ## Proofs -/

private theorem take_some (values : List β) (idx : List ℕ) (d : β)
    (h : ∀ i ∈ idx, i < values.length) :
    take values idx = some (idx.map (fun i => values.getD i d)) := by
  unfold take
  induction idx with
  | nil => rfl
  | cons i rest ih =>
    rw [List.mapM_cons, ih (fun j hj => h j (List.mem_cons_of_mem _ hj))]
    have := h i List.mem_cons_self
    simp [List.getD_eq_getElem?_getD, List.getElem?_eq_getElem this]

variable [IsStrictOrderedRing α] [FloorRing α]

theorem retain_lt (qsort : List Entry → List Entry) (hq : IsQsort qsort) (P : Panel α)
    (spacing : Option α) (cands : List (Pt α × ℕ)) :
    (∀ r ∈ (retain qsort P spacing cands).2, r < (retain qsort P spacing cands).1.length) ∧
    (retain qsort P spacing cands).2.Pairwise (· < ·) := by
  unfold retain
  dsimp only
  split
  · exact ⟨fun r hr => List.mem_range.mp hr, List.pairwise_lt_range⟩
  · split_ifs with h
    · exact ⟨fun r hr => List.mem_range.mp hr, List.pairwise_lt_range⟩
    · exact ⟨(thinDisplay_spec qsort hq _ _ _ _ _ _ _).inRange,
        (thinDisplay_spec qsort hq _ _ _ _ _ _ _).ordered⟩

/-- What the drawing stage returns, in one formula. -/
theorem draw_eq (qsort : List Entry → List Entry) (hq : IsQsort qsort) (P : Panel α)
    (spacing : Option α) (shape : List ℕ) (src : List ℕ) (hsrc : src ≠ [])
    (cands : List (Pt α × ℕ)) (st : Style β) (s : Styled β)
    (hs : subsetStyle shape src ((retain qsort P spacing cands).1.map Prod.snd)
      (retain qsort P spacing cands).2 st = some s) :
    draw qsort P spacing shape src cands st =
      some ((retain qsort P spacing cands).2.map
        (fun r => ((retain qsort P spacing cands).1.getD r (⟨0, 0⟩, 0)).1), s) := by
  unfold draw
  rw [if_neg hsrc]
  dsimp only
  rw [hs, take_some _ _ ⟨0, 0⟩ (by
    intro i hi; rw [List.length_map]; exact (retain_lt qsort hq P spacing cands).1 i hi)]
  dsimp only
  congr 2
  refine List.map_congr_left ?_
  intro r hr
  have := (retain_lt qsort hq P spacing cands).1 r hr
  simp [List.getD_eq_getElem?_getD, List.getElem?_eq_getElem this]

private theorem two_takes (vals : List (List ℕ → β)) (pos ret : List ℕ)
    (hpos : ∀ i ∈ pos, i < vals.length) (hret : ∀ r ∈ ret, r < pos.length) (d : List ℕ → β) :
    (take vals pos).bind (fun v => take v ret) =
      some (ret.map (fun r => vals.getD (pos.getD r 0) d)) := by
  rw [take_some vals pos d hpos, Option.bind_some, take_some _ ret d (by
    intro r hr; rw [List.length_map]; exact hret r hr)]
  congr 1
  refine List.map_congr_left ?_
  intro r hr
  have := hret r hr
  simp [List.getD_eq_getElem?_getD, List.getElem?_eq_getElem this]

/-- The array `a` gives one value for each of the `shape` candidates: either it has the shape of the
grid or it is a flat list of them. `value k` is what belongs to candidate `k`. -/
inductive Spec.PerCandidate (shape : List ℕ) : Style β → (ℕ → List ℕ → β) → Prop
  | grid (get : List ℕ → β) : Spec.PerCandidate shape (.array shape get) (fun k _ => get (unravel shape k))
  | flat (rest : List ℕ) (get : List ℕ → β) (h : shape.prod :: rest ≠ shape) :
      Spec.PerCandidate shape (.array (shape.prod :: rest) get) (fun k more => get (k :: more))

private theorem subset_follows (shape src pos ret : List ℕ) (st : Style β) (value : ℕ → List ℕ → β)
    (hst : Spec.PerCandidate shape st value)
    (hpos : ∀ i ∈ pos, i < src.length) (hret : ∀ r ∈ ret, r < pos.length) :
    subsetStyle shape src pos ret st =
      some (.rows (ret.map (fun r => value (src.getD (pos.getD r 0) 0)))) := by
  cases hst with
  | grid get =>
    unfold subsetStyle
    simp only [if_true]
    rw [two_takes _ pos ret (by intro i hi; rw [List.length_map]; exact hpos i hi) hret
      (fun _ => get (unravel shape 0))]
    simp only [Option.map_some, Option.some.injEq, Styled.rows.injEq]
    refine List.map_congr_left ?_
    intro r hr
    have h1 := hret r hr
    have h2 : pos.getD r 0 < src.length := by
      rw [List.getD_eq_getElem?_getD, List.getElem?_eq_getElem h1]
      exact hpos _ (List.getElem_mem h1)
    simp only [List.getD_eq_getElem?_getD (l := src), List.getD_eq_getElem?_getD (l := src.map _),
      List.getElem?_map, List.getElem?_eq_getElem h2, Option.map_some, Option.getD_some]
  | flat rest get h =>
    unfold subsetStyle
    dsimp only
    rw [if_neg h, if_pos ⟨List.cons_ne_nil _ _, rfl⟩]
    rw [two_takes _ pos ret (by intro i hi; rw [List.length_map]; exact hpos i hi) hret
      (fun more => get (0 :: more))]
    simp only [Option.map_some, Option.some.injEq, Styled.rows.injEq]
    refine List.map_congr_left ?_
    intro r hr
    have h1 := hret r hr
    have h2 : pos.getD r 0 < src.length := by
      rw [List.getD_eq_getElem?_getD, List.getElem?_eq_getElem h1]
      exact hpos _ (List.getElem_mem h1)
    simp only [List.getD_eq_getElem?_getD (l := src), List.getD_eq_getElem?_getD (l := src.map _),
      List.getElem?_map, List.getElem?_eq_getElem h2, Option.map_some, Option.getD_some]

private theorem pick_sublist {γ : Type*} (K : List γ) (d : γ) (R : List ℕ)
    (hord : R.Pairwise (· < ·)) (hlt : ∀ r ∈ R, r < K.length) :
    (R.map (fun r => K.getD r d)).Sublist K := by
  have h : (List.pmap (fun r h => (⟨r, h⟩ : Fin K.length)) R hlt).Pairwise (· < ·) := by
    rw [List.pairwise_pmap]
    exact hord.imp (fun h _ _ => h)
  have h2 := List.map_getElem_sublist h
  have h3 : R.map (fun r => K.getD r d) =
      (List.pmap (fun r h => (⟨r, h⟩ : Fin K.length)) R hlt).map (fun i => K[i]) := by
    rw [List.map_pmap]
    rw [← List.pmap_eq_map (p := fun r => r < K.length) (H := hlt)]
    refine List.pmap_congr_left _ ?_
    intro r _ h1 h2
    rw [List.getD_eq_getElem?_getD, List.getElem?_eq_getElem h1, Option.getD_some]
    rfl
  rw [h3]; exact h2

/-- Common part of the two placements: the markers and the style values come from the same sources. -/
theorem draw_aligned (qsort : List Entry → List Entry) (hq : IsQsort qsort) (P : Panel α)
    (spacing : Option α) (shape src : List ℕ) (cands : List (Pt α × ℕ)) (st : Style β)
    (value : ℕ → List ℕ → β) (hst : Spec.PerCandidate shape st value)
    (hc : ∀ c ∈ cands, c.2 < src.length) :
    ∃ (picks : List (Pt α × ℕ)), picks.Sublist cands ∧
      (∀ c ∈ picks, (P.T c.1).isSome = true) ∧
      ∃ s, draw qsort P spacing shape src cands st = some (picks.map Prod.fst, s) ∧
        Spec.Follows (picks.map (fun c => src.getD c.2 0)) value s := by
  by_cases hsrc : src = []
  · subst hsrc
    refine ⟨[], List.nil_sublist _, by simp, ?_⟩
    have hs := subset_follows shape [] [] [] st value hst (by simp) (by simp)
    refine ⟨_, by unfold draw; rw [if_pos rfl, hs]; rfl, ?_⟩
    rfl
  · set K := (retain qsort P spacing cands).1 with hK
    set R := (retain qsort P spacing cands).2 with hR
    have hKc : K = cands.filter (fun c => (P.T c.1).isSome) := by rw [hK]; rfl
    have hlt := (retain_lt qsort hq P spacing cands).1
    have hord := (retain_lt qsort hq P spacing cands).2
    have hs := subset_follows shape src (K.map Prod.snd) R st value hst
      (by
        intro i hi
        obtain ⟨c, hcK, rfl⟩ := List.mem_map.mp hi
        rw [hKc] at hcK
        exact hc c (List.mem_filter.mp hcK).1)
      (by intro r hr; rw [List.length_map]; exact hlt r hr)
    refine ⟨R.map (fun r => K.getD r (⟨0, 0⟩, 0)), ?_, ?_, .rows (R.map (fun r => value (src.getD ((K.map Prod.snd).getD r 0) 0))), ?_, ?_⟩
    · have h1 := pick_sublist K (⟨0, 0⟩, 0) R hord hlt
      refine h1.trans ?_
      rw [hKc]; exact List.filter_sublist
    · intro c hcm
      obtain ⟨r, hr, rfl⟩ := List.mem_map.mp hcm
      have h1 := hlt r hr
      rw [List.getD_eq_getElem?_getD, List.getElem?_eq_getElem h1, Option.getD_some]
      have h2 := List.getElem_mem h1
      exact (List.mem_filter.mp (show _ ∈ cands.filter (fun c => (P.T c.1).isSome) from h2)).2
    · rw [draw_eq qsort hq P spacing shape src hsrc cands st _ hs, List.map_map]
      rfl
    · rw [List.map_map]
      unfold Spec.Follows
      rw [List.map_map]
      refine List.map_congr_left ?_
      intro r hr
      have h1 : r < K.length := hlt r hr
      simp [List.getD_eq_getElem?_getD, List.getElem?_eq_getElem h1]

private theorem sourceFlat_mem (n : ℕ) (xf yf : ℕ → Option α) (sel : ℕ → Bool) (k : ℕ) :
    k ∈ sourceFlat n xf yf sel ↔ k < n ∧ sel k = true ∧ (xf k).isSome = true ∧ (yf k).isSome = true := by
  unfold sourceFlat
  simp only [List.mem_filter, List.mem_range, Bool.and_eq_true]
  tauto

/-- C253: markers placed on the given points.  Only selected candidates with finite coordinates are
drawn, each at most once, at its own coordinates, in their order; and a size or colour array given
per candidate (with the shape of the grid or flattened) gives each marker the entry of its own
candidate.  For every mask, transform, panel, density and distance. -/
theorem C253_points (qsort : List Entry → List Entry) (hq : IsQsort qsort) (P : Panel α)
    (density distance : Option α) (gridLike : Bool) (shape : List ℕ) (xf yf : ℕ → Option α)
    (m : Mask α) (st : Style β) (value : ℕ → List ℕ → β) (hst : Spec.PerCandidate shape st value) :
    ∃ ks : List ℕ, ks.Pairwise (· < ·) ∧
      (∀ k ∈ ks, k < shape.prod ∧ Spec.Selected m k ∧ (xf k).isSome = true ∧ (yf k).isSome = true) ∧
      ∃ s, scatterPoints qsort P density distance gridLike shape xf yf m.selects st =
          some (ks.map (fun k => ⟨(xf k).getD 0, (yf k).getD 0⟩), s) ∧
        Spec.Follows ks value s := by
  set src := sourceFlat shape.prod xf yf m.selects with hsrc
  have hord : src.Pairwise (· < ·) := by
    rw [hsrc]; unfold sourceFlat; exact List.pairwise_lt_range.filter _
  obtain ⟨picks, hsub, -, s, hs, hf⟩ := draw_aligned qsort hq P
    (spacingFraction density distance gridLike) shape src
    ((List.range src.length).map (fun i =>
      ((⟨(xf (src.getD i 0)).getD 0, (yf (src.getD i 0)).getD 0⟩ : Pt α), i))) st value hst
    (by
      intro c hc
      obtain ⟨i, hi, rfl⟩ := List.mem_map.mp hc
      exact List.mem_range.mp hi)
  have hpk : ∀ c ∈ picks, c.2 < src.length ∧
      c.1 = ⟨(xf (src.getD c.2 0)).getD 0, (yf (src.getD c.2 0)).getD 0⟩ := by
    intro c hc
    obtain ⟨i, hi, rfl⟩ := List.mem_map.mp (hsub.subset hc)
    exact ⟨List.mem_range.mp hi, rfl⟩
  refine ⟨picks.map (fun c => src.getD c.2 0), ?_, ?_, s, ?_, hf⟩
  · rw [List.pairwise_map]
    have h1 : (((List.range src.length).map (fun i =>
      ((⟨(xf (src.getD i 0)).getD 0, (yf (src.getD i 0)).getD 0⟩ : Pt α), i)))).Pairwise
        (fun c d => c.2 < d.2) := by
      rw [List.pairwise_map]; exact List.pairwise_lt_range
    refine (h1.sublist hsub).imp_of_mem ?_
    intro c d hc hd hcd
    have h2 := (hpk c hc).1
    have h3 := (hpk d hd).1
    simp only [List.getD_eq_getElem?_getD, List.getElem?_eq_getElem h2, List.getElem?_eq_getElem h3,
      Option.getD_some]
    exact List.pairwise_iff_getElem.mp hord _ _ h2 h3 hcd
  · intro k hk
    obtain ⟨c, hc, rfl⟩ := List.mem_map.mp hk
    have h2 := (hpk c hc).1
    rw [← selects_iff, ← sourceFlat_mem, ← hsrc, List.getD_eq_getElem?_getD, List.getElem?_eq_getElem h2]
    exact List.getElem_mem h2
  · unfold scatterPoints
    dsimp only
    rw [← hsrc, hs, List.map_map]
    congr 2
    refine List.map_congr_left ?_
    intro c hc
    exact (hpk c hc).2

private theorem sourceAxes_mem (ny nx : ℕ) (xa ya : ℕ → Option α) (sel : ℕ → Bool) (k : ℕ) :
    k ∈ sourceAxes ny nx xa ya sel ↔ k < ny * nx ∧ sel k = true ∧
      (xa (k % nx)).isSome = true ∧ (ya (k / nx)).isSome = true := by
  unfold sourceAxes
  simp only [List.mem_filter, List.mem_range, Bool.and_eq_true]
  tauto

/-- C254: markers placed inside cells of a rectilinear grid (strictly monotone axes).  Every marker
lies strictly inside a selected cell and carries the size or colour of that cell. -/
theorem C254_cells (qsort : List Entry → List Entry) (hq : IsQsort qsort) (P : Panel α)
    (density distance : Option α) (ny nx : ℕ) (xa ya : ℕ → α)
    (hxa : (∀ i j, i < j → j < nx → xa i < xa j) ∨ (2 ≤ nx ∧ ∀ i j, i < j → j < nx → xa j < xa i))
    (hya : (∀ i j, i < j → j < ny → ya i < ya j) ∨ (2 ≤ ny ∧ ∀ i j, i < j → j < ny → ya j < ya i))
    (m : Mask α) (st : Style β) (value : ℕ → List ℕ → β)
    (hst : Spec.PerCandidate [ny, nx] st value) :
    ∃ marks : List (Pt α × ℕ),
      (∀ q ∈ marks, q.2 < ny * nx ∧ Spec.Selected m q.2 ∧
        Spec.Between (cellEdges nx xa (q.2 % nx)) (cellEdges nx xa (q.2 % nx + 1)) q.1.x ∧
        Spec.Between (cellEdges ny ya (q.2 / nx)) (cellEdges ny ya (q.2 / nx + 1)) q.1.y) ∧
      ∃ s, scatterAxesCells qsort P density distance ny nx xa ya m.selects st =
          some (marks.map Prod.fst, s) ∧
        Spec.Follows (marks.map Prod.snd) value s := by
  set src := sourceAxes ny nx (fun i => some (xa i)) (fun i => some (ya i)) m.selects with hsrc
  have hmem : ∀ i < src.length, src.getD i 0 < ny * nx ∧ m.selects (src.getD i 0) = true := by
    intro i hi
    rw [List.getD_eq_getElem?_getD, List.getElem?_eq_getElem hi, Option.getD_some]
    have h := (sourceAxes_mem _ _ _ _ _ _).mp (List.getElem_mem hi)
    exact ⟨h.1, h.2.1⟩
  have axis : ∀ (n : ℕ) (a : ℕ → α),
      ((∀ i j, i < j → j < n → a i < a j) ∨ (2 ≤ n ∧ ∀ i j, i < j → j < n → a j < a i)) →
      ∀ i < n, Spec.Between (cellEdges n a i) (cellEdges n a (i + 1)) (a i) := by
    intro n a h i hi
    have h4 := C249_edges n (by omega) a
    rcases h with h | ⟨h2, h⟩
    · exact Or.inl (h4.1 h i hi)
    · have := h4.2.1 h h2 i hi
      exact Or.inr ⟨this.2, this.1⟩
  have bne : ∀ a b v : α, Spec.Between a b v → a ≠ b := by
    intro a b v h
    rcases h with h | h
    · exact ne_of_lt (h.1.trans h.2)
    · exact ne_of_gt (h.1.trans h.2)
  have hb : ∀ i < src.length,
      Spec.Between (cellEdges nx xa (src.getD i 0 % nx)) (cellEdges nx xa (src.getD i 0 % nx + 1))
        (xa (src.getD i 0 % nx)) ∧
      Spec.Between (cellEdges ny ya (src.getD i 0 / nx)) (cellEdges ny ya (src.getD i 0 / nx + 1))
        (ya (src.getD i 0 / nx)) := by
    intro i hi
    have h := (hmem i hi).1
    have hnx : 0 < nx := by
      rcases Nat.eq_zero_or_pos nx with h0 | h0
      · rw [h0, Nat.mul_zero] at h; omega
      · exact h0
    exact ⟨axis nx xa hxa _ (Nat.mod_lt _ hnx), axis ny ya hya _ (Nat.div_lt_of_lt_mul (by rwa [Nat.mul_comm] at h))⟩
  have hin := (C251_inside P.T P.x0 P.y0 P.width P.height src.length
    (fun i => src.getD i 0 / nx) (fun i => src.getD i 0 % nx) (cellEdges nx xa) (cellEdges ny ya)
    (fun i => ⟨xa (src.getD i 0 % nx), ya (src.getD i 0 / nx)⟩)
    (spacingFraction density distance true)
    (fun i hi => bne _ _ _ (hb i hi).1) (fun i hi => bne _ _ _ (hb i hi).2) hb).1
  obtain ⟨picks, hsub, -, s, hs, hf⟩ := draw_aligned qsort hq P
    (spacingFraction density distance true) [ny, nx] src _ st value hst
    (fun c hc => (hin c hc).1)
  refine ⟨picks.map (fun c => (c.1, src.getD c.2 0)), ?_, s, ?_, ?_⟩
  · intro q hq
    obtain ⟨c, hc, rfl⟩ := List.mem_map.mp hq
    have h := hin c (hsub.subset hc)
    exact ⟨(hmem c.2 h.1).1, (selects_iff _ _).1 (hmem c.2 h.1).2, h.2⟩
  · unfold scatterAxesCells
    dsimp only
    rw [← hsrc, hs, List.map_map]
    rfl
  · rw [List.map_map]
    exact hf

/-- C255: one-dimensional axes spanning a grid draw the same markers with the same styles as the
two-dimensional coordinate arrays made from them; and paired points without density and distance
are all drawn unless masked, not finite or not displayable. -/
theorem C255_axes (qsort : List Entry → List Entry) (P : Panel α)
    (density distance : Option α) (ny nx : ℕ) (xa ya : ℕ → Option α) (m : Mask α) (st : Style β) :
    scatterAxes qsort P density distance ny nx xa ya m.selects st =
      scatterPoints qsort P density distance true [ny, nx] (fun k => xa (k % nx)) (fun k => ya (k / nx))
        m.selects st := by
  have h : sourceAxes ny nx xa ya m.selects =
      sourceFlat ([ny, nx] : List ℕ).prod (fun k => xa (k % nx)) (fun k => ya (k / nx)) m.selects := by
    unfold sourceAxes sourceFlat
    rw [List.filter_filter]
    have : ([ny, nx] : List ℕ).prod = ny * nx := by simp
    rw [this]
    refine List.filter_congr ?_
    intro k _
    cases m.selects k <;> cases (xa (k % nx)).isSome <;> cases (ya (k / nx)).isSome <;> rfl
  unfold scatterAxes scatterPoints
  dsimp only
  rw [h]

theorem C255_all_drawn (qsort : List Entry → List Entry) (hq : IsQsort qsort) (P : Panel α)
    (shape : List ℕ) (xf yf : ℕ → Option α) (m : Mask α) (b : Option β) (k : ℕ) (hk : k < shape.prod)
    (hm : Spec.Selected m k) (x y : α) (hx : xf k = some x) (hy : yf k = some y)
    (hT : (P.T ⟨x, y⟩).isSome = true) :
    ∃ pts s, scatterPoints qsort P none none false shape xf yf m.selects (.plain b) = some (pts, s) ∧
      (⟨x, y⟩ : Pt α) ∈ pts := by
  set src := sourceFlat shape.prod xf yf m.selects with hsrc
  have hks : k ∈ src := (sourceFlat_mem _ _ _ _ _).mpr ⟨hk, (selects_iff m k).2 hm, by rw [hx]; rfl, by rw [hy]; rfl⟩
  obtain ⟨i, hi, hik⟩ := List.getElem_of_mem hks
  set cands := (List.range src.length).map (fun i =>
      ((⟨(xf (src.getD i 0)).getD 0, (yf (src.getD i 0)).getD 0⟩ : Pt α), i)) with hc
  have hne : src ≠ [] := List.ne_nil_of_mem hks
  have hd := draw_eq qsort hq P none shape src hne cands (.plain b) (.same (.plain b)) rfl
  refine ⟨_, _, by unfold scatterPoints; exact hd, ?_⟩
  have hin : ((⟨x, y⟩ : Pt α), i) ∈ (retain qsort P none cands).1 := by
    unfold retain
    rw [List.mem_filter]
    refine ⟨List.mem_map.mpr ⟨i, List.mem_range.mpr hi, ?_⟩, by simpa using hT⟩
    rw [List.getD_eq_getElem?_getD, List.getElem?_eq_getElem hi, Option.getD_some, hik, hx, hy]
    rfl
  obtain ⟨r, hr, hrk⟩ := List.getElem_of_mem hin
  refine List.mem_map.mpr ⟨r, ?_, ?_⟩
  · show r ∈ List.range _
    exact List.mem_range.mpr hr
  · rw [List.getD_eq_getElem?_getD, List.getElem?_eq_getElem hr, Option.getD_some, hrk]

/-- The full statement of C256: a colour given as one RGBA row for all markers (an array of four
numbers passed as `edgecolors`/`facecolors`) reaches Matplotlib unchanged. -/
def C256_statement : Prop :=
  ∀ (shape src pos ret : List ℕ) (rgba : List ℕ → ℚ),
    src.Pairwise (· < ·) → (∀ k ∈ src, k < shape.prod) → (∀ i ∈ pos, i < src.length) →
    (∀ r ∈ ret, r < pos.length) →
    subsetStyle shape src pos ret (.array [4] rgba) = some (.same (.array [4] rgba))

/-- C256 is false: with four points of which two survive thinning the RGBA row is cut to two
numbers. -/
theorem C256_false : ¬ C256_statement := by
  intro h
  have h1 := h [4] [0, 1, 2, 3] [0, 1, 2, 3] [0, 2] (fun _ => 1) (by decide) (by decide) (by decide)
    (by decide)
  simp [subsetStyle, take] at h1

/-- C256, the part that holds: when neither the number of candidates, nor the number of selected ones,
nor the number of generated ones is four, a single RGBA row is passed on unchanged. Missing: those
numbers (false, see `C256_false`). -/
theorem C256_rgba_partial (shape src pos ret : List ℕ) (rgba : List ℕ → β)
    (h1 : shape.prod ≠ 4) (h2 : src.length ≠ 4) (h3 : pos.length ≠ 4) :
    subsetStyle shape src pos ret (.array [4] rgba) = some (.same (.array [4] rgba)) := by
  have h0 : ([4] : List ℕ) ≠ shape := by rintro rfl; simp at h1
  unfold subsetStyle
  dsimp only
  rw [if_neg h0, if_neg (by simp; omega), if_neg (by simp; omega), if_neg (by simp; omega)]

/-- C257: the spacing derived from `density`: positive, at most three tenths of the panel, and never
larger for a larger density; an explicit distance overrides the density. -/
theorem C257_density (d e : α) (h : d ≤ e) :
    0 < densitySpacing e ∧ densitySpacing e ≤ densitySpacing d ∧ densitySpacing d ≤ 3 / 10 ∧
    ∀ (den : Option α) (g : Bool) (dist : α), 1 / 1000000 ≤ dist →
      spacingFraction den (some dist) g = some dist := by
  unfold densitySpacing
  have hd : (0 : α) < max d (1 / 10) := lt_max_of_lt_right (by norm_num)
  have he : (0 : α) < max e (1 / 10) := lt_max_of_lt_right (by norm_num)
  refine ⟨by positivity, ?_, ?_, ?_⟩
  · apply div_le_div_of_nonneg_left (by norm_num) (by positivity)
    have := max_le_max_right (1 / 10 : α) h
    linarith
  · rw [div_le_iff₀ (by positivity)]
    have : (1 / 10 : α) ≤ max d (1 / 10) := le_max_right _ _
    linarith
  · intro den g dist hdist
    simp only [spacingFraction, max_eq_left hdist]

/-! ## The hypotheses are met -/

/-- Six grid points, one masked, one style value per point. -/
def exMask : Mask ℚ := .numbers (fun k => if k = 2 then some 0 else if k = 4 then none else some 1)

example : Spec.PerCandidate [2, 3] (.array [2, 3] (fun ij : List ℕ => ij.sum)) (fun k _ => (unravel [2, 3] k).sum) :=
  Spec.PerCandidate.grid _
example : Spec.PerCandidate [2, 3] (.array [6] (fun k : List ℕ => k.sum)) (fun k more => (k :: more).sum) :=
  Spec.PerCandidate.flat [] _ (by decide)
example : sourceAxes 2 3 (fun i => some (i : ℚ)) (fun i => some (i : ℚ)) exMask.selects = [0, 1, 3, 5] := by
  decide +kernel
example : unravel [2, 3] 5 = [1, 2] := by decide
example : subsetStyle [2, 3] [0, 1, 3, 5] [0, 1, 2, 3] [0, 3] (.array [2, 3] (fun ij : List ℕ => ij)) =
    some (.rows [fun _ => [0, 0], fun _ => [1, 2]]) := by
  simp [subsetStyle, take, unravel]

end Skyborn.Plot
