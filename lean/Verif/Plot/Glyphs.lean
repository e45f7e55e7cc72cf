/-
Curly vectors from the arrays handed in to the glyphs drawn.
Modelled: plot/_core/vector_engine.py:22-30, 265-277, 666-1010 (without colour maps and Matplotlib artists); plot/_core/thinning.py:112-132;
plot/_artists/vector_artists.py through `HeadBatch`.
-/
import Verif.Plot.Centers
import Verif.Plot.HeadBatch
import Verif.Plot.Length

namespace Skyborn.Plot.Curly

open Skyborn.Plot

/-! ## Model -/

/-- `integration_direction`. -/
inductive Direction
  | forward
  | backward
  | both

/-- plot/_core/vector_engine.py:265-277 `_resolve_curly_anchor`; other names raise an error and are not modelled. -/
def resolveAnchor (a : Option Anchor) (d : Direction) : Anchor :=
  match a with
  | some a => a
  | none => match d with
    | .forward => .tail
    | .backward => .head
    | .both => .center

/-- What is handed in. Arrays on the grid are row after row, `none` for masked or not finite; their shapes are taken to match. -/
structure Plot where
  /-- columns -/ x : List ℝ
  /-- rows -/ y : List ℝ
  /-- eastward wind -/ u : ℕ → Option ℝ
  /-- northward wind -/ v : ℕ → Option ℝ
  /-- from data coordinates to the panel -/ T : ℝ × ℝ → Option (ℝ × ℝ)
  /-- the panel -/ view : View
  /-- `allow_non_uniform_grid` -/ nonUniform : Bool
  /-- `density` along x -/ ρx : ℝ
  /-- `density` along y -/ ρy : ℝ
  /-- `start_points` -/ starts : Option (List (ℝ × ℝ))
  /-- `anchor` -/ anchor : Option Anchor
  /-- `integration_direction` -/ direction : Direction
  /-- `ref_magnitude` -/ ref : Option ℝ
  /-- `ref_length` -/ refLength : Option ℝ
  /-- `min_frac_length` -/ minFrac : ℝ
  /-- `min_distance` -/ minDistance : Option ℝ
  /-- a profile preset -/ profile : Bool
  /-- `arrowsize` -/ arrowsize : ℝ
  /-- a line width or colour field -/ style : Option (ℕ → Option ℝ)

/-- Width of the panel. -/
noncomputable def Plot.w (P : Plot) : ℝ := P.view.x1 - P.view.x0

/-- Height of the panel. -/
noncomputable def Plot.h (P : Plot) : ℝ := P.view.y1 - P.view.y0

/-- vector_engine.py:737-739: wind speed at a node. -/
noncomputable def Plot.mag (P : Plot) (k : ℕ) : Option ℝ :=
  match P.u k, P.v k with
  | some a, some b => some (hyp a b)
  | _, _ => none

/-- thinning.py:112-132 `_prepare_ncl_display_sampler`: positions of the nodes. (If none is finite the code goes on without a sampler; this
is not modelled.) -/
def Plot.pos (P : Plot) (g : Grid) (k : ℕ) : Option (ℝ × ℝ) :=
  P.T (g.x0 + ((k % g.nx : ℕ) : ℝ) * g.dx, g.y0 + ((k / g.nx : ℕ) : ℝ) * g.dy)

/-- The finite values among the first `n`. -/
def finite (f : ℕ → Option ℝ) (n : ℕ) : List ℝ := (List.range n).filterMap f

open Classical in
/-- vector_engine.py:22-30, 779-812: value of the style where the field has none; `none`: `ValueError`. -/
noncomputable def styleDefault (style : Option (ℕ → Option ℝ)) (n : ℕ) : Option (Option ℝ) :=
  match style with
  | none => some none
  | some f => if finite f n = [] then none else some (some ((finite f n).sum / (finite f n).length))

/-- vector_engine.py:907-930: the style at a centre. -/
noncomputable def styleAt (g : Grid) (style : Option (ℕ → Option ℝ)) (dflt : Option ℝ) (c : ℝ × ℝ) : Option ℝ :=
  match style with
  | none => none
  | some f => match sampleScalar g f c.1 c.2 with
    | some z => some z
    | none => dflt

/-- A glyph: where it was asked for, the wind speed there, its curve, size of its head, style. -/
structure Glyph where
  /-- `center` -/ center : ℝ × ℝ
  /-- `center_mag` -/ mag : ℝ
  /-- curve -/ curve : Curve
  /-- length and width of the head -/ head : ℝ × ℝ
  /-- line width or colour value, if a field was given -/ style : Option ℝ

/-- vector_engine.py:835, `step_px`. -/
noncomputable def Plot.step (P : Plot) : ℝ := max (3 / 2) (P.w * (45 / 10000))

/-- What the placement needs. -/
noncomputable def Plot.scene (P : Plot) (qs : List ℝ → List ℝ) (pg : PGrid) : Scene :=
  ⟨pg, P.view.x0, P.view.y0, P.w, P.h, P.mag, P.pos pg.grid, cellValid qs pg.grid.ny pg.grid.nx (P.pos pg.grid)⟩

/-- What the tracer needs. -/
noncomputable def Plot.fields (P : Plot) (qs : List ℝ → List ℝ) (g : Grid) : Fields :=
  ⟨P.u, P.v, P.pos g, cellValid qs g.ny g.nx (P.pos g)⟩

/-- vector_engine.py:886-964: the glyph at a centre, if there is one; `lo`, `hi`: extreme speeds. -/
noncomputable def Plot.glyphAt (P : Plot) (qs : List ℝ → List ℝ) (g : Grid) (lo hi : ℝ) (dflt : Option ℝ) (c : (ℝ × ℝ) × ℝ) : Option Glyph :=
  (buildCurve g (P.fields qs g) P.step hi P.view (resolveAnchor P.anchor P.direction) c.1
    (Length.glyphLength P.w P.h P.ρx P.ρy lo hi P.ref P.refLength P.minFrac c.2)).map fun l =>
      ⟨c.1, c.2, l, glyphHead P.w P.arrowsize hi c.2, styleAt g P.style dflt c.1⟩

/-- vector_engine.py:666-964 `_curly_vector_ncl_impl`: the glyphs, in order; `none`: `ValueError`. -/
noncomputable def curly (qs : List ℝ → List ℝ) (qsort : List Entry → List Entry) (P : Plot) : Option (List Glyph) :=
  (pyGrid P.x P.y P.nonUniform).bind fun pg =>
    match finite P.mag (pg.grid.nx * pg.grid.ny) with
    | [] => some []
    | m :: ms =>
      (styleDefault P.style (pg.grid.nx * pg.grid.ny)).bind fun dflt =>
        (selectCenters qsort (P.scene qs pg) P.ρx P.ρy P.minDistance P.profile P.starts).map fun cs =>
          cs.filterMap (P.glyphAt qs pg.grid (ms.foldl min m) (ms.foldl max m) dflt)

/-- vector_engine.py:966-1010, open heads: the lines handed to Matplotlib, shafts in data coordinates. -/
noncomputable def openLines (inv : ℝ × ℝ → Option (ℝ × ℝ)) (gs : List Glyph) : Option (List (Line (List (ℝ × ℝ)) Barb × Option ℝ)) :=
  (openBatch inv (gs.map fun G => G.curve.map fun p => (some p.2.1, some p.2.2)) (gs.map fun G => G.head.1) (gs.map fun G => G.head.2)).bind
    fun barbs => assemble (gs.map fun G => (G.curve.map Prod.fst, G.style)) barbs

/-! ## Proofs -/

/-- Curves are drawn for positive lengths only. -/
private theorem buildCurve_pos {g : Grid} {F : Fields} {step scale : ℝ} {view : View} {anchor : Anchor} {start : ℝ × ℝ} {len : ℝ} {l : Curve}
    (h : buildCurve g F step scale view anchor start len = some l) : 0 ≤ len := by
  by_contra hn
  push Not at hn
  have key : ∀ (n : ℕ) (len : ℝ), len < 0 → buildLoop g F step scale view anchor start n len = none := by
    intro n
    induction n with
    | zero => intro _ _; rfl
    | succ n ih =>
      intro len hlen
      unfold buildLoop
      have : traceCurve g F step scale view anchor start len = none := by
        unfold traceCurve; rw [if_pos hlen.le]
      rw [this]
      dsimp only
      split_ifs
      · rfl
      · exact ih _ (by linarith)
  unfold buildCurve at h
  rw [key 4 len hn] at h
  cases h

private theorem curly_some {qs : List ℝ → List ℝ} {qsort : List Entry → List Entry} {P : Plot} {gs : List Glyph} (h : curly qs qsort P = some gs) :
    ∃ pg, pyGrid P.x P.y P.nonUniform = some pg ∧ (gs = [] ∨ ∃ m ms dflt cs, finite P.mag (pg.grid.nx * pg.grid.ny) = m :: ms ∧
      styleDefault P.style (pg.grid.nx * pg.grid.ny) = some dflt ∧
      selectCenters qsort (P.scene qs pg) P.ρx P.ρy P.minDistance P.profile P.starts = some cs ∧
      gs = cs.filterMap (P.glyphAt qs pg.grid (ms.foldl min m) (ms.foldl max m) dflt)) := by
  unfold curly at h
  rcases hp : pyGrid P.x P.y P.nonUniform with _ | pg
  · rw [hp] at h; cases h
  rw [hp, Option.bind_some] at h
  refine ⟨pg, rfl, ?_⟩
  split at h
  · left; cases h; rfl
  · rename_i m ms hm
    right
    rcases hd : styleDefault P.style (pg.grid.nx * pg.grid.ny) with _ | dflt
    · rw [hd] at h; cases h
    rw [hd, Option.bind_some] at h
    rcases hs : selectCenters qsort (P.scene qs pg) P.ρx P.ρy P.minDistance P.profile P.starts with _ | cs
    · rw [hs] at h; cases h
    rw [hs] at h
    cases h
    exact ⟨m, ms, dflt, cs, hm, rfl, rfl, rfl⟩

private theorem glyphAt_some {P : Plot} {qs : List ℝ → List ℝ} {g : Grid} {lo hi : ℝ} {dflt : Option ℝ} {c : (ℝ × ℝ) × ℝ} {G : Glyph}
    (h : P.glyphAt qs g lo hi dflt c = some G) : G.center = c.1 ∧ G.mag = c.2 ∧ G.head = glyphHead P.w P.arrowsize hi c.2 ∧
      G.style = styleAt g P.style dflt c.1 ∧ buildCurve g (P.fields qs g) P.step hi P.view (resolveAnchor P.anchor P.direction) c.1
        (Length.glyphLength P.w P.h P.ρx P.ρy lo hi P.ref P.refLength P.minFrac c.2) = some G.curve := by
  unfold Plot.glyphAt at h
  rw [Option.map_eq_some_iff] at h
  obtain ⟨l, hl, rfl⟩ := h
  exact ⟨rfl, rfl, rfl, rfl, hl⟩

private theorem filterMap_fst {P : Plot} {qs : List ℝ → List ℝ} {g : Grid} {lo hi : ℝ} {dflt : Option ℝ} (cs : List ((ℝ × ℝ) × ℝ)) :
    ((cs.filterMap (P.glyphAt qs g lo hi dflt)).map fun G => (G.center, G.mag)).Sublist cs := by
  induction cs with
  | nil => simp
  | cons c cs ih =>
    rw [List.filterMap_cons]
    split
    · exact ih.cons _
    · rename_i G hG
      obtain ⟨h1, h2, _⟩ := glyphAt_some hG
      rw [List.map_cons, h1, h2]
      exact ih.cons_cons _

/-- Where a glyph lies with respect to the point it belongs to. -/
def Spec.Anchored (a : Anchor) (pts : List (ℝ × ℝ)) (c : ℝ × ℝ) : Prop :=
  match a with
  | .tail => pts.head? = some c
  | .head => pts.getLast? = some c
  | .center => c ∈ pts

/-- The anchor asked for: the one given, otherwise the one of the direction of integration. -/
inductive Spec.Asked : Option Anchor → Direction → Anchor → Prop
  | given (a : Anchor) (d : Direction) : Spec.Asked (some a) d a
  | forward : Spec.Asked none .forward .tail
  | backward : Spec.Asked none .backward .head
  | both : Spec.Asked none .both .center

private theorem anchored {g : Grid} {F : Fields} {step scale : ℝ} {view : View} {anchor : Anchor} {start : ℝ × ℝ} {len : ℝ} {l : Curve}
    (h : buildCurve g F step scale view anchor start len = some l) : Spec.Anchored anchor (l.map Prod.fst) start := by
  have e := C277_anchor g F step scale view anchor start len (buildCurve_pos h) l h
  cases anchor <;> exact e

private theorem bounded {g : Grid} {F : Fields} {step scale : ℝ} {view : View} {anchor : Anchor} {start : ℝ × ℝ} {len : ℝ} {l : Curve}
    {a b c d e f : ℝ} (hdx : 0 < g.dx) (hdy : 0 < g.dy) (hF : LinearDisplay g F a b c d e f) (hs : 35 / 100 ≤ step)
    (h : buildCurve g F step scale view anchor start len = some l) : arc (l.map Prod.snd) ≤ len + step := by
  have e := C277_length g F a b c d e f hdx hdy hF step scale view anchor start len (buildCurve_pos h) l h
  rw [max_eq_left hs] at e
  cases anchor <;> simp only at e <;> linarith

/-- C290: in every plot that succeeds: glyphs belong to different candidates, in their order; each lies on its point as asked for (starts
there, ends there, or goes through), inside the data, and its speed is the one interpolated there; on the panel no two of their points are
closer than the spacing. -/
theorem C290_placed (qs : List ℝ → List ℝ) (qsort : List Entry → List Entry) (hq : IsQsort qsort) (P : Plot) (gs : List Glyph)
    (h : curly qs qsort P = some gs) (a : Anchor) (ha : Spec.Asked P.anchor P.direction a) :
    ∃ pg, pyGrid P.x P.y P.nonUniform = some pg ∧
      (gs.map Glyph.center).Sublist (P.starts.getD (defaultCands pg P.ρx P.ρy)) ∧
      (∀ G ∈ gs, Spec.Anchored a (G.curve.map Prod.fst) G.center ∧ pg.holds G.center ∧
        sampleScalar pg.grid P.mag G.center.1 G.center.2 = some G.mag ∧ ∃ p, Spec.pos (P.scene qs pg) G.center = some p) ∧
      gs.Pairwise fun G G' => ∀ p q, Spec.pos (P.scene qs pg) G.center = some p → Spec.pos (P.scene qs pg) G'.center = some q →
        (Spec.spacing P.ρx P.ρy P.minDistance P.profile) ^ 2 ≤
          ((p.1 - q.1) / max P.w 1) ^ 2 + ((p.2 - q.2) / max P.h 1) ^ 2 := by
  obtain ⟨pg, hp, rfl | ⟨m, ms, dflt, cs, _, _, hs, rfl⟩⟩ := curly_some h
  · exact ⟨pg, hp, List.nil_sublist _, by simp, List.Pairwise.nil⟩
  obtain ⟨s1, s2, s3, _⟩ := C288_centers qsort hq _ _ _ _ _ _ _ hs
  have hsub := filterMap_fst (P := P) (qs := qs) (g := pg.grid) (lo := ms.foldl min m) (hi := ms.foldl max m) (dflt := dflt) cs
  refine ⟨pg, hp, ?_, ?_, ?_⟩
  · have := hsub.map Prod.fst
    rw [List.map_map] at this
    exact this.trans s1
  · intro G hG
    obtain ⟨c, hc, hcG⟩ := List.mem_filterMap.1 hG
    obtain ⟨h1, h2, _, _, h5⟩ := glyphAt_some hcG
    obtain ⟨t1, t2, t3⟩ := s2 c hc
    rw [h1, h2]
    refine ⟨?_, t1, t2, t3⟩
    have e := anchored h5
    have : resolveAnchor P.anchor P.direction = a := by
      generalize P.anchor = x at *; generalize P.direction = y at *
      cases ha <;> rfl
    rw [this] at e
    exact e
  · have := s3.sublist hsub
    rw [List.pairwise_map] at this
    exact this

/-- C291: a plot fails exactly if an axis is not accepted, or (unless all winds are missing) the style has no finite value or a start point
is outside the data. -/
theorem C291_errors (qs : List ℝ → List ℝ) (qsort : List Entry → List Entry) (P : Plot) :
    curly qs qsort P = none ↔ pyGrid P.x P.y P.nonUniform = none ∨ ∃ pg, pyGrid P.x P.y P.nonUniform = some pg ∧
      (∃ k < pg.grid.nx * pg.grid.ny, P.u k ≠ none ∧ P.v k ≠ none) ∧
      ((∃ f, P.style = some f ∧ ∀ k < pg.grid.nx * pg.grid.ny, f k = none) ∨
        ∃ l, P.starts = some l ∧ ∃ c ∈ l, c.1 < pg.grid.x0 ∨ pg.grid.x0 + pg.width < c.1 ∨ c.2 < pg.grid.y0 ∨ pg.grid.y0 + pg.height < c.2) := by
  have hnil : ∀ (f : ℕ → Option ℝ) n, finite f n = [] ↔ ∀ k < n, f k = none := by
    intro f n
    unfold finite
    rw [List.filterMap_eq_nil_iff]
    simp
  have hmag : ∀ k, P.mag k ≠ none ↔ P.u k ≠ none ∧ P.v k ≠ none := by
    intro k
    unfold Plot.mag
    rcases P.u k with _ | a <;> rcases P.v k with _ | b <;> simp
  unfold curly
  rcases hp : pyGrid P.x P.y P.nonUniform with _ | pg
  · simp
  simp only [Option.bind_some, reduceCtorEq, false_or, Option.some.injEq, exists_eq_left']
  set n := pg.grid.nx * pg.grid.ny with hn
  have hS : ∀ pg', (P.scene qs pg').pg = pg' := fun _ => rfl
  obtain ⟨st1, st2⟩ := C289_starts qsort (P.scene qs pg) P.ρx P.ρy P.minDistance P.profile
  rw [hS] at st2
  rcases hf : finite P.mag n with _ | ⟨m, ms⟩
  · simp only [reduceCtorEq, false_iff, not_and]
    rintro ⟨k, hk, h1, h2⟩
    exact absurd ((hnil _ _).1 hf k hk) ((hmag k).2 ⟨h1, h2⟩)
  · have hex : ∃ k < n, P.u k ≠ none ∧ P.v k ≠ none := by
      by_contra hne
      push Not at hne
      have : finite P.mag n = [] := (hnil _ _).2 fun k hk => by
        by_contra hk'
        obtain ⟨a, b⟩ := (hmag k).1 hk'
        exact b (hne k hk a)
      rw [this] at hf; cases hf
    simp only [hex, true_and]
    have hstyle : styleDefault P.style n = none ↔ ∃ f, P.style = some f ∧ ∀ k < n, f k = none := by
      unfold styleDefault
      rcases P.style with _ | f
      · simp
      · simp only [Option.some.injEq, exists_eq_left']
        rw [← hnil]
        split_ifs with hh <;> simp [hh]
    have hstart : selectCenters qsort (P.scene qs pg) P.ρx P.ρy P.minDistance P.profile P.starts = none ↔
        ∃ l, P.starts = some l ∧ ∃ c ∈ l, c.1 < pg.grid.x0 ∨ pg.grid.x0 + pg.width < c.1 ∨ c.2 < pg.grid.y0 ∨ pg.grid.y0 + pg.height < c.2 := by
      rcases P.starts with _ | l
      · simp [st1]
      · rw [st2]; simp
    rw [← hstyle, ← hstart]
    rcases styleDefault P.style n with _ | d
    · simp
    · simp

/-! ### Lengths -/

private theorem pos_linear {P : Plot} {g : Grid} {a b c d e f : ℝ} (hT : ∀ p q, P.T p = some q → q = (a + b * p.1 + c * p.2, d + e * p.1 + f * p.2))
    (qs : List ℝ → List ℝ) : LinearDisplay g (P.fields qs g) a b c d e f := by
  intro j hj i hi q h
  have h1 : (j * g.nx + i) / g.nx = j := by
    rw [mul_comm, Nat.mul_add_div (by omega), Nat.div_eq_of_lt hi, add_zero]
  have h2 : (j * g.nx + i) % g.nx = i := by rw [mul_comm, Nat.mul_add_mod, Nat.mod_eq_of_lt hi]
  have : P.T (g.x0 + (i : ℝ) * g.dx, g.y0 + (j : ℝ) * g.dy) = some q := by
    have h' : P.pos g (j * g.nx + i) = some q := h
    unfold Plot.pos at h'
    rwa [h1, h2] at h'
  exact hT _ _ this

private theorem pyGrid_pos {x y : List ℝ} {b : Bool} {pg : PGrid} (h : pyGrid x y b = some pg) : 0 < pg.grid.dx ∧ 0 < pg.grid.dy := by
  unfold pyGrid at h
  rcases ha : axis x b with _ | a
  · rw [ha] at h; cases h
  rcases hb : axis y b with _ | a'
  · rw [ha, hb] at h; cases h
  rw [ha, hb] at h
  cases h
  exact ⟨safe_pos _, safe_pos _⟩

/-- C292: with straight axes (or any affine map to the panel), no glyph is longer than the length belonging to its speed by more than one
step, that is by 1.5 pixels or 0.45 % of the width of the panel; `lo` and `hi` are the smallest and largest speed in the data. -/
theorem C292_lengths (qs : List ℝ → List ℝ) (qsort : List Entry → List Entry) (P : Plot) (gs : List Glyph) (h : curly qs qsort P = some gs)
    (a b c d e f : ℝ) (hT : ∀ p q, P.T p = some q → q = (a + b * p.1 + c * p.2, d + e * p.1 + f * p.2)) (G : Glyph) (hG : G ∈ gs) :
    ∃ pg lo hi, pyGrid P.x P.y P.nonUniform = some pg ∧
      (∃ k < pg.grid.nx * pg.grid.ny, P.mag k = some lo) ∧ (∃ k < pg.grid.nx * pg.grid.ny, P.mag k = some hi) ∧
      (∀ k < pg.grid.nx * pg.grid.ny, ∀ m, P.mag k = some m → lo ≤ m ∧ m ≤ hi) ∧
      arc (G.curve.map Prod.snd) ≤
        Length.glyphLength P.w P.h P.ρx P.ρy lo hi P.ref P.refLength P.minFrac G.mag + max (3 / 2) (P.w * (45 / 10000)) ∧
      G.head = glyphHead P.w P.arrowsize hi G.mag := by
  obtain ⟨pg, hp, rfl | ⟨m, ms, dflt, cs, hm, _, _, rfl⟩⟩ := curly_some h
  · cases hG
  obtain ⟨hdx, hdy⟩ := pyGrid_pos hp
  have hmem : ∀ r, r ∈ m :: ms ↔ ∃ k < pg.grid.nx * pg.grid.ny, P.mag k = some r := by
    intro r
    rw [← hm]; unfold finite
    rw [List.mem_filterMap]; simp
  have hmin : ∀ (l : List ℝ) (x : ℝ), l.foldl min x ∈ x :: l ∧ ∀ z ∈ x :: l, l.foldl min x ≤ z := by
    intro l
    induction l with
    | nil => intro x; simp
    | cons y l ih =>
      intro x
      rw [List.foldl_cons]
      obtain ⟨i1, i2⟩ := ih (min x y)
      constructor
      · rcases List.mem_cons.1 i1 with i1 | i1
        · rw [i1]; rcases min_choice x y with hh | hh <;> rw [hh] <;> simp
        · exact List.mem_cons_of_mem _ (List.mem_cons_of_mem _ i1)
      · intro z hz
        have i3 := i2 _ (List.mem_cons_self ..)
        rcases List.mem_cons.1 hz with rfl | hz
        · exact i3.trans (min_le_left _ _)
        rcases List.mem_cons.1 hz with rfl | hz
        · exact i3.trans (min_le_right _ _)
        · exact i2 _ (List.mem_cons_of_mem _ hz)
  have hmax : ∀ (l : List ℝ) (x : ℝ), l.foldl max x ∈ x :: l ∧ ∀ z ∈ x :: l, z ≤ l.foldl max x := by
    intro l
    induction l with
    | nil => intro x; simp
    | cons y l ih =>
      intro x
      rw [List.foldl_cons]
      obtain ⟨i1, i2⟩ := ih (max x y)
      constructor
      · rcases List.mem_cons.1 i1 with i1 | i1
        · rw [i1]; rcases max_choice x y with hh | hh <;> rw [hh] <;> simp
        · exact List.mem_cons_of_mem _ (List.mem_cons_of_mem _ i1)
      · intro z hz
        have i3 := i2 _ (List.mem_cons_self ..)
        rcases List.mem_cons.1 hz with rfl | hz
        · exact le_trans (le_max_left _ _) i3
        rcases List.mem_cons.1 hz with rfl | hz
        · exact le_trans (le_max_right _ _) i3
        · exact i2 _ (List.mem_cons_of_mem _ hz)
  obtain ⟨cc, hc, hcG⟩ := List.mem_filterMap.1 hG
  obtain ⟨h1, h2, h3, h4, h5⟩ := glyphAt_some hcG
  refine ⟨pg, ms.foldl min m, ms.foldl max m, hp, (hmem _).1 (hmin ms m).1, (hmem _).1 (hmax ms m).1, ?_, ?_, by rw [h3, h2]⟩
  · intro k hk r hr
    have := (hmem r).2 ⟨k, hk, hr⟩
    exact ⟨(hmin ms m).2 r this, (hmax ms m).2 r this⟩
  · rw [h2]
    exact bounded hdx hdy (pos_linear hT qs) (le_trans (by norm_num) (le_max_left _ _)) h5

/-! ### Style -/

private theorem blend_range {s t lo hi r : ℝ} (hs0 : 0 ≤ s) (hs1 : s ≤ 1) (ht0 : 0 ≤ t) (ht1 : t ≤ 1) {a b c d : Option ℝ}
    (ha : ∀ z, a = some z → lo ≤ z ∧ z ≤ hi) (hb : ∀ z, b = some z → lo ≤ z ∧ z ≤ hi) (hc : ∀ z, c = some z → lo ≤ z ∧ z ≤ hi)
    (hd : ∀ z, d = some z → lo ≤ z ∧ z ≤ hi) (h : blend s t a b c d = some r) : lo ≤ r ∧ r ≤ hi := by
  rcases a with _ | a
  · cases h
  rcases b with _ | b
  · cases h
  rcases c with _ | c
  · cases h
  rcases d with _ | d
  · cases h
  obtain ⟨a1, a2⟩ := ha a rfl
  obtain ⟨b1, b2⟩ := hb b rfl
  obtain ⟨c1, c2⟩ := hc c rfl
  obtain ⟨d1, d2⟩ := hd d rfl
  have e := Option.some.inj h
  rw [← e]
  have p1 : lo ≤ a * (1 - s) + b * s := by nlinarith
  have p2 : a * (1 - s) + b * s ≤ hi := by nlinarith
  have p3 : lo ≤ c * (1 - s) + d * s := by nlinarith
  have p4 : c * (1 - s) + d * s ≤ hi := by nlinarith
  constructor <;> nlinarith

private theorem sample_range {g : Grid} {f : ℕ → Option ℝ} {lo hi x y r : ℝ}
    (hf : ∀ k < g.nx * g.ny, ∀ z, f k = some z → lo ≤ z ∧ z ≤ hi) (h : sampleScalar g f x y = some r) : lo ≤ r ∧ r ≤ hi := by
  obtain ⟨f', hf'⟩ : ∃ f' : ℕ → Option ℝ, f' = fun k => if k < g.nx * g.ny then f k else none := ⟨_, rfl⟩
  have e := C268_bounds g f f' x y (fun k hk => by rw [hf']; simp [hk])
  rw [e] at h
  replace hf' : ∀ k z, f' k = some z → lo ≤ z ∧ z ≤ hi := by
    intro k z hz
    rw [hf'] at hz
    dsimp only at hz
    split_ifs at hz with hk
    exact hf k hk z hz
  unfold sampleScalar at h
  split_ifs at h with h1 h2
  obtain ⟨w1, w2, w3, w4⟩ := h2
  have fl : ∀ z : ℝ, 0 ≤ z → 0 ≤ z - (⌊z⌋₊ : ℝ) ∧ z - (⌊z⌋₊ : ℝ) ≤ 1 := by
    intro z hz
    have := Nat.floor_le hz
    have := (Nat.lt_floor_add_one z).le
    constructor <;> linarith
  exact blend_range (fl _ w1).1 (fl _ w1).2 (fl _ w3).1 (fl _ w3).2 (hf' _) (hf' _) (hf' _) (hf' _) h

/-- C293: line widths and colour values of the glyphs lie within the range of the field they come from (so a colour scale fitted to the field
covers them), every glyph of a plot with such a field has one, and it is the interpolated value wherever there is one. -/
theorem C293_style (qs : List ℝ → List ℝ) (qsort : List Entry → List Entry) (P : Plot) (gs : List Glyph) (h : curly qs qsort P = some gs)
    (f : ℕ → Option ℝ) (hf : P.style = some f) (pg : PGrid) (hp : pyGrid P.x P.y P.nonUniform = some pg) (lo hi : ℝ)
    (hr : ∀ k < pg.grid.nx * pg.grid.ny, ∀ z, f k = some z → lo ≤ z ∧ z ≤ hi) (G : Glyph) (hG : G ∈ gs) :
    ∃ z, G.style = some z ∧ lo ≤ z ∧ z ≤ hi ∧ ∀ s, sampleScalar pg.grid f G.center.1 G.center.2 = some s → z = s := by
  obtain ⟨pg', hp', rfl | ⟨m, ms, dflt, cs, _, hd, _, rfl⟩⟩ := curly_some h
  · cases hG
  rw [hp] at hp'; cases hp'
  obtain ⟨cc, hc, hcG⟩ := List.mem_filterMap.1 hG
  obtain ⟨h1, _, _, h4, _⟩ := glyphAt_some hcG
  rw [h4, h1, hf]
  unfold styleAt
  dsimp only
  rcases hs : sampleScalar pg.grid f cc.1.1 cc.1.2 with _ | z
  · dsimp only
    rw [hf] at hd
    unfold styleDefault at hd
    dsimp only at hd
    split_ifs at hd with hne
    cases hd
    set l := finite f (pg.grid.nx * pg.grid.ny) with hl
    have hmem : ∀ z ∈ l, lo ≤ z ∧ z ≤ hi := by
      intro z hz
      rw [hl] at hz; unfold finite at hz
      obtain ⟨k, hk, hkz⟩ := List.mem_filterMap.1 hz
      exact hr k (List.mem_range.1 hk) z hkz
    have hlen : (0 : ℝ) < l.length := by exact_mod_cast List.length_pos_iff.2 hne
    have s1 := List.card_nsmul_le_sum l lo fun z hz => (hmem z hz).1
    have s2 := List.sum_le_card_nsmul l hi fun z hz => (hmem z hz).2
    rw [nsmul_eq_mul] at s1 s2
    refine ⟨_, rfl, ?_, ?_, by simp⟩
    · rw [le_div_iff₀ hlen]; linarith
    · rw [div_le_iff₀ hlen]; linarith
  · dsimp only
    obtain ⟨r1, r2⟩ := sample_range hr hs
    exact ⟨z, rfl, r1, r2, by simp⟩

/-! ### Lines -/

private theorem two_filter {β : Type} (n : ℕ) (f : ℕ → List β) (j : ℕ) (hj : j < n) :
    ((List.range n).flatMap fun k => (f k).map fun b => (b, k)).filter (fun b => b.2 = j) = (f j).map fun b => (b, j) := by
  have key : ∀ n, ((List.range n).flatMap fun k => (f k).map fun b => (b, k)).filter (fun b => b.2 = j) =
      if j < n then (f j).map (fun b => (b, j)) else [] := by
    intro n
    induction n with
    | zero => simp
    | succ n ih =>
      rw [List.range_succ, List.flatMap_append, List.filter_append, ih]
      have e : (((f n).map fun b => (b, n)).filter fun b => b.2 = j) = if n = j then (f n).map (fun b => (b, n)) else [] := by
        split_ifs with hh
        · rw [List.filter_eq_self.2]; simp [hh]
        · rw [List.filter_eq_nil_iff.2]; simp [hh]
      rw [List.flatMap_singleton, e]
      rcases lt_trichotomy j n with hh | hh | hh
      · rw [if_pos hh, if_neg (by omega), if_pos (by omega), List.append_nil]
      · subst hh; simp
      · rw [if_neg (by omega), if_neg (by omega), if_neg (by omega)]; rfl
  rw [key, if_pos hj]

private theorem zipIdx_flatMap {α β : Type} (l : List α) (f : α → List β) (k : ℕ) : ((l.zipIdx k).flatMap fun s => f s.1) = l.flatMap f := by
  induction l generalizing k with
  | nil => rfl
  | cons a l ih => rw [List.zipIdx_cons, List.flatMap_cons, List.flatMap_cons, ih]

/-- C294: with affine axes and an inverse map that is defined everywhere, the lines handed to Matplotlib are, glyph by glyph, the shaft and
two barbs that both end in the last vertex of the glyph, all three with the style of the glyph. -/
theorem C294_lines (qs : List ℝ → List ℝ) (qsort : List Entry → List Entry) (P : Plot) (gs : List Glyph) (h : curly qs qsort P = some gs)
    (a b c d e f : ℝ) (hT : ∀ p q, P.T p = some q → q = (a + b * p.1 + c * p.2, d + e * p.1 + f * p.2)) (inv : ℝ × ℝ → ℝ × ℝ) :
    ∃ heads : Glyph → Head,
      (∀ G ∈ gs, openHead (G.curve.map Prod.snd) G.head.1 G.head.2 = some (heads G)) ∧
      openLines (fun p => some (inv p)) gs = some (gs.flatMap fun G =>
        [(.shaft (G.curve.map Prod.fst), G.style), (.barb (inv (heads G).left, inv (heads G).tip), G.style),
          (.barb (inv (heads G).right, inv (heads G).tip), G.style)]) := by
  have hex : ∀ G ∈ gs, openHead (G.curve.map Prod.snd) G.head.1 G.head.2 ≠ none := by
    obtain ⟨pg, hp, rfl | ⟨m, ms, dflt, cs, _, _, _, rfl⟩⟩ := curly_some h
    · simp
    intro G hG
    obtain ⟨hdx, hdy⟩ := pyGrid_pos hp
    obtain ⟨cc, hc, hcG⟩ := List.mem_filterMap.1 hG
    obtain ⟨_, _, h3, _, h5⟩ := glyphAt_some hcG
    rw [h3]
    exact (C279_drawn pg.grid _ a b c d e f hdx hdy (pos_linear hT qs) _ _ _ _ _ _ (buildCurve_pos h5) _ h5 _ _ _ _).1
  clear h
  refine ⟨fun G => (openHead (G.curve.map Prod.snd) G.head.1 G.head.2).getD ⟨(0, 0), (0, 0), (0, 0)⟩, ?_, ?_⟩
  · intro G hG
    rcases ho : openHead (G.curve.map Prod.snd) G.head.1 G.head.2 with _ | H
    · exact absurd ho (hex G hG)
    · dsimp only; rw [ho]; rfl
  set heads : Glyph → Head := fun G => (openHead (G.curve.map Prod.snd) G.head.1 G.head.2).getD ⟨(0, 0), (0, 0), (0, 0)⟩ with hh
  have hsome : ∀ G ∈ gs, openHead (G.curve.map Prod.snd) G.head.1 G.head.2 = some (heads G) := by
    intro G hG
    rcases ho : openHead (G.curve.map Prod.snd) G.head.1 G.head.2 with _ | H
    · exact absurd ho (hex G hG)
    · rw [hh]; dsimp only; rw [ho]; rfl
  clear_value heads
  unfold openLines
  rw [(C281_batch _ _ _ _ (by simp) (by simp)).1, Option.bind_some]
  let d0 : Glyph := ⟨(0, 0), 0, [], (0, 0), none⟩
  set barbs : ℕ → List Barb := fun k => [(inv (heads (gs.getD k d0)).left, inv (heads (gs.getD k d0)).tip),
    (inv (heads (gs.getD k d0)).right, inv (heads (gs.getD k d0)).tip)] with hbarbs
  rw [List.length_map]
  have hb : ((List.range gs.length).flatMap fun k =>
      match headFor openHead ((gs.map fun G => G.curve.map fun p => (some p.2.1, some p.2.2)).getD k []) ((gs.map fun G => G.head.1).getD k 0)
        ((gs.map fun G => G.head.2).getD k 0) with
      | none => []
      | some h => ([(h.left, h.tip), (h.right, h.tip)] : List Barb).filterMap fun s =>
          (some (inv s.1)).bind fun p => (some (inv s.2)).map fun q => ((p, q), k)) =
      (List.range gs.length).flatMap fun k => (barbs k).map fun b => (b, k) := by
    refine List.flatMap_congr fun k hk => ?_
    have hk : k < gs.length := List.mem_range.1 hk
    have hg : gs.getD k d0 = gs[k] := by rw [List.getD_eq_getElem?_getD, List.getElem?_eq_getElem hk, Option.getD_some]
    have e1 : (gs.map fun G => G.curve.map fun p => ((some p.2.1, some p.2.2) : RawPt)).getD k [] = gs[k].curve.map fun p => (some p.2.1, some p.2.2) := by
      rw [List.getD_eq_getElem?_getD, List.getElem?_map, List.getElem?_eq_getElem hk]; rfl
    have e2 : (gs.map fun G => G.head.1).getD k 0 = gs[k].head.1 := by
      rw [List.getD_eq_getElem?_getD, List.getElem?_map, List.getElem?_eq_getElem hk]; rfl
    have e3 : (gs.map fun G => G.head.2).getD k 0 = gs[k].head.2 := by
      rw [List.getD_eq_getElem?_getD, List.getElem?_map, List.getElem?_eq_getElem hk]; rfl
    rw [e1, e2, e3]
    have e4 : headFor openHead (gs[k].curve.map fun p => (some p.2.1, some p.2.2)) gs[k].head.1 gs[k].head.2 = some (heads gs[k]) := by
      unfold headFor
      have : collect ((gs[k].curve.map fun p => ((some p.2.1, some p.2.2) : RawPt)).map finitePt) = some (gs[k].curve.map Prod.snd) := by
        rw [collect_eq_some, List.map_map, List.map_map]
        exact List.map_congr_left fun p _ => rfl
      rw [this, Option.bind_some]
      exact hsome _ (List.getElem_mem hk)
    rw [e4]
    simp only [hbarbs, hg]
    rfl
  refine (congrArg (assemble _) hb).trans ?_
  rw [(C282_assemble _ _).1]
  · congr 1
    rw [List.zipIdx_map, List.flatMap_map]
    rw [← zipIdx_flatMap gs _ 0]
    refine List.flatMap_congr fun s hs => ?_
    obtain ⟨_, hlt, hval⟩ := List.mem_zipIdx hs
    simp only [Nat.zero_add] at hlt
    have hg : gs.getD s.2 d0 = s.1 := by
      rw [List.getD_eq_getElem?_getD, List.getElem?_eq_getElem hlt, Option.getD_some, hval]; simp
    dsimp only [Prod.map]
    simp only [id]
    rw [two_filter gs.length barbs s.2 hlt]
    simp only [hbarbs, hg]
    rfl
  · intro bb hbb
    rw [List.mem_flatMap] at hbb
    obtain ⟨k, hk, hbb⟩ := hbb
    obtain ⟨_, _, rfl⟩ := List.mem_map.1 hbb
    simpa using List.mem_range.1 hk

end Skyborn.Plot.Curly
