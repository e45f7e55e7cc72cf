/-
Where curly-vector glyphs are placed: the plotting grid, the candidate points, and the points chosen among them.
Modelled: plot/_core/vector_engine.py:203-262, 368-492; plot/_core/thinning.py:23-40, 112-132; plot/_core/geometry.py:182-186;
plot/nclcurly_core/_ncl_curly_core.c:1594-1862 (without derivatives).
-/
import Verif.Plot.CellValid
import Verif.Plot.Thin

namespace Skyborn.Plot.Curly

open Skyborn.Plot

/-! ## The plotting grid -/

open Classical in
/-- plot/_core/vector_engine.py:206-262 `Grid.__init__` for one axis given as a vector: origin, spacing and width; `none`: `ValueError`.
The order of the tests is not kept (all raise the same error). -/
noncomputable def axis (x : List ℝ) (nonUniform : Bool) : Option (ℝ × ℝ × ℝ) :=
  if ¬ ∀ i < x.length - 1, 0 < x.getD (i + 1) 0 - x.getD i 0 then none
  else if x.length < 2 then none
  else
    let width := x.getD (x.length - 1) 0 - x.getD 0 0
    let mean := width / ((x.length - 1 : ℕ) : ℝ)
    if nonUniform then some (x.getD 0 0, mean, width)
    else if ¬ ∀ i < x.length - 1, |x.getD (i + 1) 0 - x.getD i 0 - mean| ≤ 1 / 10 ^ 8 + 1 / 10 ^ 5 * |mean| then none
    else some (x.getD 0 0, x.getD 1 0 - x.getD 0 0, width)

/-- The grid of a plot: the grid of the native code and the two extents of vector_engine.py:245-246. -/
structure PGrid where
  /-- as the native code sees it -/ grid : Grid
  /-- `width` -/ width : ℝ
  /-- `height` -/ height : ℝ

/-- plot/_core/vector_engine.py:206-262 `Grid.__init__`; `x` and `y` are vectors (tables are not modelled). -/
noncomputable def pyGrid (x y : List ℝ) (nonUniform : Bool) : Option PGrid :=
  (axis x nonUniform).bind fun a => (axis y nonUniform).map fun b =>
    ⟨mkGrid x.length y.length a.1 b.1 a.2.1 b.2.1, a.2.2, b.2.2⟩

/-! ## Candidates -/

/-- plot/_core/vector_engine.py:448-452 `_default_ncl_candidate_shape`, one axis of `n` nodes. -/
noncomputable def candCount (n : ℕ) (density : ℝ) : ℕ := min (n - 1) (max ⌈30 * max density (1 / 10)⌉.toNat 1)

/-- plot/_core/vector_engine.py:461-473: positions along one axis; `full`: one per cell. `np.linspace` in exact arithmetic. -/
noncomputable def candAxis (full : Bool) (count : ℕ) (x0 dx width : ℝ) : List ℝ :=
  if full then (List.range count).map fun i : ℕ => x0 + ((i : ℝ) + 1 / 2) * dx
  else (List.range count).map fun i : ℕ =>
    1 / 2 * ((x0 + width * (i : ℝ) / count) + (x0 + width * ((i : ℝ) + 1) / count))

/-- plot/_core/vector_engine.py:455-475 `_default_ncl_box_center_candidates`. -/
noncomputable def defaultCands (pg : PGrid) (densityX densityY : ℝ) : List (ℝ × ℝ) :=
  if pg.grid.nx < 2 ∨ pg.grid.ny < 2 then []
  else
    let cx := candCount pg.grid.nx densityX
    let cy := candCount pg.grid.ny densityY
    let full : Bool := decide (cx = pg.grid.nx - 1 ∧ cy = pg.grid.ny - 1)
    (candAxis full cy pg.grid.y0 pg.grid.dy pg.height).flatMap fun y =>
      (candAxis full cx pg.grid.x0 pg.grid.dx pg.width).map fun x => (x, y)

open Classical in
/-- plot/nclcurly_core/_ncl_curly_core.c:1594-1862 `sample_display_grid` without derivatives: position on the panel of one point. -/
noncomputable def sampleDisplay (g : Grid) (valid : ℕ → Bool) (disp : ℕ → Option (ℝ × ℝ)) (x y : ℝ) : Option (ℝ × ℝ) :=
  if g.nx < 2 ∨ g.ny < 2 then none
  else if ¬ g.within x y then none
  else
    let ix := cell (g.xi x) g.nx
    let iy := cell (g.yi y) g.ny
    if valid (iy * (g.nx - 1) + ix) = false then none
    else
      let s := g.xi x - ix
      let t := g.yi y - iy
      match disp (iy * g.nx + ix), disp (iy * g.nx + ix + 1), disp ((iy + 1) * g.nx + ix), disp ((iy + 1) * g.nx + ix + 1) with
      | some p00, some p01, some p10, some p11 =>
        some (p00.1 * (1 - s) * (1 - t) + p01.1 * s * (1 - t) + p10.1 * (1 - s) * t + p11.1 * s * t,
          p00.2 * (1 - s) * (1 - t) + p01.2 * s * (1 - t) + p10.2 * (1 - s) * t + p11.2 * s * t)
      | _, _, _, _ => none

/-- plot/_core/geometry.py:182-186 `_point_within_grid_data`. -/
def PGrid.holds (pg : PGrid) (p : ℝ × ℝ) : Prop :=
  (pg.grid.x0 ≤ p.1 ∧ p.1 ≤ pg.grid.x0 + pg.width) ∧ pg.grid.y0 ≤ p.2 ∧ p.2 ≤ pg.grid.y0 + pg.height

/-- plot/_core/thinning.py:23-40 `_resolve_ncl_min_distance_fraction`; `profile`: the preset is one of the profile presets. -/
noncomputable def spacingFrac (densityX densityY : ℝ) (minDistance : Option ℝ) (profile : Bool) : ℝ :=
  match minDistance with
  | some d => max d (1 / 10 ^ 6)
  | none =>
    let s := 9 / 10 / (30 * ((max densityX (1 / 10) + max densityY (1 / 10)) / 2))
    if profile then s * (6 / 10) else s

/-- What a plot needs to place its glyphs: the panel, the positions and values at the nodes, the cells that may be used. -/
structure Scene where
  /-- grid -/ pg : PGrid
  /-- left side of the panel -/ vx0 : ℝ
  /-- lower side of the panel -/ vy0 : ℝ
  /-- width of the panel -/ vw : ℝ
  /-- height of the panel -/ vh : ℝ
  /-- wind speed at the nodes -/ mag : ℕ → Option ℝ
  /-- positions of the nodes on the panel -/ disp : ℕ → Option (ℝ × ℝ)
  /-- usable cells -/ valid : ℕ → Bool

/-- One candidate with its position on the panel and its wind speed. -/
abbrev Cand := (ℝ × ℝ) × (ℝ × ℝ) × ℝ

open Classical in
/-- plot/_core/vector_engine.py:383-403, 478-492: the candidates that have a position, a value and lie within the data. -/
noncomputable def usableCands (S : Scene) (cands : List (ℝ × ℝ)) : List Cand :=
  cands.filterMap fun c =>
    match sampleDisplay S.pg.grid S.valid S.disp c.1 c.2, sampleScalar S.pg.grid S.mag c.1 c.2 with
    | some p, some m => if S.pg.holds c then some (c, p, m) else none
    | _, _ => none

/-- plot/_core/vector_engine.py:405-420: thinning on the panel. -/
noncomputable def thinCands (qsort : List Entry → List Entry) (S : Scene) (frac : ℝ) (l : List Cand) : List ((ℝ × ℝ) × ℝ) :=
  (thinDisplay qsort (fun i => ⟨(l.getD i ((0, 0), (0, 0), 0)).2.1.1, (l.getD i ((0, 0), (0, 0), 0)).2.1.2⟩) l.length
    S.vx0 S.vy0 S.vw S.vh frac).map fun i => ((l.getD i ((0, 0), (0, 0), 0)).1, (l.getD i ((0, 0), (0, 0), 0)).2.2)

open Classical in
/-- plot/_core/vector_engine.py:368-420 `_select_ncl_centers`: chosen points and their wind speeds; `none`: `ValueError` (a start
point outside the data). The display map is sampled on the grid (the fallback without a sampler is not modelled). -/
noncomputable def selectCenters (qsort : List Entry → List Entry) (S : Scene) (densityX densityY : ℝ) (minDistance : Option ℝ)
    (profile : Bool) (starts : Option (List (ℝ × ℝ))) : Option (List ((ℝ × ℝ) × ℝ)) :=
  let cands := starts.getD (defaultCands S.pg densityX densityY)
  if starts ≠ none ∧ ∃ c ∈ cands, ¬ S.pg.holds c then none
  else some (thinCands qsort S (spacingFrac densityX densityY minDistance profile) (usableCands S cands))

/-! ## The axes -/

/-- C286, expected: a grid is accepted only if its columns are equally far apart, up to one part in a thousand. -/
def C286_statement : Prop :=
  ∀ (x : List ℝ) (a : ℝ × ℝ × ℝ), axis x false = some a → ∀ i < x.length, |x.getD i 0 - (a.1 + i * a.2.1)| ≤ i * (a.2.1 / 1000)

private theorem axis_some {x : List ℝ} {a : ℝ × ℝ × ℝ} (h : axis x false = some a) :
    (∀ i < x.length - 1, 0 < x.getD (i + 1) 0 - x.getD i 0) ∧ 2 ≤ x.length ∧ a.1 = x.getD 0 0 ∧ a.2.1 = x.getD 1 0 - x.getD 0 0 ∧
      a.2.2 = x.getD (x.length - 1) 0 - x.getD 0 0 ∧
      ∀ i < x.length - 1, |x.getD (i + 1) 0 - x.getD i 0 - a.2.2 / ((x.length - 1 : ℕ) : ℝ)| ≤
        1 / 10 ^ 8 + 1 / 10 ^ 5 * |a.2.2 / ((x.length - 1 : ℕ) : ℝ)| := by
  unfold axis at h
  by_cases h1 : ∀ i < x.length - 1, 0 < x.getD (i + 1) 0 - x.getD i 0
  swap
  · rw [if_pos h1] at h; cases h
  rw [if_neg (not_not.2 h1)] at h
  by_cases h2 : x.length < 2
  · rw [if_pos h2] at h; cases h
  rw [if_neg h2] at h
  dsimp only at h
  rw [if_neg (by simp)] at h
  by_cases h3 : ∀ i < x.length - 1, |x.getD (i + 1) 0 - x.getD i 0 - (x.getD (x.length - 1) 0 - x.getD 0 0) / ((x.length - 1 : ℕ) : ℝ)| ≤
      1 / 10 ^ 8 + 1 / 10 ^ 5 * |(x.getD (x.length - 1) 0 - x.getD 0 0) / ((x.length - 1 : ℕ) : ℝ)|
  swap
  · rw [if_pos h3] at h; cases h
  rw [if_neg (not_not.2 h3)] at h
  obtain rfl := Option.some.inj h
  exact ⟨h1, by omega, rfl, rfl, rfl, h3⟩

/-- C286, the part that holds: an accepted axis has at least two values, strictly increasing, and column `i` is drawn within
`2 i (1e-8 + 1e-5 d)` of its coordinate, `d` the mean spacing. Missing: a tolerance relative to the spacing (see `C286_false`). -/
theorem C286_partial (x : List ℝ) (a : ℝ × ℝ × ℝ) (h : axis x false = some a) :
    2 ≤ x.length ∧ (∀ i < x.length - 1, x.getD i 0 < x.getD (i + 1) 0) ∧ a.1 = x.getD 0 0 ∧ 0 < a.2.1 ∧
      a.1 + a.2.2 = x.getD (x.length - 1) 0 ∧
      ∀ i < x.length, |x.getD i 0 - (a.1 + i * a.2.1)| ≤ i * (2 * (1 / 10 ^ 8 + 1 / 10 ^ 5 * (a.2.2 / ((x.length - 1 : ℕ) : ℝ)))) := by
  obtain ⟨h1, h2, h3, h4, h5, h6⟩ := axis_some h
  have hpos : 0 < a.2.1 := by rw [h4]; exact h1 0 (by omega)
  have hw : 0 ≤ a.2.2 / ((x.length - 1 : ℕ) : ℝ) := by
    refine div_nonneg ?_ (Nat.cast_nonneg _)
    rw [h5]
    have : ∀ k, k ≤ x.length - 1 → x.getD 0 0 ≤ x.getD k 0 := by
      intro k
      induction k with
      | zero => intro _; exact le_rfl
      | succ k ih => intro hk; have := h1 k (by omega); have := ih (by omega); linarith
    linarith [this _ le_rfl]
  rw [abs_of_nonneg hw] at h6
  refine ⟨h2, fun i hi => by linarith [h1 i hi], h3, hpos, by rw [h3, h5]; ring, ?_⟩
  generalize a.2.2 / ((x.length - 1 : ℕ) : ℝ) = w at *
  intro i
  induction i with
  | zero => intro _; rw [h3]; simp
  | succ i ih =>
    intro hi
    have hi' := ih (by omega)
    have e1 := h6 i (by omega)
    have e2 := h6 0 (by omega)
    rw [zero_add, ← h4] at e2
    rw [abs_le] at *
    push_cast
    constructor <;> nlinarith

/-- C286: an equally spaced axis is accepted, and drawn where its coordinates are. -/
theorem C286_uniform (x : List ℝ) (o d : ℝ) (hd : 0 < d) (h2 : 2 ≤ x.length) (hx : ∀ i < x.length, x.getD i 0 = o + i * d) (b : Bool) :
    axis x b = some (o, d, ((x.length - 1 : ℕ) : ℝ) * d) := by
  have hdiff : ∀ i < x.length - 1, x.getD (i + 1) 0 - x.getD i 0 = d := by
    intro i hi
    rw [hx i (by omega), hx (i + 1) (by omega)]; push_cast; ring
  have hn : ((x.length - 1 : ℕ) : ℝ) ≠ 0 := by
    have : x.length - 1 ≠ 0 := by omega
    exact_mod_cast this
  have e0 : x.getD 0 0 = o := by rw [hx 0 (by omega)]; simp
  have ew : x.getD (x.length - 1) 0 - x.getD 0 0 = ((x.length - 1 : ℕ) : ℝ) * d := by rw [e0, hx _ (by omega)]; ring
  have em : ((x.length - 1 : ℕ) : ℝ) * d / ((x.length - 1 : ℕ) : ℝ) = d := by field_simp
  unfold axis
  rw [if_neg (not_not.2 fun i hi => by rw [hdiff i hi]; exact hd), if_neg (by omega)]
  dsimp only
  rw [ew, em, e0]
  cases b with
  | true => rw [if_pos rfl]
  | false =>
    rw [if_neg (by simp), if_neg (not_not.2 fun i hi => by rw [hdiff i hi, sub_self, abs_zero]; positivity)]
    have := hdiff 0 (by omega)
    rw [zero_add, e0] at this
    rw [this]

/-- C286 is false: with coordinates of a few nanometres the absolute tolerance accepts any spacing. -/
theorem C286_false : ¬ C286_statement := by
  intro H
  have := H [0, 1 / 10 ^ 9, 1 / 10 ^ 8] (0, 1 / 10 ^ 9, 1 / 10 ^ 8) (by
    unfold axis
    rw [if_neg, if_neg (by simp)]
    · dsimp only
      rw [if_neg (by simp), if_neg]
      · norm_num
      · rw [not_not]
        intro i hi
        have : i = 0 ∨ i = 1 := by simp at hi; omega
        rcases this with rfl | rfl <;> norm_num [abs_le]
    · rw [not_not]
      intro i hi
      have : i = 0 ∨ i = 1 := by simp at hi; omega
      rcases this with rfl | rfl <;> norm_num) 2 (by simp)
  norm_num [abs_le] at this

/-! ## The candidates -/

private theorem candAxis_eq (full : Bool) (count : ℕ) (x0 dx width : ℝ) (h : full = true → width = count * dx) (hc : 0 < count) :
    candAxis full count x0 dx width = (List.range count).map fun i : ℕ => x0 + width * ((i : ℝ) + 1 / 2) / count := by
  have hc' : (count : ℝ) ≠ 0 := by exact_mod_cast hc.ne'
  unfold candAxis
  cases full with
  | true =>
    rw [if_pos rfl, h rfl]
    refine List.map_congr_left fun i _ => ?_
    field_simp
  | false =>
    rw [if_neg (by simp)]
    refine List.map_congr_left fun i _ => ?_
    field_simp; ring

private theorem flat_get {α β γ : Type*} (f : β → α → γ) (ys : List β) (xs : List α) (k : ℕ) (hx : 0 < xs.length) :
    (ys.flatMap fun y => xs.map fun x => f y x)[k]? = ys[k / xs.length]?.bind fun y => xs[k % xs.length]?.map fun x => f y x := by
  induction ys generalizing k with
  | nil => simp
  | cons y ys ih =>
    rw [List.flatMap_cons]
    by_cases hk : k < xs.length
    · rw [List.getElem?_append_left (by simpa using hk), Nat.div_eq_of_lt hk, Nat.mod_eq_of_lt hk]
      simp
    · rw [List.getElem?_append_right (by simpa using hk), List.length_map, ih]
      have e1 : k / xs.length = (k - xs.length) / xs.length + 1 := by
        rw [Nat.div_eq k, if_pos ⟨hx, by omega⟩]
      have e2 : k % xs.length = (k - xs.length) % xs.length := by
        rw [Nat.mod_eq k, if_pos ⟨hx, by omega⟩]
      rw [e1, e2, List.getElem?_cons_succ]

theorem candCount_pos {n : ℕ} (hn : 2 ≤ n) (ρ : ℝ) : 0 < candCount n ρ := by
  unfold candCount
  exact lt_min (by omega) (lt_of_lt_of_le one_pos (le_max_right _ _))

/-- C287: without start points, the candidates are the centres of `cx · cy` equal boxes that tile the data, row after row from the
south-west corner; there are 30 boxes per unit of density along each axis (rounded up), but never more than cells. -/
theorem C287_boxes (pg : PGrid) (ρx ρy : ℝ) (hx : 2 ≤ pg.grid.nx) (hy : 2 ≤ pg.grid.ny)
    (hw : pg.width = ((pg.grid.nx - 1 : ℕ) : ℝ) * pg.grid.dx) (hh : pg.height = ((pg.grid.ny - 1 : ℕ) : ℝ) * pg.grid.dy) :
    ∃ cx cy : ℕ, 0 < cx ∧ 0 < cy ∧ cx ≤ pg.grid.nx - 1 ∧ cy ≤ pg.grid.ny - 1 ∧
      (cx < pg.grid.nx - 1 → (cx : ℤ) = ⌈30 * max ρx (1 / 10)⌉) ∧ (cy < pg.grid.ny - 1 → (cy : ℤ) = ⌈30 * max ρy (1 / 10)⌉) ∧
      (cx : ℤ) ≤ ⌈30 * max ρx (1 / 10)⌉ ∧ (cy : ℤ) ≤ ⌈30 * max ρy (1 / 10)⌉ ∧
      (defaultCands pg ρx ρy).length = cx * cy ∧
      ∀ k < cx * cy, (defaultCands pg ρx ρy)[k]? = some (pg.grid.x0 + pg.width * (((k % cx : ℕ) : ℝ) + 1 / 2) / cx,
        pg.grid.y0 + pg.height * (((k / cx : ℕ) : ℝ) + 1 / 2) / cy) := by
  have hceil : ∀ ρ : ℝ, 1 ≤ ⌈30 * max ρ (1 / 10)⌉ := by
    intro ρ
    have : (1 : ℝ) / 10 ≤ max ρ (1 / 10) := le_max_right _ _
    exact Int.one_le_ceil_iff.2 (by linarith)
  have hcnt : ∀ n ρ, (candCount n ρ : ℕ) = min (n - 1) ⌈30 * max ρ (1 / 10)⌉.toNat := by
    intro n ρ
    have := hceil ρ
    unfold candCount
    rw [max_eq_left (by omega)]
  have hcx := candCount_pos hx ρx
  have hcy := candCount_pos hy ρy
  have e : defaultCands pg ρx ρy = ((List.range (candCount pg.grid.ny ρy)).map fun i : ℕ =>
      pg.grid.y0 + pg.height * ((i : ℝ) + 1 / 2) / candCount pg.grid.ny ρy).flatMap fun y =>
      ((List.range (candCount pg.grid.nx ρx)).map fun i : ℕ =>
        pg.grid.x0 + pg.width * ((i : ℝ) + 1 / 2) / candCount pg.grid.nx ρx).map fun x => (x, y) := by
    unfold defaultCands
    rw [if_neg (by omega)]
    dsimp only
    rw [candAxis_eq _ _ _ _ _ _ hcx, candAxis_eq _ _ _ _ _ _ hcy]
    · intro hf; rw [decide_eq_true_eq] at hf; rw [hf.2, hh]
    · intro hf; rw [decide_eq_true_eq] at hf; rw [hf.1, hw]
  refine ⟨candCount pg.grid.nx ρx, candCount pg.grid.ny ρy, hcx, hcy, min_le_left _ _, min_le_left _ _, ?_, ?_, ?_, ?_, ?_, ?_⟩
  · intro h; have := hceil ρx; rw [hcnt] at h ⊢; omega
  · intro h; have := hceil ρy; rw [hcnt] at h ⊢; omega
  · have := hceil ρx; rw [hcnt]; omega
  · have := hceil ρy; rw [hcnt]; omega
  · rw [e, List.length_flatMap]
    simp only [List.length_map, List.length_range, List.map_map, Function.comp_def, List.map_const', List.sum_replicate, smul_eq_mul]
    exact mul_comm _ _
  · intro k hk
    rw [e, flat_get (fun y x => (x, y)) _ _ _ (by simpa using hcx)]
    have h1 : k % candCount pg.grid.nx ρx < candCount pg.grid.nx ρx := Nat.mod_lt _ hcx
    have h2 : k / candCount pg.grid.nx ρx < candCount pg.grid.ny ρy := Nat.div_lt_of_lt_mul hk
    simp [h1, h2]

/-! ## The chosen points -/

/-- Position of a point on the panel. -/
noncomputable def Spec.pos (S : Scene) (c : ℝ × ℝ) : Option (ℝ × ℝ) := sampleDisplay S.pg.grid S.valid S.disp c.1 c.2

/-- Wind speed at a point. -/
noncomputable def Spec.speed (S : Scene) (c : ℝ × ℝ) : Option ℝ := sampleScalar S.pg.grid S.mag c.1 c.2

/-- Square of the distance of two positions, in fractions of the panel. -/
noncomputable def Spec.far2 (S : Scene) (p q : ℝ × ℝ) : ℝ :=
  ((p.1 - q.1) / max S.vw 1) ^ 2 + ((p.2 - q.2) / max S.vh 1) ^ 2

private theorem idx_sublist {β : Type*} (l : List β) (d : β) : ∀ (idx : List ℕ) (k : ℕ), idx.Pairwise (· < ·) → (∀ i ∈ idx, k ≤ i ∧ i < l.length) →
    (idx.map fun i => l.getD i d).Sublist (l.drop k)
  | [], _, _, _ => List.nil_sublist _
  | i :: idx, k, hp, hr => by
    rw [List.pairwise_cons] at hp
    obtain ⟨hk, hi⟩ := hr i (List.mem_cons_self ..)
    have ih := idx_sublist l d idx (i + 1) hp.2 fun j hj => ⟨hp.1 j hj, (hr j (List.mem_cons_of_mem _ hj)).2⟩
    have e : l.drop i = l.getD i d :: l.drop (i + 1) := by
      rw [List.getD_eq_getElem?_getD, List.getElem?_eq_getElem hi, Option.getD_some]
      exact List.drop_eq_getElem_cons hi
    refine List.Sublist.trans ?_ (List.drop_sublist_drop_left l hk)
    rw [e, List.map_cons]
    exact ih.cons_cons _

private theorem usable_mem {S : Scene} {cands : List (ℝ × ℝ)} {c : ℝ × ℝ} {p : ℝ × ℝ} {m : ℝ} :
    (c, p, m) ∈ usableCands S cands ↔ c ∈ cands ∧ Spec.pos S c = some p ∧ Spec.speed S c = some m ∧ S.pg.holds c := by
  unfold usableCands Spec.pos Spec.speed
  rw [List.mem_filterMap]
  constructor
  · rintro ⟨a, ha, h⟩
    split at h
    · rename_i p' m' h1 h2
      split_ifs at h with h3
      simp only [Option.some.injEq, Prod.mk.injEq] at h
      obtain ⟨rfl, rfl, rfl⟩ := h
      exact ⟨ha, h1, h2, h3⟩
    · cases h
  · rintro ⟨h1, h2, h3, h4⟩
    exact ⟨c, h1, by rw [h2, h3]; simp [h4]⟩

private theorem usable_fst {S : Scene} {cands : List (ℝ × ℝ)} : ((usableCands S cands).map Prod.fst).Sublist cands := by
  unfold usableCands
  induction cands with
  | nil => simp
  | cons c cands ih =>
    rw [List.filterMap_cons]
    split
    · exact ih.cons _
    · rename_i b hb
      have : b.1 = c := by
        split at hb
        · split_ifs at hb
          cases hb; rfl
        · cases hb
      rw [List.map_cons, this]
      exact ih.cons_cons _

/-- The least spacing of the glyphs, in parts of the panel (plot/_core/thinning.py:23-40): the distance asked for; without one, 3 % of the
panel divided by the mean density, and 1.8 % divided by it for profiles. -/
noncomputable def Spec.spacing (ρx ρy : ℝ) (asked : Option ℝ) (profile : Bool) : ℝ :=
  max (asked.getD ((if profile then 18 / 1000 else 3 / 100) / ((max ρx (1 / 10) + max ρy (1 / 10)) / 2))) (1 / 10 ^ 6)

private theorem spacing_eq (ρx ρy : ℝ) (asked : Option ℝ) (profile : Bool) :
    max (spacingFrac ρx ρy asked profile) (1 / 10 ^ 6) = Spec.spacing ρx ρy asked profile := by
  have : 0 < (max ρx (1 / 10) + max ρy (1 / 10)) / 2 := by
    have h1 := le_max_right ρx (1 / 10 : ℝ)
    have h2 := le_max_right ρy (1 / 10 : ℝ)
    linarith
  unfold spacingFrac Spec.spacing
  generalize (max ρx (1 / 10) + max ρy (1 / 10)) / 2 = D at *
  cases asked with
  | some d => simp
  | none =>
    dsimp only [Option.getD_none]
    congr 1
    cases profile
    · simp only [Bool.false_eq_true, if_false]; field_simp; norm_num
    · simp only [if_true]; field_simp; norm_num

/-- C288: whatever the candidates (boxes or start points), data, panel and spacing: the chosen points are candidates in their
order, lie within the data, have a position on the panel, and come with the wind speed interpolated there; no two are closer on
the panel than the spacing; and a candidate with position and speed is left out only if a chosen one is closer than that. -/
theorem C288_centers (qsort : List Entry → List Entry) (hq : IsQsort qsort) (S : Scene) (ρx ρy : ℝ) (minDistance : Option ℝ) (profile : Bool)
    (starts : Option (List (ℝ × ℝ))) (out : List ((ℝ × ℝ) × ℝ)) (h : selectCenters qsort S ρx ρy minDistance profile starts = some out) :
    (out.map Prod.fst).Sublist (starts.getD (defaultCands S.pg ρx ρy)) ∧
    (∀ a ∈ out, S.pg.holds a.1 ∧ Spec.speed S a.1 = some a.2 ∧ ∃ p, Spec.pos S a.1 = some p) ∧
    out.Pairwise (fun a b => ∀ p q, Spec.pos S a.1 = some p → Spec.pos S b.1 = some q →
      (Spec.spacing ρx ρy minDistance profile) ^ 2 ≤ Spec.far2 S p q) ∧
    ∀ c ∈ starts.getD (defaultCands S.pg ρx ρy), ∀ q m, S.pg.holds c → Spec.pos S c = some q → Spec.speed S c = some m →
      (c, m) ∈ out ∨ ∃ a ∈ out, ∃ p, Spec.pos S a.1 = some p ∧
        Spec.far2 S p q < (Spec.spacing ρx ρy minDistance profile) ^ 2 := by
  rw [← spacing_eq]
  unfold selectCenters at h
  dsimp only at h
  generalize starts.getD (defaultCands S.pg ρx ρy) = cands at *
  split_ifs at h
  obtain rfl := Option.some.inj h
  set l := usableCands S cands with hl
  set d : Cand := ((0, 0), (0, 0), 0) with hd
  set pts : ℕ → Pt ℝ := fun i => ⟨(l.getD i d).2.1.1, (l.getD i d).2.1.2⟩ with hpts
  set f := spacingFrac ρx ρy minDistance profile with hf
  have e6 : (1 : ℝ) / 10 ^ 6 = 1 / 1000000 := by norm_num
  obtain ⟨s1, s2⟩ := C246_spacing qsort hq pts l.length S.vx0 S.vy0 S.vw S.vh f
  obtain ⟨m1, _⟩ := C247_maximal qsort hq pts l.length S.vx0 S.vy0 S.vw S.vh f
  have hout : thinCands qsort S f l = (thinDisplay qsort pts l.length S.vx0 S.vy0 S.vw S.vh f).map fun i => ((l.getD i d).1, (l.getD i d).2.2) := rfl
  rw [hout, e6]
  generalize thinDisplay qsort pts l.length S.vx0 S.vy0 S.vw S.vh f = idx at *
  have hget : ∀ i < l.length, l.getD i d ∈ l := by
    intro i hi
    rw [List.getD_eq_getElem?_getD, List.getElem?_eq_getElem hi, Option.getD_some]
    exact List.getElem_mem hi
  have hmem : ∀ i < l.length, (l.getD i d).1 ∈ cands ∧ Spec.pos S (l.getD i d).1 = some (l.getD i d).2.1 ∧
      Spec.speed S (l.getD i d).1 = some (l.getD i d).2.2 ∧ S.pg.holds (l.getD i d).1 := fun i hi => usable_mem.1 (hget i hi)
  have hdist : ∀ i j, Spec.dist2 S.vw S.vh (pts i) (pts j) = Spec.far2 S (l.getD i d).2.1 (l.getD j d).2.1 := fun i j => rfl
  refine ⟨?_, ?_, ?_, ?_⟩
  · rw [List.map_map]
    have h1 := idx_sublist l d idx 0 (s1.imp fun h => h.1) fun i hi => ⟨Nat.zero_le _, s2 i hi⟩
    rw [List.drop_zero] at h1
    have h2 := h1.map Prod.fst
    rw [List.map_map] at h2
    exact h2.trans usable_fst
  · intro a ha
    obtain ⟨i, hi, rfl⟩ := List.mem_map.1 ha
    obtain ⟨_, h2, h3, h4⟩ := hmem i (s2 i hi)
    exact ⟨h4, h3, _, h2⟩
  · rw [List.pairwise_map]
    refine s1.imp_of_mem fun {i j} hi hj h p q hp hq => ?_
    rw [(hmem i (s2 i hi)).2.1] at hp
    rw [(hmem j (s2 j hj)).2.1] at hq
    cases hp; cases hq
    rw [← hdist]; exact h.2
  · intro c hc' q m hh hp hm
    have : (c, q, m) ∈ l := usable_mem.2 ⟨hc', hp, hm, hh⟩
    obtain ⟨j, hj, e⟩ := List.mem_iff_getElem.1 this
    have ej : l.getD j d = (c, q, m) := by
      rw [List.getD_eq_getElem?_getD, List.getElem?_eq_getElem hj, Option.getD_some, e]
    by_cases hin : j ∈ idx
    · left
      exact List.mem_map.2 ⟨j, hin, by rw [ej]⟩
    · right
      obtain ⟨i, hi, _, hd'⟩ := m1 j hj hin
      refine ⟨_, List.mem_map.2 ⟨i, hi, rfl⟩, _, (hmem i (s2 i hi)).2.1, ?_⟩
      rw [hdist, ej] at hd'
      exact hd'

/-- C289: start points are used if and only if all of them lie within the data; otherwise `ValueError`. Without start points there is no
error. -/
theorem C289_starts (qsort : List Entry → List Entry) (S : Scene) (ρx ρy : ℝ) (minDistance : Option ℝ) (profile : Bool) :
    selectCenters qsort S ρx ρy minDistance profile none ≠ none ∧
    ∀ l : List (ℝ × ℝ), selectCenters qsort S ρx ρy minDistance profile (some l) = none ↔
      ∃ c ∈ l, c.1 < S.pg.grid.x0 ∨ S.pg.grid.x0 + S.pg.width < c.1 ∨ c.2 < S.pg.grid.y0 ∨ S.pg.grid.y0 + S.pg.height < c.2 := by
  constructor
  · unfold selectCenters; simp
  · intro l
    unfold selectCenters
    simp only [Option.getD_some, ne_eq, reduceCtorEq, not_false_eq_true, true_and, ite_eq_left_iff, imp_false, not_not]
    refine exists_congr fun c => and_congr_right fun _ => ?_
    unfold PGrid.holds
    rw [not_and_or, not_and_or, not_and_or, not_le, not_le, not_le, not_le, or_assoc]

/-! ## The hypotheses can be met -/

/-- A grid of two by two nodes one apart. -/
private noncomputable def unit2 : PGrid := ⟨mkGrid 2 2 0 0 1 1, 1, 1⟩

/-- C286: a uniform axis; C287: the grid of that axis has one box, centred; C288, C289: a plot of it succeeds. -/
example : axis [0, 1] false = some (0, 1, 1) := by
  have := C286_uniform [0, 1] 0 1 one_pos (by simp) (by
    intro i hi
    have : i = 0 ∨ i = 1 := by simp at hi; omega
    rcases this with rfl | rfl <;> simp) false
  simpa using this

example : ∃ cx cy : ℕ, 0 < cx ∧ 0 < cy ∧ (defaultCands unit2 1 1).length = cx * cy := by
  obtain ⟨cx, cy, h1, h2, _, _, _, _, _, _, h3, _⟩ := C287_boxes unit2 1 1 (by norm_num [unit2, mkGrid]) (by norm_num [unit2, mkGrid])
    (by norm_num [unit2, mkGrid, safe, eps]) (by norm_num [unit2, mkGrid, safe, eps])
  exact ⟨cx, cy, h1, h2, h3⟩

example (qsort : List Entry → List Entry) : ∃ out, selectCenters qsort
    ⟨unit2, 0, 0, 100, 100, fun _ => some 1, fun k => some (((k % 2 : ℕ) : ℝ) * 100, ((k / 2 : ℕ) : ℝ) * 100), fun _ => true⟩ 1 1 none false none =
      some out :=
  Option.ne_none_iff_exists'.1 (C289_starts qsort _ 1 1 none false).1

end Skyborn.Plot.Curly
