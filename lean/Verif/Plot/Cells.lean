/-
Grid cells around plotting coordinates and the stipple lattice inside them
(`skyborn.plot.scatter(..., placement="cells")`).
Modelled: plot/_shared/coords.py:169-186, 213-260, plot/_core/scatter_engine.py:252-308,
plot/nclcurly_core/_ncl_curly_core.c:2223-2506.
-/
import Verif.Plot.Thin
import Mathlib.Tactic.IntervalCases
import Mathlib.Tactic.LinearCombination

namespace Skyborn.Plot

variable {α : Type*} [Field α] [LinearOrder α]

/-! ## Cell edges -/

/-- plot/_shared/coords.py:169-186 `_cell_edges_from_axis`: edge `i` (of `n + 1`) of an axis of
`n ≥ 1` centres. -/
def cellEdges (n : ℕ) (a : ℕ → α) (i : ℕ) : α :=
  if n = 1 then (if i = 0 then a 0 - 1 / 2 else a 0 + 1 / 2)
  else if i = 0 then a 0 - 1 / 2 * (a 1 - a 0)
  else if i = n then a (n - 1) + 1 / 2 * (a (n - 1) - a (n - 2))
  else 1 / 2 * (a (i - 1) + a i)

/-- plot/_shared/coords.py:219-256: the padded array of `_center_grid_to_corner_grid`, for a
`ny` by `nx` grid `f`. -/
def padded (ny nx : ℕ) (f : ℕ → ℕ → α) (I J : ℕ) : α :=
  let top := I = 0
  let bottom := I = ny + 1
  let left := J = 0
  let right := J = nx + 1
  if (top ∨ bottom) ∧ (left ∨ right) then
    if 1 < ny ∧ 1 < nx then
      if top then
        if left then 3 * f 0 0 - f 0 1 - f 1 0
        else 3 * f 0 (nx - 1) - f 0 (nx - 2) - f 1 (nx - 1)
      else
        if left then 3 * f (ny - 1) 0 - f (ny - 1) 1 - f (ny - 2) 0
        else 3 * f (ny - 1) (nx - 1) - f (ny - 1) (nx - 2) - f (ny - 2) (nx - 1)
    else if 1 < nx then
      if left then 2 * f 0 0 - f 0 1 else 2 * f 0 (nx - 1) - f 0 (nx - 2)
    else if 1 < ny then
      if top then 2 * f 0 0 - f 1 0 else 2 * f (ny - 1) 0 - f (ny - 2) 0
    else f 0 0
  else if left then
    if 1 < nx then 2 * f (I - 1) 0 - f (I - 1) 1 else f (I - 1) 0
  else if right then
    if 1 < nx then 2 * f (I - 1) (nx - 1) - f (I - 1) (nx - 2) else f (I - 1) 0
  else if top then
    if 1 < ny then 2 * f 0 (J - 1) - f 1 (J - 1) else f 0 (J - 1)
  else if bottom then
    if 1 < ny then 2 * f (ny - 1) (J - 1) - f (ny - 2) (J - 1) else f 0 (J - 1)
  else f (I - 1) (J - 1)

/-- plot/_shared/coords.py:258-260: the corner grid (`ny + 1` by `nx + 1`). -/
def cornerGrid (ny nx : ℕ) (f : ℕ → ℕ → α) (i j : ℕ) : α :=
  1 / 4 * (padded ny nx f i j + padded ny nx f (i + 1) j + padded ny nx f i (j + 1) +
    padded ny nx f (i + 1) (j + 1))

/-! ## The lattice inside one cell -/

section
variable [FloorRing α]

/-- plot/nclcurly_core/_ncl_curly_core.c:2361-2378: the number of columns (rows) of the lattice.
The `int` cast is taken not to overflow. -/
def subCount (lo hi spacing : α) : ℕ :=
  let s := ⌈(hi - lo) / spacing⌉
  if s < 1 then 1 else if s > 12 then 12 else s.toNat

/-- plot/nclcurly_core/_ncl_curly_core.c:2328-2353 (and 2410-2435): running minimum and maximum
over the four corners, `none` when one of them is not finite. -/
def cornerBounds (mapped : ℕ → Option (Pt α)) : Option ((α × α) × (α × α)) :=
  match mapped 0 with
  | none => none
  | some p0 =>
    [0, 1, 2, 3].foldl (fun acc corner =>
      match acc, mapped corner with
      | some ((minX, maxX), (minY, maxY)), some p =>
        some ((if p.x < minX then p.x else minX, if p.x > maxX then p.x else maxX),
          (if p.y < minY then p.y else minY, if p.y > maxY then p.y else maxY))
      | _, _ => none) (some ((p0.x, p0.x), (p0.y, p0.y)))

/-- plot/nclcurly_core/_ncl_curly_core.c:2467-2487: one lattice point. -/
def latticePoint (corner : ℕ → Pt α) (subX subY row col : ℕ) : Pt α :=
  let vv : α := ((row : α) + 1 / 2) / subY
  let uu : α := ((col : α) + 1 / 2) / subX
  { x := (1 - uu) * (1 - vv) * (corner 0).x + uu * (1 - vv) * (corner 1).x +
      uu * vv * (corner 2).x + (1 - uu) * vv * (corner 3).x
    y := (1 - uu) * (1 - vv) * (corner 0).y + uu * (1 - vv) * (corner 1).y +
      uu * vv * (corner 2).y + (1 - uu) * vv * (corner 3).y }

/-- plot/nclcurly_core/_ncl_curly_core.c:2437-2491: the rows written for one cell. -/
def cellCandidates (corner : ℕ → Pt α) (mapped : ℕ → Option (Pt α)) (source : Pt α)
    (spacing : α) (cell : ℕ) : List (Pt α × ℕ) :=
  match cornerBounds mapped with
  | none => [(source, cell)]
  | some ((minX, maxX), (minY, maxY)) =>
    let subX := subCount minX maxX spacing
    let subY := subCount minY maxY spacing
    (List.range subY).flatMap (fun row =>
      (List.range subX).map (fun col => (latticePoint corner subX subY row col, cell)))

/-- plot/nclcurly_core/_ncl_curly_core.c:2316-2380: the first pass, which sizes the output. -/
def countPass (mapped : ℕ → ℕ → Option (Pt α)) (spacing : α) (n : ℕ) : ℕ :=
  (List.range n).foldl (fun total cell =>
    match cornerBounds (mapped cell) with
    | none => total + 1
    | some ((minX, maxX), (minY, maxY)) =>
      total + subCount minX maxX spacing * subCount minY maxY spacing) 0

/-- plot/nclcurly_core/_ncl_curly_core.c:2223-2506 `generate_cell_candidates`; `spacing_frac`
finite. -/
def generateCells (corners : ℕ → ℕ → Pt α) (mapped : ℕ → ℕ → Option (Pt α))
    (source : ℕ → Pt α) (spacingFrac : α) (n : ℕ) : List (Pt α × ℕ) :=
  let spacing := if spacingFrac < 1 / 1000000 then 1 / 1000000 else spacingFrac
  (List.range n).flatMap (fun cell =>
    cellCandidates (corners cell) (mapped cell) (source cell) spacing cell)

/-- plot/_core/scatter_engine.py:258-269: corners of grid cell (iy, ix), rectilinear case. -/
def rectCorner (xe ye : ℕ → α) (iy ix corner : ℕ) : Pt α :=
  match corner with
  | 0 => ⟨xe ix, ye iy⟩
  | 1 => ⟨xe (ix + 1), ye iy⟩
  | 2 => ⟨xe (ix + 1), ye (iy + 1)⟩
  | _ => ⟨xe ix, ye (iy + 1)⟩

/-- plot/_core/scatter_engine.py:270-281: the same, curvilinear case. -/
def curvCorner (xc yc : ℕ → ℕ → α) (iy ix corner : ℕ) : Pt α :=
  match corner with
  | 0 => ⟨xc iy ix, yc iy ix⟩
  | 1 => ⟨xc iy (ix + 1), yc iy (ix + 1)⟩
  | 2 => ⟨xc (iy + 1) (ix + 1), yc (iy + 1) (ix + 1)⟩
  | _ => ⟨xc (iy + 1) ix, yc (iy + 1) ix⟩

/-- plot/_core/scatter_engine.py:285-297: `corners` has shape (n, 4, 2), so row `r` of
`corners.reshape(-1, 2)` is corner `r % 4` of cell `r / 4`; the transformed rows are read back with
`.reshape(4, n, 2).transpose(1, 0, 2)`, which takes row `corner * n + cell`.  `T` is the
Matplotlib transform (`none`: not finite). -/
def mappedCorner (T : Pt α → Option (Pt α)) (vx0 vy0 vw vh : α) (n : ℕ)
    (corners : ℕ → ℕ → Pt α) (cell corner : ℕ) : Option (Pt α) :=
  let displayRow := fun r => T (corners (r / 4) (r % 4))
  (displayRow (corner * n + cell)).map (mapToViewport vx0 vy0 vw vh)

/-- plot/_core/scatter_engine.py:234-308 `_generate_cell_candidates` for a transform that does not
raise; `spacing` is the resolved spacing fraction. -/
def scatterCells (T : Pt α → Option (Pt α)) (vx0 vy0 vw vh : α) (n : ℕ)
    (corners : ℕ → ℕ → Pt α) (source : ℕ → Pt α) (spacing : Option α) : List (Pt α × ℕ) :=
  if n = 0 then []
  else generateCells corners (mappedCorner T vx0 vy0 vw vh n corners) source
    (max (spacing.getD (3 / 100)) (1 / 1000000)) n

end

/-! ## Cell edges: theorems -/

variable [IsStrictOrderedRing α]

/-- C249: for every strictly increasing or strictly decreasing axis each centre lies strictly between
the two edges of its cell, the edge shared by neighbouring cells is halfway between the two
centres, and on an evenly spaced axis every edge is half a step away from the centres. -/
theorem C249_edges (n : ℕ) (hn : 1 ≤ n) (a : ℕ → α) :
    ((∀ i j, i < j → j < n → a i < a j) →
      ∀ i < n, cellEdges n a i < a i ∧ a i < cellEdges n a (i + 1)) ∧
    ((∀ i j, i < j → j < n → a j < a i) → 2 ≤ n →
      ∀ i < n, a i < cellEdges n a i ∧ cellEdges n a (i + 1) < a i) ∧
    (∀ i, i + 1 < n → cellEdges n a (i + 1) = (a i + a (i + 1)) / 2) ∧
    (∀ a₀ d : α, (∀ i < n, a i = a₀ + i * d) → 2 ≤ n →
      ∀ i ≤ n, cellEdges n a i = a₀ + ((i : α) - 1 / 2) * d) := by
  have key : ∀ i < n, n ≠ 1 →
      (cellEdges n a i - a i = (if i = 0 then a 0 - a 1 else a (i - 1) - a i) / 2) ∧
      (cellEdges n a (i + 1) - a i = (if i + 1 = n then a i - a (i - 1) else a (i + 1) - a i) / 2) := by
    intro i hi hn1
    unfold cellEdges
    rw [if_neg hn1, if_neg hn1]
    constructor
    · by_cases h0 : i = 0
      · subst h0; simp only [if_true]; ring
      · rw [if_neg h0, if_neg (by omega : ¬ i = n), if_neg h0]; ring
    · rw [if_neg (by omega : ¬ i + 1 = 0)]
      by_cases h1 : i + 1 = n
      · rw [if_pos h1, if_pos h1]
        have e1 : n - 1 = i := by omega
        have e2 : n - 2 = i - 1 := by omega
        rw [e1, e2]; ring
      · rw [if_neg h1, if_neg h1, Nat.add_sub_cancel]; ring
  refine ⟨?_, ?_, ?_, ?_⟩
  · intro hmono i hi
    by_cases hn1 : n = 1
    · subst hn1
      have : i = 0 := by omega
      subst this
      unfold cellEdges
      simp only [if_true]
      norm_num
    · obtain ⟨k1, k2⟩ := key i hi hn1
      constructor
      · by_cases h0 : i = 0
        · rw [if_pos h0] at k1
          have := hmono 0 1 (by omega) (by omega)
          linarith
        · rw [if_neg h0] at k1
          have := hmono (i - 1) i (by omega) hi
          linarith
      · by_cases h1 : i + 1 = n
        · rw [if_pos h1] at k2
          have := hmono (i - 1) i (by omega) hi
          linarith
        · rw [if_neg h1] at k2
          have := hmono i (i + 1) (by omega) (by omega)
          linarith
  · intro hmono hn2 i hi
    obtain ⟨k1, k2⟩ := key i hi (by omega)
    constructor
    · by_cases h0 : i = 0
      · rw [if_pos h0] at k1
        have := hmono 0 1 (by omega) (by omega)
        linarith
      · rw [if_neg h0] at k1
        have := hmono (i - 1) i (by omega) hi
        linarith
    · by_cases h1 : i + 1 = n
      · rw [if_pos h1] at k2
        have := hmono (i - 1) i (by omega) hi
        linarith
      · rw [if_neg h1] at k2
        have := hmono i (i + 1) (by omega) (by omega)
        linarith
  · intro i hi
    obtain ⟨-, k2⟩ := key i (by omega) (by omega)
    rw [if_neg (by omega)] at k2
    linarith
  · intro a₀ d ha hn2 i hi
    rcases Nat.lt_or_ge i n with h | h
    · obtain ⟨k1, -⟩ := key i h (by omega)
      by_cases h0 : i = 0
      · subst h0
        have e0 := ha 0 (by omega)
        have e1 := ha 1 (by omega)
        rw [if_pos rfl] at k1
        push_cast at *
        linarith
      · rw [if_neg h0] at k1
        have e0 := ha i h
        have e1 := ha (i - 1) (by omega)
        rw [Nat.cast_sub (by omega)] at e1
        push_cast at *
        rw [e0, e1] at k1
        linear_combination k1
    · have : i = n := by omega
      subst this
      obtain ⟨-, k2⟩ := key (i - 1) (by omega) (by omega)
      have e : i - 1 + 1 = i := by omega
      rw [e, if_pos rfl] at k2
      have e0 := ha (i - 1) (by omega)
      have e1 := ha (i - 1 - 1) (by omega)
      rw [Nat.cast_sub (by omega), Nat.cast_sub (by omega)] at e1
      rw [Nat.cast_sub (by omega)] at e0
      push_cast at *
      rw [e0, e1] at k2
      linear_combination k2

/-- An axis with uneven steps. -/
def exAxis : ℕ → ℚ
  | 0 => 0
  | 1 => 1
  | _ => 3

example : ∀ i j, i < j → j < 3 → exAxis i < exAxis j := by
  intro i j h1 h2; interval_cases j <;> interval_cases i <;> norm_num [exAxis]
example : (List.range 4).map (cellEdges 3 exAxis) = [-1 / 2, 1 / 2, 2, 4] := by decide +kernel

/-- C250: corners inferred for a two-dimensional coordinate grid: away from the rim each corner is
the mean of the four surrounding centres, and if the coordinate depends affinely on the two
indices (any rotated or sheared regular grid) every corner, including the rim, is exactly half a
step off in both directions. -/
theorem C250_corners (ny nx : ℕ) (hy : 2 ≤ ny) (hx : 2 ≤ nx) (f : ℕ → ℕ → α) :
    (∀ i j, i + 1 < ny → j + 1 < nx →
      cornerGrid ny nx f (i + 1) (j + 1) =
        (f i j + f (i + 1) j + f i (j + 1) + f (i + 1) (j + 1)) / 4) ∧
    (∀ c p q : α, (∀ i < ny, ∀ j < nx, f i j = c + p * i + q * j) →
      ∀ i ≤ ny, ∀ j ≤ nx,
        cornerGrid ny nx f i j = c + p * ((i : α) - 1 / 2) + q * ((j : α) - 1 / 2)) := by
  constructor
  · intro i j hi hj
    have hin : ∀ I J, I < ny → J < nx → padded ny nx f (I + 1) (J + 1) = f I J := by
      intro I J hI hJ
      unfold padded
      have h1 : ¬ (I + 1 = 0) := by omega
      have h2 : ¬ (I + 1 = ny + 1) := by omega
      have h3 : ¬ (J + 1 = 0) := by omega
      have h4 : ¬ (J + 1 = nx + 1) := by omega
      simp only [h1, h2, h3, h4, or_self, and_self, if_false, Nat.add_sub_cancel]
    unfold cornerGrid
    rw [hin i j (by omega) (by omega), hin (i + 1) j (by omega) (by omega),
      hin i (j + 1) (by omega) (by omega), hin (i + 1) (j + 1) (by omega) (by omega)]
    ring
  · intro c p q hf
    have hp : ∀ I ≤ ny + 1, ∀ J ≤ nx + 1,
        padded ny nx f I J = c + p * ((I : α) - 1) + q * ((J : α) - 1) := by
      intro I hI J hJ
      have ny1 : ((ny - 1 : ℕ) : α) = (ny : α) - 1 := by rw [Nat.cast_sub (by omega)]; simp
      have ny2 : ((ny - 2 : ℕ) : α) = (ny : α) - 2 := by rw [Nat.cast_sub (by omega)]; simp
      have nx1 : ((nx - 1 : ℕ) : α) = (nx : α) - 1 := by rw [Nat.cast_sub (by omega)]; simp
      have nx2 : ((nx - 2 : ℕ) : α) = (nx : α) - 2 := by rw [Nat.cast_sub (by omega)]; simp
      have I1 : I ≠ 0 → ((I - 1 : ℕ) : α) = (I : α) - 1 := by
        intro h; rw [Nat.cast_sub (by omega)]; simp
      have J1 : J ≠ 0 → ((J - 1 : ℕ) : α) = (J : α) - 1 := by
        intro h; rw [Nat.cast_sub (by omega)]; simp
      unfold padded
      have g1 : 1 < ny := by omega
      have g2 : 1 < nx := by omega
      simp only [g1, g2, and_self, if_true]
      by_cases hI0 : I = 0
      · by_cases hJ0 : J = 0
        · simp only [hI0, hJ0, true_or, and_self, if_true]
          rw [hf 0 (by omega) 0 (by omega), hf 0 (by omega) 1 (by omega),
            hf 1 (by omega) 0 (by omega)]
          push_cast; ring
        · by_cases hJn : J = nx + 1
          · simp only [hI0, hJn, true_or, or_true, and_self, if_true, Nat.add_eq_zero_iff,
              one_ne_zero, and_false, if_false]
            rw [hf 0 (by omega) (nx - 1) (by omega), hf 0 (by omega) (nx - 2) (by omega),
              hf 1 (by omega) (nx - 1) (by omega), nx1, nx2]
            push_cast; ring
          · simp only [hI0, hJ0, hJn, true_or, or_self, and_false, if_false, if_true]
            rw [hf 0 (by omega) (J - 1) (by omega), hf 1 (by omega) (J - 1) (by omega), J1 hJ0]
            push_cast; ring
      · by_cases hIn : I = ny + 1
        · by_cases hJ0 : J = 0
          · simp only [hIn, hJ0, true_or, or_true, and_self, if_true, Nat.add_eq_zero_iff,
              one_ne_zero, and_false, if_false]
            rw [hf (ny - 1) (by omega) 0 (by omega), hf (ny - 1) (by omega) 1 (by omega),
              hf (ny - 2) (by omega) 0 (by omega), ny1, ny2]
            push_cast; ring
          · by_cases hJn : J = nx + 1
            · simp only [hIn, hJn, or_true, and_self, if_true, Nat.add_eq_zero_iff,
                one_ne_zero, and_false, if_false]
              rw [hf (ny - 1) (by omega) (nx - 1) (by omega), hf (ny - 1) (by omega) (nx - 2) (by omega),
                hf (ny - 2) (by omega) (nx - 1) (by omega), ny1, ny2, nx1, nx2]
              push_cast; ring
            · simp only [hIn, hJ0, hJn, or_true, or_self, and_false, if_false, if_true,
                Nat.add_eq_zero_iff, one_ne_zero]
              rw [hf (ny - 1) (by omega) (J - 1) (by omega), hf (ny - 2) (by omega) (J - 1) (by omega),
                J1 hJ0, ny1, ny2]
              push_cast; ring
        · simp only [hI0, hIn, or_self, false_and, if_false]
          by_cases hJ0 : J = 0
          · simp only [hJ0, if_true]
            rw [hf (I - 1) (by omega) 0 (by omega), hf (I - 1) (by omega) 1 (by omega), I1 hI0]
            push_cast; ring
          · by_cases hJn : J = nx + 1
            · simp only [hJn, Nat.add_eq_zero_iff, one_ne_zero, and_false, if_false, if_true]
              rw [hf (I - 1) (by omega) (nx - 1) (by omega), hf (I - 1) (by omega) (nx - 2) (by omega),
                I1 hI0, nx1, nx2]
              push_cast; ring
            · simp only [hJ0, hJn, if_false]
              rw [hf (I - 1) (by omega) (J - 1) (by omega), I1 hI0, J1 hJ0]
    intro i hi j hj
    unfold cornerGrid
    rw [hp i (by omega) j (by omega), hp (i + 1) (by omega) j (by omega),
      hp i (by omega) (j + 1) (by omega), hp (i + 1) (by omega) (j + 1) (by omega)]
    push_cast; ring

example : (List.range 3).map (fun i => (List.range 3).map
    (cornerGrid 2 2 (fun i j => (i : ℚ) + 2 * j + 5) i)) =
    [[7 / 2, 11 / 2, 15 / 2], [9 / 2, 13 / 2, 17 / 2], [11 / 2, 15 / 2, 19 / 2]] := by decide +kernel

end Skyborn.Plot
