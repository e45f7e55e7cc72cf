/-
Sampling of the curly-vector fields: values, display position, direction and speed at any point of the grid.
Modelled: plot/nclcurly_core/_ncl_curly_core.c:35-75, 291-501, 511-565, 1015-1030.
-/
import Mathlib.Analysis.SpecialFunctions.Sqrt
import Mathlib.Algebra.Order.Floor.Ring
import Mathlib.Tactic.FieldSimp
import Mathlib.Tactic.Linarith

namespace Skyborn.Plot.Curly

/-! ## Model -/

/-- The constant 1e-12. -/
noncomputable def eps : ℝ := 1 / 10 ^ 12

/-- plot/nclcurly_core/_ncl_curly_core.c:46-61 `GridInfo`, the independent fields: `nx` by `ny` nodes, first node at `(x0, y0)`,
spacings `dx`, `dy` (`dx_safe`, `dy_safe`). -/
structure Grid where
  /-- `nx` -/ nx : ℕ
  /-- `ny` -/ ny : ℕ
  /-- `x_origin` -/ x0 : ℝ
  /-- `y_origin` -/ y0 : ℝ
  /-- `dx_safe` -/ dx : ℝ
  /-- `dy_safe` -/ dy : ℝ

open Classical in
/-- plot/nclcurly_core/_ncl_curly_core.c:1045-1048, 1930-1933: `fabs(d) > 1e-12 ? fabs(d) : 1e-12`. -/
noncomputable def safe (d : ℝ) : ℝ := if eps < |d| then |d| else eps

/-- plot/nclcurly_core/_ncl_curly_core.c:1041-1054: the descriptor built from the arguments. -/
noncomputable def mkGrid (nx ny : ℕ) (x0 y0 dx dy : ℝ) : Grid := ⟨nx, ny, x0, y0, safe dx, safe dy⟩

/-- plot/nclcurly_core/_ncl_curly_core.c:343, 498, 537: fractional column. -/
noncomputable def Grid.xi (g : Grid) (x : ℝ) : ℝ := (x - g.x0) * (1 / g.dx)

/-- plot/nclcurly_core/_ncl_curly_core.c:344, 499, 538: fractional row. -/
noncomputable def Grid.yi (g : Grid) (y : ℝ) : ℝ := (y - g.y0) * (1 / g.dy)

/-- plot/nclcurly_core/_ncl_curly_core.c:496-501 `point_within_grid_data`, and the tests at 345 and 539. -/
def Grid.within (g : Grid) (x y : ℝ) : Prop :=
  0 ≤ g.xi x ∧ g.xi x ≤ (g.nx : ℝ) - 1 ∧ 0 ≤ g.yi y ∧ g.yi y ≤ (g.ny : ℝ) - 1

/-- plot/nclcurly_core/_ncl_curly_core.c:383-384, 402-403, 557: bilinear combination of four values, not a number if one
of them is not (a missing value times zero is not a number either). -/
noncomputable def blend (s t : ℝ) : Option ℝ → Option ℝ → Option ℝ → Option ℝ → Option ℝ
  | some a, some b, some c, some d => some ((a * (1 - s) + b * s) * (1 - t) + (c * (1 - s) + d * s) * t)
  | _, _, _, _ => none

open Classical in
/-- plot/nclcurly_core/_ncl_curly_core.c:511-565 `sample_scalar_field`; `f` is the memory at and behind the field, row after row,
`none` for a missing value. -/
noncomputable def sampleScalar (g : Grid) (f : ℕ → Option ℝ) (x y : ℝ) : Option ℝ :=
  if g.nx < 1 ∨ g.ny < 1 then none
  else if ¬ g.within x y then none
  else
    let ix := ⌊g.xi x⌋₊
    let iy := ⌊g.yi y⌋₊
    let ixNext := if ix = g.nx - 1 then ix else ix + 1
    let iyNext := if iy = g.ny - 1 then iy else iy + 1
    blend (g.xi x - ix) (g.yi y - iy) (f (iy * g.nx + ix)) (f (iy * g.nx + ixNext)) (f (iyNext * g.nx + ix))
      (f (iyNext * g.nx + ixNext))

/-- plot/nclcurly_core/_ncl_curly_core.c:62-75 `SampleState`. -/
structure State where
  /-- `display_x`, `display_y` -/ disp : ℝ × ℝ
  /-- `dir_x`, `dir_y` -/ dir : ℝ × ℝ
  /-- `j00` -/ j00 : ℝ
  /-- `j01` -/ j01 : ℝ
  /-- `j10` -/ j10 : ℝ
  /-- `j11` -/ j11 : ℝ
  /-- `speed` -/ speed : ℝ

/-- `hypot(x, y)`. -/
noncomputable def hyp (x y : ℝ) : ℝ := Real.sqrt (x * x + y * y)

/-- The arrays read by the tracer: winds, display position of the nodes (both coordinates missing or none),
and the mask of usable cells. -/
structure Fields where
  /-- `u_data` -/ u : ℕ → Option ℝ
  /-- `v_data` -/ v : ℕ → Option ℝ
  /-- `display_data` -/ disp : ℕ → Option (ℝ × ℝ)
  /-- `cell_valid` -/ valid : ℕ → Bool

/-- plot/nclcurly_core/_ncl_curly_core.c:352: index of the cell, `floor(fmin(fmax(p, 0.0), n - 2))`. -/
noncomputable def cell (p : ℝ) (n : ℕ) : ℕ := ⌊min (max p 0) ((n : ℝ) - 2)⌋₊

open Classical in
/-- plot/nclcurly_core/_ncl_curly_core.c:405-437: position, derivative, direction and speed on one cell with corners `p00`, `p01`,
`p10`, `p11`. -/
noncomputable def stateOf (g : Grid) (s t uv vv : ℝ) (p00 p01 p10 p11 : ℝ × ℝ) : Option State :=
  let dispX := p00.1 * (1 - s) * (1 - t) + p01.1 * s * (1 - t) + p10.1 * (1 - s) * t + p11.1 * s * t
  let dispY := p00.2 * (1 - s) * (1 - t) + p01.2 * s * (1 - t) + p10.2 * (1 - s) * t + p11.2 * s * t
  let j00 := ((p01.1 - p00.1) * (1 - t) + (p11.1 - p10.1) * t) / g.dx
  let j10 := ((p01.2 - p00.2) * (1 - t) + (p11.2 - p10.2) * t) / g.dx
  let j01 := ((p10.1 - p00.1) * (1 - s) + (p11.1 - p01.1) * s) / g.dy
  let j11 := ((p10.2 - p00.2) * (1 - s) + (p11.2 - p01.2) * s) / g.dy
  let det := j00 * j11 - j01 * j10
  if |det| ≤ eps then none
  else
    let vecX := j00 * uv + j01 * vv
    let vecY := j10 * uv + j11 * vv
    let norm := hyp vecX vecY
    if norm ≤ eps then none
    else some ⟨(dispX, dispY), (vecX / norm, vecY / norm), j00, j01, j10, j11, hyp uv vv⟩

open Classical in
/-- plot/nclcurly_core/_ncl_curly_core.c:291-437 `sample_state`. -/
noncomputable def sampleState (g : Grid) (F : Fields) (x y : ℝ) : Option State :=
  if g.nx < 2 ∨ g.ny < 2 then none
  else if ¬ g.within x y then none
  else
    let ix := cell (g.xi x) g.nx
    let iy := cell (g.yi y) g.ny
    if F.valid (iy * (g.nx - 1) + ix) = false then none
    else
      let s := g.xi x - ix
      let t := g.yi y - iy
      let i00 := iy * g.nx + ix
      let i01 := iy * g.nx + (ix + 1)
      let i10 := (iy + 1) * g.nx + ix
      let i11 := (iy + 1) * g.nx + (ix + 1)
      match blend s t (F.u i00) (F.u i01) (F.u i10) (F.u i11), blend s t (F.v i00) (F.v i01) (F.v i10) (F.v i11),
          F.disp i00, F.disp i01, F.disp i10, F.disp i11 with
      | some uv, some vv, some p00, some p01, some p10, some p11 => stateOf g s t uv vv p00 p01 p10 p11
      | _, _, _, _, _, _ => none

/-! ## Specification -/

/-- Value at the place `(p, q)` (in grid spacings from the first node) of the bilinear patch through the node values
`A row column` at the corners of the cell in row `j`, column `i`. -/
def patch (A : ℕ → ℕ → ℝ) (j i : ℕ) (p q : ℝ) : ℝ :=
  A j i * (1 - (p - i)) * (1 - (q - j)) + A j (i + 1) * (p - i) * (1 - (q - j))
    + A (j + 1) i * (1 - (p - i)) * (q - j) + A (j + 1) (i + 1) * (p - i) * (q - j)

/-- Place `(p, q)` lies in the (closed) cell in row `j`, column `i` of a grid of `ny` by `nx` nodes. -/
def inCell (nx ny j i : ℕ) (p q : ℝ) : Prop :=
  i + 1 < nx ∧ j + 1 < ny ∧ (i : ℝ) ≤ p ∧ p ≤ i + 1 ∧ (j : ℝ) ≤ q ∧ q ≤ j + 1

/-- A field whose nodes all have a value. -/
def Full (nx ny : ℕ) (f : ℕ → Option ℝ) (A : ℕ → ℕ → ℝ) : Prop :=
  ∀ j < ny, ∀ i < nx, f (j * nx + i) = some (A j i)

/-! ## Proofs -/

theorem eps_pos : 0 < eps := by unfold eps; positivity

theorem safe_pos (d : ℝ) : 0 < safe d := by
  unfold safe; split_ifs with h
  · exact lt_trans eps_pos h
  · exact eps_pos

theorem safe_eq {d : ℝ} (h : eps < d) : safe d = d := by
  unfold safe
  have : |d| = d := abs_of_pos (lt_trans eps_pos h)
  rw [this, if_pos h]

/-- Bilinear patches of neighbouring cells agree where they meet: the patch depends on the place only. -/
private theorem patch_unique {nx ny : ℕ} (A : ℕ → ℕ → ℝ) {j i j' i' : ℕ} {p q : ℝ} (h : inCell nx ny j i p q)
    (h' : inCell nx ny j' i' p q) : patch A j i p q = patch A j' i' p q := by
  have key : ∀ {a b : ℕ} {r : ℝ}, (a : ℝ) ≤ r → r ≤ a + 1 → (b : ℝ) ≤ r → r ≤ b + 1 →
      a = b ∨ (b = a + 1 ∧ r = a + 1) ∨ (a = b + 1 ∧ r = b + 1) := by
    intro a b r h1 h2 h3 h4
    rcases lt_trichotomy a b with hab | hab | hab
    · right; left
      have h5 : (a : ℝ) + 1 ≤ b := by exact_mod_cast hab
      have h6 : r = a + 1 := le_antisymm h2 (by linarith)
      refine ⟨?_, h6⟩
      have : (b : ℝ) ≤ a + 1 := by linarith
      have : b ≤ a + 1 := by exact_mod_cast this
      omega
    · exact Or.inl hab
    · right; right
      have h5 : (b : ℝ) + 1 ≤ a := by exact_mod_cast hab
      have h6 : r = b + 1 := le_antisymm h4 (by linarith)
      refine ⟨?_, h6⟩
      have : (a : ℝ) ≤ b + 1 := by linarith
      have : a ≤ b + 1 := by exact_mod_cast this
      omega
  obtain ⟨-, -, h1, h2, h3, h4⟩ := h
  obtain ⟨-, -, g1, g2, g3, g4⟩ := h'
  unfold patch
  rcases key h1 h2 g1 g2 with rfl | ⟨rfl, hp⟩ | ⟨rfl, hp⟩ <;>
    rcases key h3 h4 g3 g4 with rfl | ⟨rfl, hq⟩ | ⟨rfl, hq⟩ <;>
    (try rw [hp]) <;> (try rw [hq]) <;> push_cast <;> ring

/-- The cell chosen by `sample_state` contains the place. -/
private theorem cell_in {p : ℝ} {n : ℕ} (hn : 2 ≤ n) (h0 : 0 ≤ p) (h1 : p ≤ (n : ℝ) - 1) :
    cell p n + 1 < n ∧ ((cell p n : ℕ) : ℝ) ≤ p ∧ p ≤ (cell p n : ℕ) + 1 := by
  have hn' : (2 : ℝ) ≤ n := by exact_mod_cast hn
  unfold cell
  rw [max_eq_left h0]
  have hm : 0 ≤ min p ((n : ℝ) - 2) := le_min h0 (by linarith)
  have hf := Nat.floor_le hm
  have hlt := Nat.lt_floor_add_one (min p ((n : ℝ) - 2))
  refine ⟨?_, hf.trans (min_le_left _ _), ?_⟩
  · have : ((⌊min p ((n : ℝ) - 2)⌋₊ : ℕ) : ℝ) ≤ (n : ℝ) - 2 := hf.trans (min_le_right _ _)
    have : ((⌊min p ((n : ℝ) - 2)⌋₊ : ℕ) : ℝ) + 2 ≤ n := by linarith
    have : ⌊min p ((n : ℝ) - 2)⌋₊ + 2 ≤ n := by exact_mod_cast this
    omega
  · rcases le_total p ((n : ℝ) - 2) with h | h
    · rw [min_eq_left h] at hlt ⊢; exact hlt.le
    · rw [min_eq_right h]
      have : (n : ℝ) - 2 = ((n - 2 : ℕ) : ℝ) := by push_cast [Nat.cast_sub hn]; ring
      rw [this, Nat.floor_natCast, ← this]
      linarith

theorem cell_inCell {g : Grid} (hx : 2 ≤ g.nx) (hy : 2 ≤ g.ny) {x y : ℝ} (h : g.within x y) :
    inCell g.nx g.ny (cell (g.yi y) g.ny) (cell (g.xi x) g.nx) (g.xi x) (g.yi y) := by
  obtain ⟨a, b, c, d⟩ := h
  obtain ⟨e1, e2, e3⟩ := cell_in hx a b
  obtain ⟨f1, f2, f3⟩ := cell_in hy c d
  exact ⟨e1, f1, e2, e3, f2, f3⟩

theorem within_of_inCell {g : Grid} {x y : ℝ} {j i : ℕ} (h : inCell g.nx g.ny j i (g.xi x) (g.yi y)) : g.within x y := by
  obtain ⟨h1, h2, h3, h4, h5, h6⟩ := h
  have e1 : (i : ℝ) + 1 + 1 ≤ g.nx := by exact_mod_cast h1
  have e2 : (j : ℝ) + 1 + 1 ≤ g.ny := by exact_mod_cast h2
  have e3 : (0 : ℝ) ≤ i := Nat.cast_nonneg _
  have e4 : (0 : ℝ) ≤ j := Nat.cast_nonneg _
  exact ⟨by linarith, by linarith, by linarith, by linarith⟩

private theorem blend_some (s t a b c d : ℝ) : blend s t (some a) (some b) (some c) (some d) =
    some ((a * (1 - s) + b * s) * (1 - t) + (c * (1 - s) + d * s) * t) := rfl

private theorem blend_eq_some {s t : ℝ} {a b c d : Option ℝ} :
    (blend s t a b c d).isSome ↔ a.isSome ∧ b.isSome ∧ c.isSome ∧ d.isSome := by
  cases a <;> cases b <;> cases c <;> cases d <;> simp [blend]

private theorem floor_lt {p : ℝ} {n : ℕ} (hn : 1 ≤ n) (h0 : 0 ≤ p) (h1 : p ≤ (n : ℝ) - 1) : ⌊p⌋₊ < n := by
  have : ((⌊p⌋₊ : ℕ) : ℝ) ≤ (n : ℝ) - 1 := (Nat.floor_le h0).trans h1
  have : ((⌊p⌋₊ : ℕ) : ℝ) + 1 ≤ n := by linarith
  have : ⌊p⌋₊ + 1 ≤ n := by exact_mod_cast this
  omega

private theorem next_lt {n a : ℕ} (h : a < n) : (if a = n - 1 then a else a + 1) < n := by
  split_ifs <;> omega

private theorem idx_lt {nx ny j i : ℕ} (hj : j < ny) (hi : i < nx) : j * nx + i < nx * ny := by
  calc j * nx + i < j * nx + nx := by omega
    _ = (j + 1) * nx := by ring
    _ ≤ ny * nx := Nat.mul_le_mul_right _ hj
    _ = nx * ny := by ring

/-- C268: no matter what lies behind the field in memory, the sample depends on the `nx · ny` node values only. -/
theorem C268_bounds (g : Grid) (f f' : ℕ → Option ℝ) (x y : ℝ) (h : ∀ k < g.nx * g.ny, f k = f' k) :
    sampleScalar g f x y = sampleScalar g f' x y := by
  unfold sampleScalar
  split_ifs with h1 h2
  · rfl
  swap
  · rfl
  · push Not at h1
    obtain ⟨a, b, c, d⟩ := h2
    have hx := floor_lt h1.1 a b
    have hy := floor_lt h1.2 c d
    dsimp only
    rw [h _ (idx_lt hy hx), h _ (idx_lt hy (next_lt hx)), h _ (idx_lt (next_lt hy) hx), h _ (idx_lt (next_lt hy) (next_lt hx))]

/-- A place in a cell: what the sample is. -/
private theorem sample_cell (g : Grid) (f : ℕ → Option ℝ) (A : ℕ → ℕ → ℝ) (hf : Full g.nx g.ny f A) (x y : ℝ) (j i : ℕ)
    (h : inCell g.nx g.ny j i (g.xi x) (g.yi y)) :
    sampleScalar g f x y = some (patch A j i (g.xi x) (g.yi y)) := by
  have hw := within_of_inCell h
  have hx2 : 2 ≤ g.nx := by have := h.1; omega
  have hy2 : 2 ≤ g.ny := by have := h.2.1; omega
  unfold sampleScalar
  rw [if_neg (by omega), if_neg (not_not.mpr hw)]
  dsimp only
  obtain ⟨a, b, c, d⟩ := hw
  have hx := floor_lt (n := g.nx) (by omega) a b
  have hy := floor_lt (n := g.ny) (by omega) c d
  rw [hf _ hy _ hx, hf _ hy _ (next_lt hx), hf _ (next_lt hy) _ hx, hf _ (next_lt hy) _ (next_lt hx), blend_some]
  congr 1
  have hcx : ⌊g.xi x⌋₊ = g.nx - 1 ∧ g.xi x = ((g.nx - 2 : ℕ) : ℝ) + 1 ∨ ⌊g.xi x⌋₊ + 1 < g.nx := by
    by_cases he : ⌊g.xi x⌋₊ = g.nx - 1
    · left
      refine ⟨he, ?_⟩
      have h1 := Nat.floor_le a
      rw [he] at h1
      have e1 : ((g.nx - 1 : ℕ) : ℝ) = (g.nx : ℝ) - 1 := by push_cast [Nat.cast_sub (by omega : 1 ≤ g.nx)]; ring
      have e2 : ((g.nx - 2 : ℕ) : ℝ) = (g.nx : ℝ) - 2 := by push_cast [Nat.cast_sub hx2]; ring
      rw [e1] at h1
      rw [e2]; linarith
    · right; omega
  have hcy : ⌊g.yi y⌋₊ = g.ny - 1 ∧ g.yi y = ((g.ny - 2 : ℕ) : ℝ) + 1 ∨ ⌊g.yi y⌋₊ + 1 < g.ny := by
    by_cases he : ⌊g.yi y⌋₊ = g.ny - 1
    · left
      refine ⟨he, ?_⟩
      have h1 := Nat.floor_le c
      rw [he] at h1
      have e1 : ((g.ny - 1 : ℕ) : ℝ) = (g.ny : ℝ) - 1 := by push_cast [Nat.cast_sub (by omega : 1 ≤ g.ny)]; ring
      have e2 : ((g.ny - 2 : ℕ) : ℝ) = (g.ny : ℝ) - 2 := by push_cast [Nat.cast_sub hy2]; ring
      rw [e1] at h1
      rw [e2]; linarith
    · right; omega
  have fx1 := Nat.floor_le a
  have fx2 := (Nat.lt_floor_add_one (g.xi x)).le
  have fy1 := Nat.floor_le c
  have fy2 := (Nat.lt_floor_add_one (g.yi y)).le
  rcases hcx with ⟨ex, px⟩ | ex <;> rcases hcy with ⟨ey, py⟩ | ey
  · rw [patch_unique A h (j' := g.ny - 2) (i' := g.nx - 2) ⟨by omega, by omega, by linarith, by linarith, by linarith, by linarith⟩]
    rw [if_pos ex, if_pos ey, ex, ey]
    unfold patch
    have e1 : g.nx - 2 + 1 = g.nx - 1 := by omega
    have e2 : g.ny - 2 + 1 = g.ny - 1 := by omega
    have e3 : ((g.nx - 1 : ℕ) : ℝ) = ((g.nx - 2 : ℕ) : ℝ) + 1 := by rw [← e1]; push_cast; ring
    have e4 : ((g.ny - 1 : ℕ) : ℝ) = ((g.ny - 2 : ℕ) : ℝ) + 1 := by rw [← e2]; push_cast; ring
    rw [e1, e2, px, py, e3, e4]
    ring
  · rw [patch_unique A h (j' := ⌊g.yi y⌋₊) (i' := g.nx - 2) ⟨by omega, ey, by linarith, by linarith, fy1, fy2⟩]
    rw [if_pos ex, if_neg (by omega), ex]
    unfold patch
    have e1 : g.nx - 2 + 1 = g.nx - 1 := by omega
    have e3 : ((g.nx - 1 : ℕ) : ℝ) = ((g.nx - 2 : ℕ) : ℝ) + 1 := by rw [← e1]; push_cast; ring
    rw [e1, px, e3]
    ring
  · rw [patch_unique A h (j' := g.ny - 2) (i' := ⌊g.xi x⌋₊) ⟨ex, by omega, fx1, fx2, by linarith, by linarith⟩]
    rw [if_neg (by omega), if_pos ey, ey]
    unfold patch
    have e2 : g.ny - 2 + 1 = g.ny - 1 := by omega
    have e4 : ((g.ny - 1 : ℕ) : ℝ) = ((g.ny - 2 : ℕ) : ℝ) + 1 := by rw [← e2]; push_cast; ring
    rw [e2, py, e4]
    ring
  · rw [patch_unique A h (j' := ⌊g.yi y⌋₊) (i' := ⌊g.xi x⌋₊) ⟨ex, ey, fx1, fx2, fy1, fy2⟩]
    rw [if_neg (by omega), if_neg (by omega)]
    unfold patch
    ring

/-- C268: in a grid of at least two by two nodes with all values present, the sample at a point is the bilinear interpolation on
every cell that contains the point, and there is none outside the grid. -/
theorem C268_value (g : Grid) (f : ℕ → Option ℝ) (A : ℕ → ℕ → ℝ) (hf : Full g.nx g.ny f A) (x y : ℝ) :
    (∀ j i, inCell g.nx g.ny j i (g.xi x) (g.yi y) → sampleScalar g f x y = some (patch A j i (g.xi x) (g.yi y))) ∧
    (2 ≤ g.nx → 2 ≤ g.ny → (∀ j i, ¬ inCell g.nx g.ny j i (g.xi x) (g.yi y)) → sampleScalar g f x y = none) := by
  refine ⟨sample_cell g f A hf x y, fun hx hy h => ?_⟩
  unfold sampleScalar
  rw [if_neg (by omega), if_pos]
  exact fun hw => h _ _ (cell_inCell hx hy hw)

/-- C268: at a node the sample is the value of the node; a field that is linear in the coordinates is reproduced. -/
theorem C268_exact (g : Grid) (f : ℕ → Option ℝ) (A : ℕ → ℕ → ℝ) (hf : Full g.nx g.ny f A) (hx : 2 ≤ g.nx) (hy : 2 ≤ g.ny)
    (hdx : 0 < g.dx) (hdy : 0 < g.dy) :
    (∀ j < g.ny, ∀ i < g.nx, sampleScalar g f (g.x0 + i * g.dx) (g.y0 + j * g.dy) = some (A j i)) ∧
    (∀ a b c : ℝ, (∀ j i, A j i = a + b * (g.x0 + i * g.dx) + c * (g.y0 + j * g.dy)) → ∀ x y, g.within x y →
      sampleScalar g f x y = some (a + b * x + c * y)) := by
  have hX : ∀ x, g.xi x * g.dx = x - g.x0 := fun x => by unfold Grid.xi; field_simp
  have hY : ∀ y, g.yi y * g.dy = y - g.y0 := fun y => by unfold Grid.yi; field_simp
  constructor
  · intro j hj i hi
    have e1 : g.xi (g.x0 + i * g.dx) = i := by unfold Grid.xi; field_simp; ring
    have e2 : g.yi (g.y0 + j * g.dy) = j := by unfold Grid.yi; field_simp; ring
    have key : ∀ {n k : ℕ}, 2 ≤ n → k < n → ∃ c, c + 1 < n ∧ (k = c ∨ k = c + 1) := by
      intro n k hn hk
      by_cases h : k + 1 < n
      · exact ⟨k, h, Or.inl rfl⟩
      · exact ⟨k - 1, by omega, Or.inr (by omega)⟩
    obtain ⟨ci, hci, hi'⟩ := key hx hi
    obtain ⟨cj, hcj, hj'⟩ := key hy hj
    have hin : inCell g.nx g.ny cj ci (g.xi (g.x0 + i * g.dx)) (g.yi (g.y0 + j * g.dy)) := by
      rw [e1, e2]
      refine ⟨hci, hcj, ?_⟩
      rcases hi' with rfl | rfl <;> rcases hj' with rfl | rfl <;> push_cast <;> refine ⟨?_, ?_, ?_, ?_⟩ <;> linarith
    rw [sample_cell g f A hf _ _ _ _ hin, e1, e2]
    congr 1
    unfold patch
    rcases hi' with rfl | rfl <;> rcases hj' with rfl | rfl <;> push_cast <;> ring
  · intro a b c hA x y hw
    rw [sample_cell g f A hf x y _ _ (cell_inCell hx hy hw)]
    congr 1
    unfold patch
    simp only [hA]
    push_cast
    have := hX x
    have := hY y
    linear_combination b * hX x + c * hY y

/-- C268: the sample lies between the smallest and the largest node value. -/
theorem C268_range (g : Grid) (f : ℕ → Option ℝ) (A : ℕ → ℕ → ℝ) (hf : Full g.nx g.ny f A) (hx : 2 ≤ g.nx) (hy : 2 ≤ g.ny)
    (lo hi : ℝ) (hlo : ∀ j < g.ny, ∀ i < g.nx, lo ≤ A j i) (hhi : ∀ j < g.ny, ∀ i < g.nx, A j i ≤ hi) (x y r : ℝ)
    (h : sampleScalar g f x y = some r) : lo ≤ r ∧ r ≤ hi := by
  have hw : g.within x y := by
    by_contra hn
    unfold sampleScalar at h
    rw [if_neg (by omega), if_pos hn] at h
    cases h
  have hin := cell_inCell hx hy hw
  rw [sample_cell g f A hf x y _ _ hin] at h
  obtain rfl := Option.some.inj h
  obtain ⟨h1, h2, h3, h4, h5, h6⟩ := hin
  generalize cell (g.xi x) g.nx = i at *
  generalize cell (g.yi y) g.ny = j at *
  unfold patch
  have s0 : 0 ≤ g.xi x - i := by linarith
  have s1 : 0 ≤ 1 - (g.xi x - i) := by linarith
  have t0 : 0 ≤ g.yi y - j := by linarith
  have t1 : 0 ≤ 1 - (g.yi y - j) := by linarith
  generalize g.xi x - i = s at *
  generalize g.yi y - j = t at *
  have w00 := mul_nonneg s1 t1
  have w01 := mul_nonneg s0 t1
  have w10 := mul_nonneg s1 t0
  have w11 := mul_nonneg s0 t0
  have i0 : i < g.nx := by omega
  have j0 : j < g.ny := by omega
  constructor
  · have a1 := mul_le_mul_of_nonneg_right (hlo j j0 i i0) w00
    have a2 := mul_le_mul_of_nonneg_right (hlo j j0 (i + 1) h1) w01
    have a3 := mul_le_mul_of_nonneg_right (hlo (j + 1) h2 i i0) w10
    have a4 := mul_le_mul_of_nonneg_right (hlo (j + 1) h2 (i + 1) h1) w11
    nlinarith
  · have a1 := mul_le_mul_of_nonneg_right (hhi j j0 i i0) w00
    have a2 := mul_le_mul_of_nonneg_right (hhi j j0 (i + 1) h1) w01
    have a3 := mul_le_mul_of_nonneg_right (hhi (j + 1) h2 i i0) w10
    have a4 := mul_le_mul_of_nonneg_right (hhi (j + 1) h2 (i + 1) h1) w11
    nlinarith

/-- The full statement of C269: at a node with a value, the value is returned, whatever the other nodes hold. -/
def C269_statement : Prop :=
  ∀ (g : Grid) (f : ℕ → Option ℝ) (a : ℝ) (j i : ℕ), 0 < g.dx → 0 < g.dy → j < g.ny → i < g.nx → f (j * g.nx + i) = some a →
    sampleScalar g f (g.x0 + i * g.dx) (g.y0 + j * g.dy) = some a

/-- C269, the part that holds: strictly inside a cell, a value is returned exactly if the four corners of the
cell have one. Missing: nodes and cell edges next to missing nodes (false, see `C269_false`). -/
theorem C269_partial (g : Grid) (f : ℕ → Option ℝ) (x y : ℝ) (j i : ℕ) (hi : i + 1 < g.nx) (hj : j + 1 < g.ny)
    (h1 : (i : ℝ) < g.xi x) (h2 : g.xi x < i + 1) (h3 : (j : ℝ) < g.yi y) (h4 : g.yi y < j + 1) :
    (sampleScalar g f x y).isSome ↔
      (f (j * g.nx + i)).isSome ∧ (f (j * g.nx + (i + 1))).isSome ∧ (f ((j + 1) * g.nx + i)).isSome ∧
        (f ((j + 1) * g.nx + (i + 1))).isSome := by
  have hin : inCell g.nx g.ny j i (g.xi x) (g.yi y) := ⟨hi, hj, h1.le, h2.le, h3.le, h4.le⟩
  have hw := within_of_inCell hin
  unfold sampleScalar
  rw [if_neg (by omega), if_neg (not_not.mpr hw)]
  dsimp only
  have fx : ⌊g.xi x⌋₊ = i := (Nat.floor_eq_iff hw.1).mpr ⟨h1.le, h2⟩
  have fy : ⌊g.yi y⌋₊ = j := (Nat.floor_eq_iff hw.2.2.1).mpr ⟨h3.le, h4⟩
  rw [fx, fy, if_neg (by omega), if_neg (by omega)]
  exact blend_eq_some

/-- C269 is false: the south-west node of a cell whose south-east node is missing. -/
theorem C269_false : ¬ C269_statement := by
  intro H
  have h1 := H ⟨2, 2, 0, 0, 1, 1⟩ (fun k => if k = 0 then some 5 else none) 5 0 0 one_pos one_pos (by norm_num) (by norm_num) rfl
  unfold sampleScalar Grid.within Grid.xi Grid.yi at h1
  norm_num [blend] at h1
  cases h1

/-- A field with values at all nodes of a 3 by 3 grid: the hypotheses of C268 are met. -/
example : Full 3 3 (fun k => some (k : ℝ)) (fun j i => ((j * 3 + i : ℕ) : ℝ)) ∧
    (mkGrid 3 3 0 0 1 1).within 1 2 := by
  refine ⟨fun j _ i _ => rfl, ?_⟩
  have h : eps < 1 := by unfold eps; norm_num
  unfold mkGrid Grid.within Grid.xi Grid.yi
  simp only [safe_eq h]
  norm_num

/-! ## The state of the tracer -/

/-- All nodes have winds `U`, `V` and display positions `P`, and all cells are usable. -/
structure Whole (g : Grid) (F : Fields) (U V : ℕ → ℕ → ℝ) (P : ℕ → ℕ → ℝ × ℝ) : Prop where
  u : Full g.nx g.ny F.u U
  v : Full g.nx g.ny F.v V
  disp : ∀ j < g.ny, ∀ i < g.nx, F.disp (j * g.nx + i) = some (P j i)
  valid : ∀ j < g.ny - 1, ∀ i < g.nx - 1, F.valid (j * (g.nx - 1) + i) = true

/-- C270: no matter what lies behind the arrays in memory, the state depends on their entries only. -/
theorem C270_bounds (g : Grid) (F F' : Fields) (x y : ℝ) (hu : ∀ k < g.nx * g.ny, F.u k = F'.u k)
    (hv : ∀ k < g.nx * g.ny, F.v k = F'.v k) (hd : ∀ k < g.nx * g.ny, F.disp k = F'.disp k)
    (hc : ∀ k < (g.nx - 1) * (g.ny - 1), F.valid k = F'.valid k) : sampleState g F x y = sampleState g F' x y := by
  unfold sampleState
  by_cases h1 : g.nx < 2 ∨ g.ny < 2
  · rw [if_pos h1, if_pos h1]
  rw [if_neg h1, if_neg h1]
  push Not at h1
  by_cases h2 : g.within x y
  swap
  · rw [if_pos h2, if_pos h2]
  rw [if_neg (not_not.mpr h2), if_neg (not_not.mpr h2)]
  obtain ⟨hi, hj, -⟩ := cell_inCell h1.1 h1.2 h2
  dsimp only
  generalize cell (g.xi x) g.nx = i at *
  generalize cell (g.yi y) g.ny = j at *
  rw [hc _ (idx_lt (by omega) (by omega))]
  have hi0 : i < g.nx := by omega
  have hj0 : j < g.ny := by omega
  rw [hu _ (idx_lt hj0 hi0), hu _ (idx_lt hj0 hi), hu _ (idx_lt hj hi0), hu _ (idx_lt hj hi),
    hv _ (idx_lt hj0 hi0), hv _ (idx_lt hj0 hi), hv _ (idx_lt hj hi0), hv _ (idx_lt hj hi),
    hd _ (idx_lt hj0 hi0), hd _ (idx_lt hj0 hi), hd _ (idx_lt hj hi0), hd _ (idx_lt hj hi)]

/-- The state on whole fields, in the chosen cell. -/
private theorem sampleState_whole (g : Grid) (F : Fields) (U V : ℕ → ℕ → ℝ) (P : ℕ → ℕ → ℝ × ℝ) (hF : Whole g F U V P)
    (hx : 2 ≤ g.nx) (hy : 2 ≤ g.ny) (x y : ℝ) (hw : g.within x y) :
    sampleState g F x y = stateOf g (g.xi x - cell (g.xi x) g.nx) (g.yi y - cell (g.yi y) g.ny)
      (patch U (cell (g.yi y) g.ny) (cell (g.xi x) g.nx) (g.xi x) (g.yi y))
      (patch V (cell (g.yi y) g.ny) (cell (g.xi x) g.nx) (g.xi x) (g.yi y))
      (P (cell (g.yi y) g.ny) (cell (g.xi x) g.nx)) (P (cell (g.yi y) g.ny) (cell (g.xi x) g.nx + 1))
      (P (cell (g.yi y) g.ny + 1) (cell (g.xi x) g.nx)) (P (cell (g.yi y) g.ny + 1) (cell (g.xi x) g.nx + 1)) := by
  obtain ⟨hi, hj, -⟩ := cell_inCell hx hy hw
  unfold sampleState
  rw [if_neg (by omega), if_neg (not_not.mpr hw)]
  dsimp only
  generalize cell (g.xi x) g.nx = i at *
  generalize cell (g.yi y) g.ny = j at *
  have hi0 : i < g.nx := by omega
  have hj0 : j < g.ny := by omega
  rw [if_neg (by rw [hF.valid j (by omega) i (by omega)]; simp)]
  rw [hF.u j hj0 i hi0, hF.u j hj0 (i + 1) hi, hF.u (j + 1) hj i hi0, hF.u (j + 1) hj (i + 1) hi,
    hF.v j hj0 i hi0, hF.v j hj0 (i + 1) hi, hF.v (j + 1) hj i hi0, hF.v (j + 1) hj (i + 1) hi,
    hF.disp j hj0 i hi0, hF.disp j hj0 (i + 1) hi, hF.disp (j + 1) hj i hi0, hF.disp (j + 1) hj (i + 1) hi,
    blend_some, blend_some]
  dsimp only
  congr 1 <;> unfold patch <;> ring

/-- C270: the state on fields without missing nodes: on a cell that contains the point, the display position is
the bilinear interpolation of the positions of the nodes; the matrix `J` holds its derivatives (differences along
the axes within the cell, exactly); the direction is the unit vector of `J (u, v)` and the speed the length of `(u, v)`, with `u`
and `v` interpolated. -/
theorem C270_state (g : Grid) (F : Fields) (U V : ℕ → ℕ → ℝ) (P : ℕ → ℕ → ℝ × ℝ) (hF : Whole g F U V P)
    (hx : 2 ≤ g.nx) (hy : 2 ≤ g.ny) (hdx : 0 < g.dx) (hdy : 0 < g.dy) (x y : ℝ) (st : State) (h : sampleState g F x y = some st) :
    g.within x y ∧ ∃ j i, inCell g.nx g.ny j i (g.xi x) (g.yi y) ∧
      st.disp = (patch (fun b a => (P b a).1) j i (g.xi x) (g.yi y), patch (fun b a => (P b a).2) j i (g.xi x) (g.yi y)) ∧
      (∀ x', st.j00 * (x' - x) = patch (fun b a => (P b a).1) j i (g.xi x') (g.yi y)
          - patch (fun b a => (P b a).1) j i (g.xi x) (g.yi y) ∧
        st.j10 * (x' - x) = patch (fun b a => (P b a).2) j i (g.xi x') (g.yi y)
          - patch (fun b a => (P b a).2) j i (g.xi x) (g.yi y)) ∧
      (∀ y', st.j01 * (y' - y) = patch (fun b a => (P b a).1) j i (g.xi x) (g.yi y')
          - patch (fun b a => (P b a).1) j i (g.xi x) (g.yi y) ∧
        st.j11 * (y' - y) = patch (fun b a => (P b a).2) j i (g.xi x) (g.yi y')
          - patch (fun b a => (P b a).2) j i (g.xi x) (g.yi y)) ∧
      st.speed = hyp (patch U j i (g.xi x) (g.yi y)) (patch V j i (g.xi x) (g.yi y)) ∧
      st.dir.1 * st.dir.1 + st.dir.2 * st.dir.2 = 1 ∧
      ∃ r : ℝ, 0 < r ∧
        r * st.dir.1 = st.j00 * patch U j i (g.xi x) (g.yi y) + st.j01 * patch V j i (g.xi x) (g.yi y) ∧
        r * st.dir.2 = st.j10 * patch U j i (g.xi x) (g.yi y) + st.j11 * patch V j i (g.xi x) (g.yi y) := by
  have hw : g.within x y := by
    by_contra hn
    unfold sampleState at h
    rw [if_neg (by omega), if_pos hn] at h
    cases h
  refine ⟨hw, cell (g.yi y) g.ny, cell (g.xi x) g.nx, cell_inCell hx hy hw, ?_⟩
  rw [sampleState_whole g F U V P hF hx hy x y hw] at h
  generalize cell (g.xi x) g.nx = i at *
  generalize cell (g.yi y) g.ny = j at *
  unfold stateOf at h
  dsimp only at h
  split_ifs at h with h1 h2
  obtain rfl := Option.some.inj h
  have hX : ∀ x', g.xi x' - g.xi x = (x' - x) / g.dx := fun x' => by unfold Grid.xi; field_simp; ring
  have hY : ∀ y', g.yi y' - g.yi y = (y' - y) / g.dy := fun y' => by unfold Grid.yi; field_simp; ring
  dsimp only
  generalize patch U j i (g.xi x) (g.yi y) = uu at *
  generalize patch V j i (g.xi x) (g.yi y) = vv at *
  refine ⟨?_, fun x' => ⟨?_, ?_⟩, fun y' => ⟨?_, ?_⟩, rfl, ?_⟩
  · unfold patch; rfl
  · rw [div_mul_eq_mul_div, mul_div_assoc, ← hX]; unfold patch; ring
  · rw [div_mul_eq_mul_div, mul_div_assoc, ← hX]; unfold patch; ring
  · rw [div_mul_eq_mul_div, mul_div_assoc, ← hY]; unfold patch; ring
  · rw [div_mul_eq_mul_div, mul_div_assoc, ← hY]; unfold patch; ring
  · have hpos : ∀ a b : ℝ, ¬ hyp a b ≤ eps → 0 < hyp a b ∧ a / hyp a b * (a / hyp a b) + b / hyp a b * (b / hyp a b) = 1 := by
      intro a b hn
      have h0 : 0 < hyp a b := lt_trans eps_pos (not_le.mp hn)
      refine ⟨h0, ?_⟩
      have hsq : hyp a b * hyp a b = a * a + b * b := Real.mul_self_sqrt (add_nonneg (mul_self_nonneg a) (mul_self_nonneg b))
      field_simp
      nlinarith
    obtain ⟨hp, hu⟩ := hpos _ _ h2
    exact ⟨hu, _, hp, mul_div_cancel₀ _ hp.ne', mul_div_cancel₀ _ hp.ne'⟩

/-- C270: inside a cell that is masked, or of which a corner has no wind or no display position, there is no state. -/
theorem C270_missing (g : Grid) (F : Fields) (x y : ℝ) (j i : ℕ) (hi : i + 1 < g.nx) (hj : j + 1 < g.ny)
    (h1 : (i : ℝ) < g.xi x) (h2 : g.xi x < i + 1) (h3 : (j : ℝ) < g.yi y) (h4 : g.yi y < j + 1)
    (h : F.valid (j * (g.nx - 1) + i) = false ∨ ∃ b ∈ [j, j + 1], ∃ a ∈ [i, i + 1],
      F.u (b * g.nx + a) = none ∨ F.v (b * g.nx + a) = none ∨ F.disp (b * g.nx + a) = none) :
    sampleState g F x y = none := by
  have hin : inCell g.nx g.ny j i (g.xi x) (g.yi y) := ⟨hi, hj, h1.le, h2.le, h3.le, h4.le⟩
  have hw := within_of_inCell hin
  have hc : ∀ {n k : ℕ} {p : ℝ}, k + 1 < n → (k : ℝ) < p → p < k + 1 → cell p n = k := by
    intro n k p hn hp hp'
    unfold cell
    have h0 : (0 : ℝ) ≤ k := Nat.cast_nonneg _
    have h5 : (k : ℝ) + 2 ≤ n := by exact_mod_cast hn
    rw [max_eq_left (by linarith), Nat.floor_eq_iff (le_min (by linarith) (by linarith))]
    exact ⟨le_min hp.le (by linarith), lt_of_le_of_lt (min_le_left _ _) hp'⟩
  unfold sampleState
  rw [if_neg (by omega), if_neg (not_not.mpr hw)]
  dsimp only
  rw [hc hi h1 h2, hc hj h3 h4]
  split_ifs with hv
  · rfl
  rcases h with h | ⟨b, hb, a, ha, h⟩
  · exact absurd h hv
  · simp only [List.mem_cons, List.not_mem_nil, or_false] at hb ha
    generalize F.u = fu at *
    generalize F.v = fv at *
    generalize F.disp = fd at *
    rcases hb with rfl | rfl <;> rcases ha with rfl | rfl <;> rcases h with h | h | h <;> rw [h] <;>
      generalize fu (_ * g.nx + _) = o1 <;> (split <;> first | rfl | skip)
    all_goals simp_all [blend]

/-- C270: on fields without missing nodes and with a linear display map, at every point of the grid where the map
is not singular and the wind, as displayed, does not vanish, the display position is that of the map and `J` is its matrix. -/
theorem C270_affine (g : Grid) (F : Fields) (U V : ℕ → ℕ → ℝ) (P : ℕ → ℕ → ℝ × ℝ) (hF : Whole g F U V P)
    (hx : 2 ≤ g.nx) (hy : 2 ≤ g.ny) (hdx : 0 < g.dx) (hdy : 0 < g.dy) (a b c d e f : ℝ)
    (hP : ∀ j i, P j i = (a + b * (g.x0 + i * g.dx) + c * (g.y0 + j * g.dy), d + e * (g.x0 + i * g.dx) + f * (g.y0 + j * g.dy)))
    (x y : ℝ) (hw : g.within x y) (hdet : eps < |b * f - c * e|) (j i : ℕ) (hin : inCell g.nx g.ny j i (g.xi x) (g.yi y))
    (hn : eps < hyp (b * patch U j i (g.xi x) (g.yi y) + c * patch V j i (g.xi x) (g.yi y))
      (e * patch U j i (g.xi x) (g.yi y) + f * patch V j i (g.xi x) (g.yi y))) :
    ∃ st, sampleState g F x y = some st ∧ st.disp = (a + b * x + c * y, d + e * x + f * y) ∧ st.j00 = b ∧ st.j01 = c ∧
      st.j10 = e ∧ st.j11 = f := by
  rw [sampleState_whole g F U V P hF hx hy x y hw]
  have hX : g.xi x * g.dx = x - g.x0 := by unfold Grid.xi; field_simp
  have hY : g.yi y * g.dy = y - g.y0 := by unfold Grid.yi; field_simp
  rw [patch_unique U hin (cell_inCell hx hy hw), patch_unique V hin (cell_inCell hx hy hw)] at hn
  generalize cell (g.xi x) g.nx = i' at *
  generalize cell (g.yi y) g.ny = j' at *
  generalize patch U j' i' (g.xi x) (g.yi y) = uu at *
  generalize patch V j' i' (g.xi x) (g.yi y) = vv at *
  unfold stateOf
  simp only [hP]
  push_cast
  have e1 : ∀ p q s t : ℝ, ((p + q * (g.x0 + (i' + 1) * g.dx) + s * t - (p + q * (g.x0 + i' * g.dx) + s * t)) = q * g.dx) := by
    intro p q s t; ring
  have hj00 : ((a + b * (g.x0 + (i' + 1) * g.dx) + c * (g.y0 + j' * g.dy) - (a + b * (g.x0 + i' * g.dx) + c * (g.y0 + j' * g.dy))) *
      (1 - (g.yi y - j')) + (a + b * (g.x0 + (i' + 1) * g.dx) + c * (g.y0 + (j' + 1) * g.dy) -
      (a + b * (g.x0 + i' * g.dx) + c * (g.y0 + (j' + 1) * g.dy))) * (g.yi y - j')) / g.dx = b := by
    rw [div_eq_iff hdx.ne']; ring
  have hj10 : ((d + e * (g.x0 + (i' + 1) * g.dx) + f * (g.y0 + j' * g.dy) - (d + e * (g.x0 + i' * g.dx) + f * (g.y0 + j' * g.dy))) *
      (1 - (g.yi y - j')) + (d + e * (g.x0 + (i' + 1) * g.dx) + f * (g.y0 + (j' + 1) * g.dy) -
      (d + e * (g.x0 + i' * g.dx) + f * (g.y0 + (j' + 1) * g.dy))) * (g.yi y - j')) / g.dx = e := by
    rw [div_eq_iff hdx.ne']; ring
  have hj01 : ((a + b * (g.x0 + i' * g.dx) + c * (g.y0 + (j' + 1) * g.dy) - (a + b * (g.x0 + i' * g.dx) + c * (g.y0 + j' * g.dy))) *
      (1 - (g.xi x - i')) + (a + b * (g.x0 + (i' + 1) * g.dx) + c * (g.y0 + (j' + 1) * g.dy) -
      (a + b * (g.x0 + (i' + 1) * g.dx) + c * (g.y0 + j' * g.dy))) * (g.xi x - i')) / g.dy = c := by
    rw [div_eq_iff hdy.ne']; ring
  have hj11 : ((d + e * (g.x0 + i' * g.dx) + f * (g.y0 + (j' + 1) * g.dy) - (d + e * (g.x0 + i' * g.dx) + f * (g.y0 + j' * g.dy))) *
      (1 - (g.xi x - i')) + (d + e * (g.x0 + (i' + 1) * g.dx) + f * (g.y0 + (j' + 1) * g.dy) -
      (d + e * (g.x0 + (i' + 1) * g.dx) + f * (g.y0 + j' * g.dy))) * (g.xi x - i')) / g.dy = f := by
    rw [div_eq_iff hdy.ne']; ring
  rw [hj00, hj10, hj01, hj11, if_neg (not_le.mpr hdet), if_neg (not_le.mpr hn)]
  refine ⟨_, rfl, ?_, rfl, rfl, rfl, rfl⟩
  dsimp only
  refine Prod.ext ?_ ?_
  · dsimp only; linear_combination b * hX + c * hY
  · dsimp only; linear_combination e * hX + f * hY

end Skyborn.Plot.Curly
