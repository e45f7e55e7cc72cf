/-
Properties of the stipple lattice of `skyborn.plot.scatter(..., placement="cells")`.
Model in Verif/Plot/Cells.lean.
-/
import Verif.Plot.Cells
import Mathlib.Tactic.Positivity

namespace Skyborn.Plot

variable {α : Type*} [Field α] [LinearOrder α] [IsStrictOrderedRing α] [FloorRing α]

/-! ## Specification -/

namespace Spec

/-- Number of lattice columns for a cell that is `w` wide on the panel, at spacing `s`: enough of
them that neighbours are at most `s` apart, at least one, at most twelve. -/
def columns (w s : α) : ℤ := max 1 (min 12 ⌈w / s⌉)

/-- Strictly between two edges, whichever comes first. -/
def Between (a b v : α) : Prop := (a < v ∧ v < b) ∨ (b < v ∧ v < a)

/-- Extent of four numbers. -/
def extent (v : ℕ → α) : α :=
  max (max (v 0) (v 1)) (max (v 2) (v 3)) - min (min (v 0) (v 1)) (min (v 2) (v 3))

end Spec

/-! ## Proofs -/

theorem subCount_eq (lo hi s : α) : (subCount lo hi s : ℤ) = Spec.columns (hi - lo) s := by
  unfold subCount Spec.columns
  dsimp only
  split_ifs with h1 h2 <;> omega

theorem subCount_pos (lo hi s : α) : 1 ≤ subCount lo hi s ∧ subCount lo hi s ≤ 12 := by
  have := subCount_eq lo hi s
  unfold Spec.columns at this
  omega

private theorem ite_lt_min (a b : α) : (if a < b then a else b) = min b a := by
  split_ifs with h
  · rw [min_eq_right h.le]
  · rw [min_eq_left (not_lt.mp h)]

private theorem ite_gt_max (a b : α) : (if a > b then a else b) = max b a := by
  split_ifs with h
  · rw [max_eq_right h.le]
  · rw [max_eq_left (not_lt.mp h)]

theorem cornerBounds_some (m : ℕ → Option (Pt α)) (p : ℕ → Pt α)
    (h : ∀ c < 4, m c = some (p c)) :
    cornerBounds m = some
      ((min (min (p 0).x (p 1).x) (min (p 2).x (p 3).x), max (max (p 0).x (p 1).x) (max (p 2).x (p 3).x)),
       (min (min (p 0).y (p 1).y) (min (p 2).y (p 3).y), max (max (p 0).y (p 1).y) (max (p 2).y (p 3).y))) := by
  unfold cornerBounds
  rw [h 0 (by omega)]
  simp only [List.foldl_cons, List.foldl_nil, h 0 (by omega), h 1 (by omega), h 2 (by omega),
    h 3 (by omega), ite_lt_min, ite_gt_max, min_self, max_self, min_assoc, max_assoc]

theorem cornerBounds_none (m : ℕ → Option (Pt α)) (c : ℕ) (hc : c < 4) (h : m c = none) :
    cornerBounds m = none := by
  unfold cornerBounds
  cases h0 : m 0 with
  | none => rfl
  | some p0 =>
    simp only [List.foldl_cons, List.foldl_nil, h0]
    interval_cases c
    · rw [h0] at h; cases h
    · simp only [h]
    · simp only [h]
      cases m 1 <;> rfl
    · simp only [h]
      cases m 1 <;> cases m 2 <;> rfl

/-- The number of rows written for a cell. -/
theorem cellCandidates_length (corner : ℕ → Pt α) (mapped : ℕ → Option (Pt α)) (src : Pt α)
    (s : α) (cell : ℕ) :
    (cellCandidates corner mapped src s cell).length =
      match cornerBounds mapped with
      | none => 1
      | some ((a, b), (c, d)) => subCount a b s * subCount c d s := by
  unfold cellCandidates
  cases h : cornerBounds mapped with
  | none => rfl
  | some v =>
    obtain ⟨⟨a, b⟩, ⟨c, d⟩⟩ := v
    simp only [List.length_flatMap, List.length_map, List.length_range, List.map_const', List.sum_replicate,
      smul_eq_mul]
    rw [Nat.mul_comm]

theorem frac_bounds (k n : ℕ) (h : k < n) :
    0 < ((k : α) + 1 / 2) / n ∧ ((k : α) + 1 / 2) / n < 1 := by
  have hn : (0 : α) < n := by exact_mod_cast (by omega : 0 < n)
  have hk : (k : α) + 1 ≤ n := by exact_mod_cast h
  have hk0 : (0 : α) ≤ k := Nat.cast_nonneg k
  constructor
  · positivity
  · rw [div_lt_one hn]; linarith

private theorem between_mix {a b t : α} (h0 : 0 < t) (h1 : t < 1) (hab : a ≠ b) :
    Spec.Between a b ((1 - t) * a + t * b) := by
  rcases lt_or_gt_of_ne hab with h | h
  · left; constructor <;> nlinarith
  · right; constructor <;> nlinarith

private theorem mixX (a b u v : α) : (1 - u) * (1 - v) * a + u * (1 - v) * b + u * v * b +
    (1 - u) * v * a = (1 - u) * a + u * b := by ring

private theorem mixY (a b u v : α) : (1 - u) * (1 - v) * a + u * (1 - v) * a + u * v * b +
    (1 - u) * v * b = (1 - v) * a + v * b := by ring

/-- A lattice point of a rectilinear cell is strictly inside the cell. -/
theorem latticePoint_inside (xe ye : ℕ → α) (iy ix subX subY row col : ℕ) (hr : row < subY)
    (hc : col < subX) (hx : xe ix ≠ xe (ix + 1)) (hy : ye iy ≠ ye (iy + 1)) :
    Spec.Between (xe ix) (xe (ix + 1)) (latticePoint (rectCorner xe ye iy ix) subX subY row col).x ∧
    Spec.Between (ye iy) (ye (iy + 1)) (latticePoint (rectCorner xe ye iy ix) subX subY row col).y := by
  obtain ⟨u0, u1⟩ := frac_bounds (α := α) col subX hc
  obtain ⟨v0, v1⟩ := frac_bounds (α := α) row subY hr
  have ex := between_mix u0 u1 hx
  have ey := between_mix v0 v1 hy
  have e1 : (latticePoint (rectCorner xe ye iy ix) subX subY row col).x = _ :=
    mixX (xe ix) (xe (ix + 1)) (((col : α) + 1 / 2) / subX) (((row : α) + 1 / 2) / subY)
  have e2 : (latticePoint (rectCorner xe ye iy ix) subX subY row col).y = _ :=
    mixY (ye iy) (ye (iy + 1)) (((col : α) + 1 / 2) / subX) (((row : α) + 1 / 2) / subY)
  rw [e1, e2]
  exact ⟨ex, ey⟩

/-- C251: every stipple point drawn for a selected cell of a rectilinear grid lies strictly inside
that cell and is credited to that cell; every selected cell gets at least one and at most 144
points; and the number of rows written equals the number the output was sized for.  Holds for every
transform, panel, spacing and selection. -/
theorem C251_inside (T : Pt α → Option (Pt α)) (vx0 vy0 vw vh : α) (n : ℕ)
    (iy ix : ℕ → ℕ) (xe ye : ℕ → α) (source : ℕ → Pt α) (spacing : Option α)
    (hx : ∀ i, i < n → xe (ix i) ≠ xe (ix i + 1)) (hy : ∀ i, i < n → ye (iy i) ≠ ye (iy i + 1))
    (hsrc : ∀ i, i < n → Spec.Between (xe (ix i)) (xe (ix i + 1)) (source i).x ∧
      Spec.Between (ye (iy i)) (ye (iy i + 1)) (source i).y) :
    let corners := fun cell => rectCorner xe ye (iy cell) (ix cell)
    let out := scatterCells T vx0 vy0 vw vh n corners source spacing
    (∀ q ∈ out, q.2 < n ∧
      Spec.Between (xe (ix q.2)) (xe (ix q.2 + 1)) q.1.x ∧
      Spec.Between (ye (iy q.2)) (ye (iy q.2 + 1)) q.1.y) ∧
    (∀ cell < n, 1 ≤ (out.filter (fun q => q.2 = cell)).length ∧
      (out.filter (fun q => q.2 = cell)).length ≤ 144) ∧
    (0 < n → out.length = countPass (mappedCorner T vx0 vy0 vw vh n corners)
      (max (spacing.getD (3 / 100)) (1 / 1000000)) n) := by
  intro corners out
  by_cases hn : n = 0
  · subst hn
    refine ⟨?_, fun cell h => absurd h (Nat.not_lt_zero _), fun h => absurd h (Nat.not_lt_zero _)⟩
    intro q hq
    simp [out, scatterCells] at hq
  have hsp : ¬ (max (spacing.getD (3 / 100)) (1 / 1000000) : α) < 1 / 1000000 :=
    not_lt.mpr (le_max_right _ _)
  have hout : out = (List.range n).flatMap (fun cell =>
      cellCandidates (corners cell) (mappedCorner T vx0 vy0 vw vh n corners cell) (source cell)
        (max (spacing.getD (3 / 100)) (1 / 1000000)) cell) := by
    simp only [out, scatterCells, if_neg hn, generateCells, if_neg hsp]
  have hcell : ∀ cell, ∀ q ∈ cellCandidates (corners cell)
      (mappedCorner T vx0 vy0 vw vh n corners cell) (source cell)
        (max (spacing.getD (3 / 100)) (1 / 1000000)) cell, q.2 = cell := by
    intro cell q hq
    unfold cellCandidates at hq
    split at hq
    · rw [List.mem_singleton.mp hq]
    · simp only [List.mem_flatMap, List.mem_map] at hq
      obtain ⟨row, -, col, -, rfl⟩ := hq
      rfl
  refine ⟨?_, ?_, ?_⟩
  · intro q hq
    rw [hout, List.mem_flatMap] at hq
    obtain ⟨cell, hc, hq⟩ := hq
    have hc' : cell < n := List.mem_range.mp hc
    have hqc := hcell cell q hq
    rw [hqc]
    refine ⟨hc', ?_⟩
    unfold cellCandidates at hq
    split at hq
    · rw [List.mem_singleton.mp hq]
      exact hsrc cell hc'
    · simp only [List.mem_flatMap, List.mem_map, List.mem_range] at hq
      obtain ⟨row, hr, col, hcol, rfl⟩ := hq
      exact latticePoint_inside xe ye (iy cell) (ix cell) _ _ row col hr hcol (hx cell hc') (hy cell hc')
  · intro cell hc
    have hfil : out.filter (fun q => q.2 = cell) =
        cellCandidates (corners cell) (mappedCorner T vx0 vy0 vw vh n corners cell) (source cell)
          (max (spacing.getD (3 / 100)) (1 / 1000000)) cell := by
      rw [hout, List.filter_flatMap]
      have h1 : ∀ m, m ≤ n → (List.range m).flatMap (fun a => List.filter (fun q => decide (q.2 = cell))
          (cellCandidates (corners a) (mappedCorner T vx0 vy0 vw vh n corners a) (source a)
            (max (spacing.getD (3 / 100)) (1 / 1000000)) a)) =
          if cell < m then cellCandidates (corners cell) (mappedCorner T vx0 vy0 vw vh n corners cell)
            (source cell) (max (spacing.getD (3 / 100)) (1 / 1000000)) cell else [] := by
        intro m
        induction m with
        | zero => intro _; simp
        | succ m ih =>
          intro hm
          rw [List.range_succ, List.flatMap_append, ih (by omega)]
          simp only [List.flatMap_cons, List.flatMap_nil, List.append_nil]
          by_cases hmc : m = cell
          · subst hmc
            rw [if_neg (by omega), if_pos (by omega), List.nil_append, List.filter_eq_self]
            intro q hq
            simpa using hcell m q hq
          · have : List.filter (fun q => decide (q.2 = cell))
                (cellCandidates (corners m) (mappedCorner T vx0 vy0 vw vh n corners m) (source m)
                  (max (spacing.getD (3 / 100)) (1 / 1000000)) m) = [] := by
              rw [List.filter_eq_nil_iff]
              intro q hq
              simpa using (hcell m q hq).symm ▸ hmc
            rw [this, List.append_nil]
            by_cases h : cell < m
            · rw [if_pos h, if_pos (by omega)]
            · rw [if_neg h, if_neg (by omega)]
      rw [h1 n le_rfl, if_pos hc]
    rw [hfil, cellCandidates_length]
    split
    · omega
    · rename_i a b c d _
      have h1 := subCount_pos a b (max (spacing.getD (3 / 100)) (1 / 1000000) : α)
      have h2 := subCount_pos c d (max (spacing.getD (3 / 100)) (1 / 1000000) : α)
      constructor
      · exact Nat.mul_pos h1.1 h2.1
      · calc _ ≤ 12 * 12 := Nat.mul_le_mul h1.2 h2.2
          _ = 144 := rfl
  · intro _
    rw [hout]
    unfold countPass
    have h1 : ∀ m, ((List.range m).flatMap (fun cell =>
        cellCandidates (corners cell) (mappedCorner T vx0 vy0 vw vh n corners cell) (source cell)
          (max (spacing.getD (3 / 100)) (1 / 1000000)) cell)).length =
        (List.range m).foldl (fun total cell =>
          match cornerBounds (mappedCorner T vx0 vy0 vw vh n corners cell) with
          | none => total + 1
          | some ((minX, maxX), (minY, maxY)) =>
            total + subCount minX maxX (max (spacing.getD (3 / 100)) (1 / 1000000)) *
              subCount minY maxY (max (spacing.getD (3 / 100)) (1 / 1000000))) 0 := by
      intro m
      induction m with
      | zero => rfl
      | succ m ih =>
        rw [List.range_succ, List.flatMap_append, List.length_append, ih, List.foldl_append]
        simp only [List.flatMap_cons, List.flatMap_nil, List.append_nil, List.foldl_cons,
          List.foldl_nil, cellCandidates_length]
        split <;> simp_all
    exact h1 n

/-- The full statement of C252: each selected cell gets the lattice that fits its own extent on
the panel. -/
def C252_statement : Prop :=
  ∀ (T : Pt ℚ → Option (Pt ℚ)) (vx0 vy0 vw vh : ℚ) (n : ℕ) (iy ix : ℕ → ℕ) (xe ye : ℕ → ℚ)
    (source : ℕ → Pt ℚ) (s : ℚ), 1 / 1000000 ≤ s →
    ∀ cell < n, ∀ p : ℕ → Pt ℚ,
      (∀ c < 4, T (rectCorner xe ye (iy cell) (ix cell) c) = some (p c)) →
      (((scatterCells T vx0 vy0 vw vh n (fun k => rectCorner xe ye (iy k) (ix k)) source (some s)).filter
        (fun q => q.2 = cell)).length : ℤ) =
        Spec.columns (Spec.extent (fun c => (mapToViewport vx0 vy0 vw vh (p c)).x)) s *
        Spec.columns (Spec.extent (fun c => (mapToViewport vx0 vy0 vw vh (p c)).y)) s

/-- C252 is false: with two selected cells at opposite ends of the panel, each one tenth of the panel
wide and the spacing one tenth, each cell should get one point but gets ten: the display corners of
different cells are mixed up when the transformed rows are reshaped. -/
theorem C252_false : ¬ C252_statement := by
  intro h
  have h1 := h (fun p => some p) 0 0 10 10 2 (fun _ => 0) (fun k => 9 * k) (fun i => i) (fun i => i)
    (fun _ => ⟨0, 0⟩) (1 / 10) (by norm_num) 0 (by norm_num)
    (rectCorner (fun i => (i : ℚ)) (fun i => (i : ℚ)) 0 0) (fun c _ => rfl)
  revert h1
  decide +kernel

/-- C252, the part that holds: when exactly one cell is selected it gets the lattice that fits its own
extent on the panel. Missing: two or more selected cells (false, see `C252_false`). -/
theorem C252_lattice_partial (T : Pt α → Option (Pt α)) (vx0 vy0 vw vh : α) (iy ix : ℕ)
    (xe ye : ℕ → α) (source : Pt α) (s : α) (hs : 1 / 1000000 ≤ s) (p : ℕ → Pt α)
    (hp : ∀ c < 4, T (rectCorner xe ye iy ix c) = some (p c)) :
    ((scatterCells T vx0 vy0 vw vh 1 (fun _ => rectCorner xe ye iy ix) (fun _ => source)
      (some s)).length : ℤ) =
      Spec.columns (Spec.extent (fun c => (mapToViewport vx0 vy0 vw vh (p c)).x)) s *
      Spec.columns (Spec.extent (fun c => (mapToViewport vx0 vy0 vw vh (p c)).y)) s := by
  have hs' : ¬ s < 1 / 1000000 := not_lt.mpr hs
  have hb := cornerBounds_some (mappedCorner T vx0 vy0 vw vh 1 (fun _ => rectCorner xe ye iy ix) 0)
    (fun c => mapToViewport vx0 vy0 vw vh (p c)) (by
      intro c hc
      unfold mappedCorner
      dsimp only
      have e : (c * 1 + 0) % 4 = c := by omega
      rw [e, hp c hc]; rfl)
  unfold scatterCells generateCells
  rw [if_neg one_ne_zero]
  simp only [Option.getD_some, max_eq_left hs, if_neg hs', List.range_one, List.flatMap_cons,
    List.flatMap_nil, List.append_nil, cellCandidates_length, hb]
  push_cast
  rw [subCount_eq, subCount_eq]
  rfl

/-- The hypotheses of `C251_inside` and `C252_lattice_partial` are met by a 3 by 3 unit grid. -/
example : ∀ i : ℕ, i < 2 → (fun i : ℕ => (i : ℚ)) i ≠ (fun i : ℕ => (i : ℚ)) (i + 1) := by
  intro i _; simp
example : Spec.Between (0 : ℚ) 1 (1 / 2) := by left; norm_num
example : (scatterCells (fun p : Pt ℚ => some p) 0 0 10 10 1
    (fun _ => rectCorner (fun i => (i : ℚ)) (fun i => 2 * (i : ℚ)) 1 1) (fun _ => ⟨3 / 2, 3⟩)
    (some (1 / 10))).map Prod.fst = [⟨3 / 2, 5 / 2⟩, ⟨3 / 2, 7 / 2⟩] := by decide +kernel

end Skyborn.Plot
