/-
Arrays before they are drawn as curly vectors: axis order, global longitudes, sampling for another projection, uneven grids.
Modelled: plot/_shared/coords.py:150-160, 298-378; plot/_adapters/grid_prepare.py:107-196; plot/_adapters/dataset_vector.py:83-178;
plot/_adapters/cartopy_vector.py:64-144; plot/vector.py:149-175, 217-306, 476-545; SciPy's `RegularGridInterpolator` (linear).
-/
import Verif.Plot.Centers

namespace Skyborn.Plot.Prep

open Skyborn.Plot.Curly

/-! ## Model -/

/-- Values on a grid, row and column; `none`: not a number. -/
abbrev Field := ℕ → ℕ → Option ℝ

/-- What is drawn: axes (vectors of finite numbers), winds, and fields for colour and line width. Shapes are taken to match. -/
structure Src where
  /-- columns -/ x : List ℝ
  /-- rows -/ y : List ℝ
  /-- eastward -/ u : Field
  /-- northward -/ v : Field
  /-- colour and line width, as far as they are fields -/ s : List Field

/-- `field[:, ::-1]` for `n` columns. -/
def flipCols (n : ℕ) (f : Field) : Field := fun j i => f j (n - 1 - i)

/-- `field[::-1, :]` for `n` rows. -/
def flipRows (n : ℕ) (f : Field) : Field := fun j i => f (n - 1 - j) i

/-- The test for a descending axis at plot/_shared/coords.py:355, 364, grid_prepare.py:132, 138 and dataset_vector.py:107, 112. -/
def Desc (x : List ℝ) : Prop := 1 < x.length ∧ x.getD (x.length - 1) 0 < x.getD 0 0

open Classical in
/-- plot/_shared/coords.py:355-362, plot/_adapters/grid_prepare.py:132-136: columns in ascending order. -/
noncomputable def orientX (S : Src) : Src :=
  if Desc S.x then
    ⟨S.x.reverse, S.y, flipCols S.x.length S.u, flipCols S.x.length S.v, S.s.map (flipCols S.x.length)⟩
  else S

open Classical in
/-- plot/_shared/coords.py:364-371, plot/_adapters/grid_prepare.py:138-142: rows in ascending order. -/
noncomputable def orientY (S : Src) : Src :=
  if Desc S.y then
    ⟨S.x, S.y.reverse, flipRows S.y.length S.u, flipRows S.y.length S.v, S.s.map (flipRows S.y.length)⟩
  else S

/-- plot/_shared/coords.py:329-378 `_normalize_regular_grid_orientation` for vectors and matching shapes. -/
noncomputable def orient (S : Src) : Src := orientY (orientX S)

open Classical in
/-- plot/_adapters/dataset_vector.py:68-178: the same for a dataset; winds first, and colour and line width afterwards by the two flags
(selection, transposition by dimension names and shape tests are not modelled). -/
noncomputable def dataset (S : Src) : Src :=
  let xd : Bool := decide (Desc S.x)
  let yd : Bool := decide (Desc S.y)
  let wind (f : Field) : Field :=
    let f := if xd then flipCols S.x.length f else f
    if yd then flipRows S.y.length f else f
  let style (f : Field) : Field :=
    let f := if yd then flipRows S.y.length f else f
    if xd then flipCols S.x.length f else f
  ⟨if xd then S.x.reverse else S.x, if yd then S.y.reverse else S.y, wind S.u, wind S.v, S.s.map style⟩

/-- `np.diff`. -/
def diffs (x : List ℝ) : List ℝ := (List.range (x.length - 1)).map fun i => x.getD (i + 1) 0 - x.getD i 0

/-- `np.nanmedian` of finite numbers. -/
noncomputable def median (l : List ℝ) : ℝ :=
  let s := l.mergeSort fun a b => decide (a ≤ b)
  (s.getD ((l.length - 1) / 2) 0 + s.getD (l.length / 2) 0) / 2

open Classical in
/-- plot/_adapters/grid_prepare.py:154-159 `_grid_spans_full_longitude`. -/
noncomputable def spansFull (x : List ℝ) : Bool :=
  if x.length < 2 then false
  else
    let span := x.getD (x.length - 1) 0 - x.getD 0 0 + median (diffs x)
    decide (300 ≤ span ∧ span ≤ 370)

open Classical in
/-- plot/_adapters/grid_prepare.py:162-170 `_has_cyclic_longitude_endpoint`. -/
noncomputable def hasEndpoint (x : List ℝ) : Bool :=
  if x.length < 2 then false
  else
    let tolerance := max (1 / 10 ^ 6) (|median (diffs x)| * (1 / 10 ^ 3))
    decide (|x.getD (x.length - 1) 0 - x.getD 0 0 - 360| ≤ tolerance)

/-- plot/_adapters/grid_prepare.py:173-178: the field with its first column once more at the end. -/
def addCol (n : ℕ) (f : Field) : Field := fun j i => if i = n then f j 0 else f j i

open Classical in
/-- plot/_adapters/grid_prepare.py:107-151 `_prepare_source_vector_grid` for vectors and matching shapes. -/
noncomputable def prepared (S : Src) : Src :=
  let S := orient S
  if spansFull S.x then
    ⟨S.x ++ [S.x.getD 0 0 + 360], S.y, addCol S.x.length S.u, addCol S.x.length S.v, S.s.map (addCol S.x.length)⟩
  else S

/-- NumPy's `%`. -/
noncomputable def npMod (a p : ℝ) : ℝ := a - p * ⌊a / p⌋

open Classical in
/-- plot/_adapters/grid_prepare.py:181-196 `_wrap_periodic_grid_queries`. -/
noncomputable def wrapQuery (x : List ℝ) (q : ℝ) : ℝ :=
  if x.length < 2 then q
  else if hasEndpoint x = false ∧ spansFull x = false then q
  else
    let w := npMod (q - x.getD 0 0) 360 + x.getD 0 0
    if hasEndpoint x = false then (if x.getD (x.length - 1) 0 < w then w - 360 else w) else w

open Classical in
/-- SciPy `RegularGridInterpolator`: the interval of a value, the last one for the last node. -/
noncomputable def interval (x : List ℝ) (q : ℝ) : ℕ := Nat.findGreatest (fun i => x.getD i 0 ≤ q) (x.length - 2)

/-- Part of the interval. -/
noncomputable def part (x : List ℝ) (q : ℝ) : ℝ :=
  (q - x.getD (interval x q) 0) / (x.getD (interval x q + 1) 0 - x.getD (interval x q) 0)

open Classical in
/-- SciPy `RegularGridInterpolator(..., method="linear", bounds_error=False, fill_value=nan)` at column `qx` and row `qy`; axes of at least
two nodes. -/
noncomputable def rgi (x y : List ℝ) (f : Field) (qx qy : ℝ) : Option ℝ :=
  if qx < x.getD 0 0 ∨ x.getD (x.length - 1) 0 < qx ∨ qy < y.getD 0 0 ∨ y.getD (y.length - 1) 0 < qy then none
  else
    let i := interval x qx
    let j := interval y qy
    blend (part x qx) (part y qy) (f j i) (f j (i + 1)) (f (j + 1) i) (f (j + 1) (i + 1))

/-- `np.all(np.diff(x) > 0)`. -/
def Inc (x : List ℝ) : Prop := ∀ i, i + 1 < x.length → x.getD i 0 < x.getD (i + 1) 0

open Classical in
/-- plot/_adapters/cartopy_vector.py:64-144 `_regrid_cartopy_vectors` at one target point: `p` is the point in the coordinates of the data
(`none`: no such point), `R` turns winds there into the target projection. Winds and the other fields; `none`: `ValueError` (an axis that
is not strictly ascending, raised by SciPy). -/
noncomputable def cartopy (R : ℝ × ℝ → ℝ × ℝ → ℝ × ℝ) (S : Src) (p : Option (ℝ × ℝ)) : Option (Option (ℝ × ℝ) × List (Option ℝ)) :=
  let S := prepared S
  if ¬ (Inc S.x ∧ Inc S.y) then none
  else match p with
    | none => some (none, S.s.map fun _ => none)
    | some p =>
      let q := wrapQuery S.x p.1
      some (match rgi S.x S.y S.u q p.2, rgi S.x S.y S.v q p.2 with
        | some a, some b => some (R p (a, b))
        | _, _ => none, S.s.map fun f => rgi S.x S.y f q p.2)

open Classical in
/-- `np.argsort` where it is used at plot/vector.py:252-263: only if the axis is not ascending already. -/
noncomputable def order (x : List ℝ) : List ℕ :=
  if ∃ i, i + 1 < x.length ∧ x.getD (i + 1) 0 - x.getD i 0 ≤ 0 then
    (List.range x.length).mergeSort fun a b => decide (x.getD a 0 ≤ x.getD b 0)
  else List.range x.length

/-- `np.linspace(lo, hi, n)` in exact arithmetic. -/
noncomputable def linspace (lo hi : ℝ) (n : ℕ) : List ℝ := (List.range n).map fun i : ℕ => lo + (i : ℝ) * ((hi - lo) / ((n - 1 : ℕ) : ℝ))

open Classical in
/-- plot/vector.py:217-306 `_regrid_non_uniform_vectors_to_uniform` for vectors and matching shapes; `none`: `ValueError`. -/
noncomputable def evenGrid (S : Src) : Option Src :=
  let ox := order S.x
  let oy := order S.y
  let x := ox.map fun i => S.x.getD i 0
  let y := oy.map fun j => S.y.getD j 0
  let sorted (f : Field) : Field := fun j i => f (oy.getD j 0) (ox.getD i 0)
  if (∃ i, i + 1 < x.length ∧ x.getD (i + 1) 0 - x.getD i 0 ≤ 0) ∨ ∃ j, j + 1 < y.length ∧ y.getD (j + 1) 0 - y.getD j 0 ≤ 0 then none
  else
    let xu := linspace (x.getD 0 0) (x.getD (x.length - 1) 0) x.length
    let yu := linspace (y.getD 0 0) (y.getD (y.length - 1) 0) y.length
    let onto (f : Field) : Field := fun j i => rgi x y (sorted f) (xu.getD i 0) (yu.getD j 0)
    some ⟨xu, yu, onto S.u, onto S.v, S.s.map onto⟩

open Classical in
/-- plot/_shared/coords.py:150-160 `_axis_is_uniform`. -/
noncomputable def isUniform (x : List ℝ) : Bool :=
  if x.length < 3 then true
  else decide (∀ i, i + 1 < x.length → |x.getD (i + 1) 0 - x.getD i 0 - median (diffs x)| ≤ max (1 / 10 ^ 10) (|median (diffs x)| * (1 / 10 ^ 6)))

/-- plot/vector.py:149-175, 476-545: the arrays drawn by `_array_curly_vector` and whether they are drawn as an uneven grid; `preset`: a profile
preset was named, `allow`: `allow_non_uniform_grid`. -/
noncomputable def entry (S : Src) (preset allow : Bool) : Option (Src × Bool) :=
  if allow || preset || !(isUniform S.x) || !(isUniform S.y) then (evenGrid S).map fun T => (T, true)
  else some (orient S, false)

/-! ## Axis order -/

/-- The points that have data, with what they have: position, winds, and colour and line width. -/
def Spec.Has (S : Src) (X Y : ℝ) (u v : Option ℝ) (s : List (Option ℝ)) : Prop :=
  ∃ j < S.y.length, ∃ i < S.x.length, S.x.getD i 0 = X ∧ S.y.getD j 0 = Y ∧ S.u j i = u ∧ S.v j i = v ∧ S.s.map (fun f => f j i) = s

/-- Strictly descending. -/
def Spec.Dec (x : List ℝ) : Prop := ∀ i, i + 1 < x.length → x.getD (i + 1) 0 < x.getD i 0

theorem inc_lt {x : List ℝ} (h : Inc x) {i k : ℕ} (hik : i < k) (hk : k < x.length) : x.getD i 0 < x.getD k 0 := by
  induction k with
  | zero => omega
  | succ k ih =>
    rcases Nat.lt_succ_iff_lt_or_eq.1 hik with h' | rfl
    · exact (ih h' (by omega)).trans (h k hk)
    · exact h i hk

theorem dec_lt {x : List ℝ} (h : Spec.Dec x) {i k : ℕ} (hik : i < k) (hk : k < x.length) : x.getD k 0 < x.getD i 0 := by
  induction k with
  | zero => omega
  | succ k ih =>
    rcases Nat.lt_succ_iff_lt_or_eq.1 hik with h' | rfl
    · exact (h k hk).trans (ih h' (by omega))
    · exact h i hk

theorem getD_reverse {x : List ℝ} {i : ℕ} (hi : i < x.length) : x.reverse.getD i 0 = x.getD (x.length - 1 - i) 0 := by
  rw [List.getD_eq_getElem?_getD, List.getD_eq_getElem?_getD, List.getElem?_reverse hi]

private theorem has_X (S : Src) (X Y : ℝ) (u v : Option ℝ) (s : List (Option ℝ)) : Spec.Has (orientX S) X Y u v s ↔ Spec.Has S X Y u v s := by
  unfold orientX
  split_ifs with h
  swap
  · rfl
  unfold Spec.Has
  dsimp only
  constructor
  · rintro ⟨j, hj, i, hi, h1, h2, h3, h4, h5⟩
    rw [List.length_reverse] at hi
    refine ⟨j, hj, S.x.length - 1 - i, by omega, ?_, h2, h3, h4, ?_⟩
    · rw [← h1, getD_reverse hi]
    · rw [← h5, List.map_map]; rfl
  · rintro ⟨j, hj, i, hi, h1, h2, h3, h4, h5⟩
    have e : S.x.length - 1 - (S.x.length - 1 - i) = i := by omega
    refine ⟨j, hj, S.x.length - 1 - i, by rw [List.length_reverse]; omega, ?_, h2, ?_, ?_, ?_⟩
    · rw [getD_reverse (by omega), e, h1]
    · unfold flipCols; rw [e, h3]
    · unfold flipCols; rw [e, h4]
    · rw [← h5, List.map_map]
      refine List.map_congr_left fun f _ => ?_
      simp only [Function.comp, flipCols, e]

private theorem has_Y (S : Src) (X Y : ℝ) (u v : Option ℝ) (s : List (Option ℝ)) : Spec.Has (orientY S) X Y u v s ↔ Spec.Has S X Y u v s := by
  unfold orientY
  split_ifs with h
  swap
  · rfl
  unfold Spec.Has
  dsimp only
  constructor
  · rintro ⟨j, hj, i, hi, h1, h2, h3, h4, h5⟩
    rw [List.length_reverse] at hj
    refine ⟨S.y.length - 1 - j, by omega, i, hi, h1, ?_, h3, h4, ?_⟩
    · rw [← h2, getD_reverse hj]
    · rw [← h5, List.map_map]; rfl
  · rintro ⟨j, hj, i, hi, h1, h2, h3, h4, h5⟩
    have e : S.y.length - 1 - (S.y.length - 1 - j) = j := by omega
    refine ⟨S.y.length - 1 - j, by rw [List.length_reverse]; omega, i, hi, h1, ?_, ?_, ?_, ?_⟩
    · rw [getD_reverse (by omega), e, h2]
    · unfold flipRows; rw [e, h3]
    · unfold flipRows; rw [e, h4]
    · rw [← h5, List.map_map]
      refine List.map_congr_left fun f _ => ?_
      simp only [Function.comp, flipRows, e]

private theorem inc_reverse {x : List ℝ} (h : Spec.Dec x) : Inc x.reverse := by
  intro i hi
  rw [List.length_reverse] at hi
  rw [getD_reverse (by omega), getD_reverse (by omega)]
  exact dec_lt h (by omega) (by omega)

open Classical in
theorem axis_up {x : List ℝ} (h : Inc x ∨ Spec.Dec x) :
    Inc (if Desc x then x.reverse else x) ∧
    ((if Desc x then x.reverse else x) = x ∨ Spec.Dec x) := by
  split_ifs with hc
  · have hc1 := hc.1
    have hd : Spec.Dec x := by
      rcases h with h | h
      · exact absurd (inc_lt h (show 0 < x.length - 1 by omega) (by omega)) (not_lt.2 hc.2.le)
      · exact h
    exact ⟨inc_reverse hd, Or.inr hd⟩
  · refine ⟨?_, Or.inl rfl⟩
    rcases h with h | h
    · exact h
    · intro i hi
      exact absurd ⟨by omega, dec_lt h (show 0 < x.length - 1 by omega) (by omega)⟩ hc

open Classical in
theorem orient_x (S : Src) : (orient S).x = if Desc S.x then S.x.reverse else S.x := by
  unfold orient orientY orientX
  split_ifs <;> rfl

open Classical in
theorem orient_y (S : Src) : (orient S).y = if Desc S.y then S.y.reverse else S.y := by
  have h : (orientX S).y = S.y := by unfold orientX; split_ifs <;> rfl
  unfold orient orientY
  rw [h]
  split_ifs
  · rfl
  · exact h

/-- C297: turning descending axes round changes nothing: the same points have the same winds, colours and line widths, and axes that
ascend or descend strictly come out ascending. The same for datasets. -/
theorem C297_orientation (S : Src) :
    (∀ X Y u v s, Spec.Has (orient S) X Y u v s ↔ Spec.Has S X Y u v s) ∧
    (∀ X Y u v s, Spec.Has (dataset S) X Y u v s ↔ Spec.Has S X Y u v s) ∧
    (Inc S.x ∨ Spec.Dec S.x → Inc (orient S).x ∧ Inc (dataset S).x) ∧
    (Inc S.y ∨ Spec.Dec S.y → Inc (orient S).y ∧ Inc (dataset S).y) := by
  have h1 : ∀ X Y u v s, Spec.Has (orient S) X Y u v s ↔ Spec.Has S X Y u v s := by
    intro X Y u v s
    unfold orient
    rw [has_Y, has_X]
  have hds : dataset S = orient S := by
    have hy : (orientX S).y = S.y := by unfold orientX; split_ifs <;> rfl
    unfold dataset orient orientY
    rw [hy]
    unfold orientX
    by_cases hx : Desc S.x <;> by_cases hy : Desc S.y <;> simp only [hx, hy, decide_true, decide_false, if_true, if_false, Bool.false_eq_true]
    · rw [List.map_map]; rfl
    · simp
  rw [hds]
  refine ⟨h1, h1, fun h => ?_, fun h => ?_⟩
  · rw [orient_x]; exact ⟨(axis_up h).1, (axis_up h).1⟩
  · rw [orient_y]; exact ⟨(axis_up h).1, (axis_up h).1⟩

/-- A grid with descending latitudes is turned round. -/
example : (orient ⟨[0, 10, 20], [5, 0], fun j i => some (j + i), fun _ _ => none, []⟩).y = [0, 5] ∧
    (orient ⟨[0, 10, 20], [5, 0], fun j i => some (j + i), fun _ _ => none, []⟩).u 0 2 = some 3 := by
  have hx : ¬ Desc [0, 10, 20] := by rintro ⟨_, h⟩; norm_num at h
  have hy : Desc [5, 0] := ⟨by simp, by norm_num⟩
  refine ⟨by rw [orient_y, if_pos hy]; rfl, ?_⟩
  unfold orient orientX
  rw [if_neg hx]
  unfold orientY
  rw [if_pos hy]
  norm_num [flipRows]

end Skyborn.Plot.Prep
