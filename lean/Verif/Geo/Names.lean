/-
The xarray interface of the geostrophic wind functions: recognising the axes by name.
Models /repo/src/skyborn/calc/geostrophic/xarray.py `_detect_spatial_dimensions`, `_create_dim_order_string` and the way
`geostrophic_wind` (xarray.py:218-376) uses them. `str.lower()` is modelled for ASCII names. Coordinate look-up, attributes and the assembly
of the Dataset are not modelled.
-/
import Verif.Geo.Props

namespace Skyborn.Geo
open Skyborn Windspharm

/-- Python `pat in s`. -/
def occurs (pat s : List Char) : Bool := s.tails.any fun t => pat.isPrefixOf t

/-- xarray.py:65-75 `lon_names`, lower-cased. -/
def lonNames : List (List Char) :=
  [['l', 'o', 'n'], ['l', 'o', 'n', 'g', 'i', 't', 'u', 'd', 'e'], ['x'], ['x', 'l', 'o', 'n'], ['l', 'o', 'n', 's'], ['l', 'o', 'n', 'g']]
/-- xarray.py:76 `lat_names`, lower-cased. -/
def latNames : List (List Char) :=
  [['l', 'a', 't'], ['l', 'a', 't', 'i', 't', 'u', 'd', 'e'], ['y'], ['y', 'l', 'a', 't'], ['l', 'a', 't', 's'], ['l', 'a', 't', 'i']]

/-- xarray.py:83, 85 `any(name.lower() in dim_lower for name in names)`. -/
def likes (names : List (List Char)) (dim : List Char) : Bool := names.any fun p => occurs p (dim.map Char.toLower)

/-- xarray.py:78-86 the detection loop from dimension number `i` on. -/
def detectLoop : ℕ → List (List Char) → Option ℕ × Option ℕ → Option ℕ × Option ℕ
  | _, [], s => s
  | i, d :: ds, s => detectLoop (i + 1) ds (if likes lonNames d then (some i, s.2) else if likes latNames d then (s.1, some i) else s)

/-- xarray.py:40-96 `_detect_spatial_dimensions`; `none` = ValueError. -/
def detect (dims : List (List Char)) : Option (ℕ × ℕ) :=
  match detectLoop 0 dims (none, none) with
  | (some x, some y) => some (x, y)
  | _ => none

/-- xarray.py:185 `time_names`, lower-cased. -/
def timeNames : List (List Char) :=
  [['t', 'i', 'm', 'e'], ['t'], ['y', 'e', 'a', 'r'], ['m', 'o', 'n', 't', 'h'], ['y', 'r'], ['m', 'n'], ['s', 'e', 'a', 's', 'o', 'n']]
/-- xarray.py:186-201 `level_names`, lower-cased. -/
def levelNames : List (List Char) :=
  [['l', 'e', 'v', 'e', 'l'], ['l', 'e', 'v'], ['p', 'l', 'e', 'v'], ['p', 'r', 'e', 's', 's', 'u', 'r', 'e'],
   ['p', 'r', 'e', 's', 's', 'u', 'r', 'e', '_', 'l', 'e', 'v', 'e', 'l'], ['z'], ['p', 'r', 'e', 's'], ['p', 'l', 'e', 'v', 'e', 'l'],
   ['h', 'e', 'i', 'g', 'h', 't'], ['a', 'l', 't', 'i', 't', 'u', 'd', 'e'], ['i', 's', 'o', 'b', 'a', 'r', 'i', 'c']]

/-- xarray.py:204-213 the letter of a dimension that is neither longitude nor latitude. -/
def letter (dim : List Char) : Char := if likes timeNames dim then 't' else if likes levelNames dim then 'z' else 't'

/-- xarray.py:159-215 `_create_dim_order_string`: latitude is assigned after longitude. -/
def makeOrder (dims : List (List Char)) (x y : ℕ) : List Char :=
  (List.range dims.length).map fun i => if i = y then 'y' else if i = x then 'x' else letter (dims.getD i [])

/-- xarray.py:305-324 the xarray `geostrophic_wind` up to the call of the core function (`none` = ValueError of the detection). -/
noncomputable def windX (f32 : ℝ → ℝ) (z : NDArr ℝ) (dims : List (List Char)) (lon lat : List ℝ) (missing : ℝ) (r0 : Rows) (zz0 : ℕ → ℕ → ℝ)
    (out0 : ℕ → Wind) : Option (Except GErr (NDArr ℝ × NDArr ℝ)) :=
  (detect dims).map fun xy => geostrophicWind f32 z lon lat (makeOrder dims xy.1 xy.2) missing r0 zz0 out0

theorem detectLoop_eq (ds : List (List Char)) : ∀ (i x y : ℕ) (s : Option ℕ × Option ℕ),
    (∀ k, k < ds.length → (likes lonNames (ds.getD k []) = true ↔ i + k = x)) →
    (∀ k, k < ds.length → i + k ≠ x → (likes latNames (ds.getD k []) = true ↔ i + k = y)) →
    (detectLoop i ds s).1 = (if i ≤ x ∧ x < i + ds.length then some x else s.1) ∧
      (detectLoop i ds s).2 = (if i ≤ y ∧ y < i + ds.length ∧ y ≠ x then some y else s.2) := by
  induction ds with
  | nil =>
    intro i x y s _ _
    simp only [detectLoop, List.length_nil]
    rw [if_neg (by omega), if_neg (by omega)]; exact ⟨rfl, rfl⟩
  | cons d ds ih =>
    intro i x y s h1 h2
    rw [detectLoop]
    have h1' : ∀ k, k < ds.length → (likes lonNames (ds.getD k []) = true ↔ i + 1 + k = x) := by
      intro k hk
      have := h1 (k + 1) (by simp; omega)
      rw [List.getD_cons_succ] at this
      rw [this]; constructor <;> intro h <;> omega
    have h2' : ∀ k, k < ds.length → i + 1 + k ≠ x → (likes latNames (ds.getD k []) = true ↔ i + 1 + k = y) := by
      intro k hk hx
      have := h2 (k + 1) (by simp; omega) (by omega)
      rw [List.getD_cons_succ] at this
      rw [this]; constructor <;> intro h <;> omega
    have a1 := h1 0 (by simp)
    have a2 := h2 0 (by simp)
    simp only [List.getD_cons_zero, Nat.add_zero] at a1 a2
    obtain ⟨b1, b2⟩ := ih (i + 1) x y (if likes lonNames d then (some i, s.2) else if likes latNames d then (s.1, some i) else s) h1' h2'
    rw [b1, b2]
    simp only [List.length_cons]
    by_cases hx : i = x
    · rw [if_pos (a1.mpr hx)]
      subst hx
      dsimp only
      rw [if_neg (by omega), if_pos (by omega)]
      refine ⟨rfl, ?_⟩
      by_cases hy : i + 1 ≤ y ∧ y < i + 1 + ds.length ∧ y ≠ i
      · rw [if_pos hy, if_pos (by omega)]
      · rw [if_neg hy, if_neg (by omega)]
    · have hl : ¬ likes lonNames d = true := fun h => hx (a1.mp h)
      rw [if_neg hl]
      constructor
      · have : (if likes latNames d = true then (s.1, some i) else s).1 = s.1 := by split <;> rfl
        rw [this]
        by_cases hq : i + 1 ≤ x ∧ x < i + 1 + ds.length
        · rw [if_pos hq, if_pos (by omega)]
        · rw [if_neg hq, if_neg (by omega)]
      · by_cases hy : i = y
        · rw [if_pos ((a2 hx).mpr hy)]
          subst hy
          dsimp only
          rw [if_neg (by omega), if_pos (by omega)]
        · rw [if_neg (fun h => hy ((a2 hx).mp h))]
          by_cases hq : i + 1 ≤ y ∧ y < i + 1 + ds.length ∧ y ≠ x
          · rw [if_pos hq, if_pos (by omega)]
          · rw [if_neg hq, if_neg (by omega)]

/-! ## C102: the axes of a DataArray -/

/-- C102: when exactly one dimension name contains a longitude pattern and, among the others, exactly one contains a latitude pattern, these two are
taken as longitude and latitude. -/
theorem C102_detect_partial (dims : List (List Char)) (x y : ℕ) (hx : x < dims.length) (hy : y < dims.length) (hxy : y ≠ x)
    (hlon : ∀ k, k < dims.length → (likes lonNames (dims.getD k []) = true ↔ k = x))
    (hlat : ∀ k, k < dims.length → k ≠ x → (likes latNames (dims.getD k []) = true ↔ k = y)) : detect dims = some (x, y) := by
  obtain ⟨h1, h2⟩ := detectLoop_eq dims 0 x y (none, none) (by simpa using hlon) (by simpa using hlat)
  rw [if_pos (by omega)] at h1
  rw [if_pos (by omega)] at h2
  unfold detect
  generalize detectLoop 0 dims (none, none) = s at h1 h2
  obtain ⟨s1, s2⟩ := s
  dsimp only at h1 h2
  subst h1 h2
  rfl

/-- `('time', 'lat', 'lon')` meets the hypotheses, with longitude axis 2 and latitude axis 1. -/
example : let dims : List (List Char) := [['t', 'i', 'm', 'e'], ['l', 'a', 't'], ['l', 'o', 'n']]
    (∀ k, k < dims.length → (likes lonNames (dims.getD k []) = true ↔ k = 2)) ∧
    (∀ k, k < dims.length → k ≠ 2 → (likes latNames (dims.getD k []) = true ↔ k = 1)) := by decide

/-- C102 is false of the code: a later dimension whose name contains the letter `y` or `x` replaces the real one. `('lat', 'lon', 'day')` is read as
latitude = `day`; `('lat', 'lon', 'experiment')` as longitude = `experiment`. -/
theorem C102_false :
    detect [['l', 'a', 't'], ['l', 'o', 'n'], ['d', 'a', 'y']] = some (1, 2) ∧
    detect [['l', 'a', 't'], ['l', 'o', 'n'], ['e', 'x', 'p', 'e', 'r', 'i', 'm', 'e', 'n', 't']] = some (2, 0) := by decide

/-! ## C103: more than one further axis -/

theorem makeOrder_getD {dims : List (List Char)} {x y i : ℕ} (h : i < dims.length) :
    (makeOrder dims x y)[i]'(by simp [makeOrder, h]) = if i = y then 'y' else if i = x then 'x' else letter (dims.getD i []) := by
  simp [makeOrder]

theorem letter_cases (d : List Char) : letter d = 't' ∨ letter d = 'z' := by
  unfold letter; split
  · exact Or.inl rfl
  · split
    · exact Or.inr rfl
    · exact Or.inl rfl

/-- C103: if no two of the further dimensions are of the same kind (time-like or level-like), the dimension string names the axes correctly, so the wind of a
DataArray whose latitudes increase is the specified one (2-D data must be latitude–longitude). -/
theorem C103_order_partial (dims : List (List Char)) (x y : ℕ) (hx : x < dims.length) (hy : y < dims.length) (hxy : y ≠ x)
    (hkind : ∀ i k, i < dims.length → k < dims.length → i ≠ x → i ≠ y → k ≠ x → k ≠ y → letter (dims.getD i []) = letter (dims.getD k []) → i = k)
    (hflat : dims.length = 2 → y = 0) : Named (makeOrder dims x y) dims.length y x := by
  have hlen : (makeOrder dims x y).length = dims.length := by simp [makeOrder]
  have hnd : (makeOrder dims x y).Nodup := by
    rw [List.nodup_iff_injective_getElem]
    rintro ⟨i, hi⟩ ⟨k, hk⟩ h
    rw [hlen] at hi hk
    simp only [makeOrder_getD hi, makeOrder_getD hk] at h
    simp only [Fin.mk.injEq]
    rcases letter_cases (dims.getD i []) with hli | hli <;> rcases letter_cases (dims.getD k []) with hlk | hlk <;>
    · by_cases a1 : i = y
      · by_cases b1 : k = y
        · omega
        · rw [if_pos a1, if_neg b1] at h
          by_cases b2 : k = x
          · rw [if_pos b2] at h; exact absurd h (by decide)
          · rw [if_neg b2, hlk] at h; exact absurd h (by decide)
      · rw [if_neg a1] at h
        by_cases a2 : i = x
        · rw [if_pos a2] at h
          by_cases b1 : k = y
          · rw [if_pos b1] at h; exact absurd h (by decide)
          · rw [if_neg b1] at h
            by_cases b2 : k = x
            · omega
            · rw [if_neg b2, hlk] at h; exact absurd h (by decide)
        · rw [if_neg a2] at h
          by_cases b1 : k = y
          · rw [if_pos b1, hli] at h; exact absurd h (by decide)
          · rw [if_neg b1] at h
            by_cases b2 : k = x
            · rw [if_pos b2, hli] at h; exact absurd h (by decide)
            · rw [if_neg b2] at h
              exact hkind i k hi hk a2 a1 b2 b1 h
  have hlow : (makeOrder dims x y).map Char.toLower = makeOrder dims x y := by
    apply List.ext_getElem (by simp)
    intro i h1 h2
    rw [hlen] at h2
    rw [List.getElem_map, makeOrder_getD h2]
    split
    · decide
    · split
      · decide
      · rcases letter_cases (dims.getD i []) with h | h <;> rw [h] <;> decide
  have gx : (makeOrder dims x y)[x]'(by rw [hlen]; exact hx) = 'x' := by rw [makeOrder_getD hx, if_neg (Ne.symm hxy), if_pos rfl]
  have gy : (makeOrder dims x y)[y]'(by rw [hlen]; exact hy) = 'y' := by rw [makeOrder_getD hy, if_pos rfl]
  refine ⟨⟨hnd, gx ▸ List.getElem_mem _, gy ▸ List.getElem_mem _, by rw [hlow], by rw [hlow], hlen.le⟩, ?_, ?_, hflat⟩
  · rw [← gy, hnd.idxOf_getElem]
  · rw [← gx, hnd.idxOf_getElem]

/-- `('time', 'level', 'lat', 'lon')` meets the hypotheses. -/
example : let dims : List (List Char) := [['t', 'i', 'm', 'e'], ['l', 'e', 'v', 'e', 'l'], ['l', 'a', 't'], ['l', 'o', 'n']]
    ∀ i k, i < dims.length → k < dims.length → i ≠ 3 → i ≠ 2 → k ≠ 3 → k ≠ 2 → letter (dims.getD i []) = letter (dims.getD k []) → i = k := by
  intro dims i k hi hk h1 h2 h3 h4
  have hi' : i = 0 ∨ i = 1 := by simp [dims] at hi; omega
  have hk' : k = 0 ∨ k = 1 := by simp [dims] at hk; omega
  rcases hi' with rfl | rfl <;> rcases hk' with rfl | rfl <;> decide

/-- C103 is false of the code for two further dimensions of the same kind: `('time', 'member', 'lat', 'lon')` becomes `'ttyx'`, and the winds of a
(2, 3, 4, 5) field come back with shape (5, 2, 4, 3). -/
theorem C103_false (c : ℝ) (missing : ℝ) (r0 : Rows) (zz0 : ℕ → ℕ → ℝ) (out0 : ℕ → Wind) :
    ∃ u v, windX id ⟨[2, 3, 4, 5], fun _ => c⟩ [['t', 'i', 'm', 'e'], ['m', 'e', 'm', 'b', 'e', 'r'], ['l', 'a', 't'], ['l', 'o', 'n']]
      [0, 10, 20, 30, 40] [10, 20, 30, 40] missing r0 zz0 out0 = some (.ok (u, v)) ∧ u.shape = [5, 2, 4, 3] := by
  have hd : detect [['t', 'i', 'm', 'e'], ['m', 'e', 'm', 'b', 'e', 'r'], ['l', 'a', 't'], ['l', 'o', 'n']] = some (3, 2) := by decide
  have ho : makeOrder [['t', 'i', 'm', 'e'], ['m', 'e', 'm', 'b', 'e', 'r'], ['l', 'a', 't'], ['l', 'o', 'n']] 3 2 = ['t', 't', 'y', 'x'] := by decide
  unfold windX
  rw [hd]
  simp only [Option.map_some, ho]
  have hsn : ensureSN (⟨[2, 3, 4, 5], fun _ => c⟩ : NDArr ℝ) [10, 20, 30, 40] ['t', 't', 'y', 'x'] = .ok (⟨[2, 3, 4, 5], fun _ => c⟩, [10, 20, 30, 40]) := by
    unfold ensureSN; simp; norm_num
  obtain ⟨p, info, ep, hps, hrec⟩ : ∃ p info, prepData (⟨[2, 3, 4, 5], fun _ => c⟩ : NDArr ℝ) ['t', 't', 'y', 'x'] = some (p, info) ∧
      p.shape = [4, 5, 6] ∧ ∀ q : List ℕ → ℝ, ∃ b, recoverData (⟨[4, 5, 6], q⟩ : NDArr ℝ) info = some b ∧ b.shape = [5, 2, 4, 3] :=
    ⟨_, _, rfl, rfl, fun q => ⟨_, rfl, rfl⟩⟩
  have hlt : fvec [10, 20, 30, 40] 1 < fvec [10, 20, 30, 40] 2 := by norm_num [fvec]
  obtain ⟨out, eo, -⟩ := z2geouv3d_eq (n := 4) (m := 5) (n3 := 6) (by norm_num) (by norm_num) (fun i j k => id (p.get [i - 1, j - 1, k - 1])) missing
    (fvec [0, 10, 20, 30, 40]) (fvec [10, 20, 30, 40]) (isCyclic [0, 10, 20, 30, 40]) r0 zz0 out0 hlt
  obtain ⟨u, eu, hu⟩ := hrec (fun idx => (out (idx.getD 2 0 + 1)).u (idx.getD 0 0 + 1) (idx.getD 1 0 + 1))
  obtain ⟨v, ev, -⟩ := hrec (fun idx => (out (idx.getD 2 0 + 1)).v (idx.getD 0 0 + 1) (idx.getD 1 0 + 1))
  refine ⟨u, v, ?_, hu⟩
  unfold geostrophicWind
  simp only [hsn, Except.bind, bind]
  rw [if_pos (by simp)]
  unfold multidim
  rw [ep]
  simp only [orRaise, bind, Except.bind]
  rw [hps]
  simp only [List.length_cons, List.length_nil]
  rw [if_neg (by norm_num), if_neg (by norm_num), eo]
  simp only [orCrash]
  rw [eu, ev]

end Skyborn.Geo
