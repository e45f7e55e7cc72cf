/-
Curly vectors on maps: sampling winds on longitudes and latitudes for another projection.
Modelled: as in `Plot/Prepare`.
-/
import Verif.Plot.Prepare

namespace Skyborn.Plot.Prep

open Skyborn.Plot.Curly

/-! ## Median and intervals -/

private theorem sorted_mem (l : List ℝ) (k : ℕ) (hk : k < l.length) : (l.mergeSort fun a b => decide (a ≤ b)).getD k 0 ∈ l := by
  have hp := List.mergeSort_perm l fun a b => decide (a ≤ b)
  have : k < (l.mergeSort fun a b => decide (a ≤ b)).length := by rw [hp.length_eq]; exact hk
  rw [List.getD_eq_getElem?_getD, List.getElem?_eq_getElem this, Option.getD_some]
  exact hp.subset (List.getElem_mem this)

theorem median_bounds {l : List ℝ} {lo hi : ℝ} (hl : l ≠ []) (h : ∀ z ∈ l, lo ≤ z ∧ z ≤ hi) : lo ≤ median l ∧ median l ≤ hi := by
  have hp := List.length_pos_iff.2 hl
  obtain ⟨a1, a2⟩ := h _ (sorted_mem l ((l.length - 1) / 2) (by omega))
  obtain ⟨b1, b2⟩ := h _ (sorted_mem l (l.length / 2) (by omega))
  unfold median
  dsimp only
  constructor <;> linarith

theorem mem_diffs {x : List ℝ} {z : ℝ} (h : z ∈ diffs x) : ∃ i, i + 1 < x.length ∧ z = x.getD (i + 1) 0 - x.getD i 0 := by
  unfold diffs at h
  obtain ⟨i, hi, rfl⟩ := List.mem_map.1 h
  rw [List.mem_range] at hi
  exact ⟨i, by omega, rfl⟩

theorem diffs_ne {x : List ℝ} (h : 2 ≤ x.length) : diffs x ≠ [] := by
  rw [← List.length_pos_iff]
  unfold diffs
  rw [List.length_map, List.length_range]
  omega

theorem median_pos {x : List ℝ} (h : Inc x) (h2 : 2 ≤ x.length) : 0 ≤ median (diffs x) := by
  by_contra hn
  have hb : ∃ hi, ∀ z ∈ diffs x, z ≤ hi := by
    generalize diffs x = l
    induction l with
    | nil => exact ⟨0, by simp⟩
    | cons a l ih =>
      obtain ⟨hi, hh⟩ := ih
      refine ⟨max a hi, fun z hz => ?_⟩
      rcases List.mem_cons.1 hz with rfl | hz
      · exact le_max_left _ _
      · exact (hh z hz).trans (le_max_right _ _)
  obtain ⟨hi, hb⟩ := hb
  have := (median_bounds (lo := 0) (hi := hi) (diffs_ne h2) fun z hz => ⟨by
    obtain ⟨i, hi, rfl⟩ := mem_diffs hz
    linarith [h i hi], hb z hz⟩).1
  exact hn this

/-- Equally spaced. -/
def Spec.Even (x : List ℝ) (o d : ℝ) : Prop := ∀ i < x.length, x.getD i 0 = o + i * d

theorem median_even {x : List ℝ} {o d : ℝ} (h : Spec.Even x o d) (h2 : 2 ≤ x.length) : median (diffs x) = d := by
  have hb := median_bounds (l := diffs x) (lo := d) (hi := d) (diffs_ne h2) (by
    intro z hz
    obtain ⟨i, hi, rfl⟩ := mem_diffs hz
    rw [h _ hi, h i (by omega)]
    push_cast
    constructor <;> linarith)
  linarith [hb.1, hb.2]

theorem even_inc {x : List ℝ} {o d : ℝ} (h : Spec.Even x o d) (hd : 0 < d) : Inc x := by
  intro i hi
  rw [h _ hi, h i (by omega)]
  push_cast
  linarith

theorem inc_le {x : List ℝ} (h : Inc x) {i k : ℕ} (hik : i ≤ k) (hk : k < x.length) : x.getD i 0 ≤ x.getD k 0 := by
  rcases hik.lt_or_eq with h' | rfl
  · exact (inc_lt h h' hk).le
  · exact le_rfl

theorem interval_eq {x : List ℝ} (h : Inc x) {i : ℕ} (hi : i + 1 < x.length) {q : ℝ} (h1 : x.getD i 0 ≤ q)
    (h2 : q < x.getD (i + 1) 0 ∨ i + 2 = x.length) : interval x q = i := by
  unfold interval
  rw [Nat.findGreatest_eq_iff]
  refine ⟨by omega, fun _ => h1, fun k hk hk' hle => ?_⟩
  rcases h2 with h2 | h2
  · exact absurd (inc_le h (show i + 1 ≤ k from hk) (by omega)) (not_le.2 (lt_of_le_of_lt hle h2))
  · omega

theorem part_eq {x : List ℝ} (h : Inc x) {i : ℕ} (hi : i + 1 < x.length) {s : ℝ} (h0 : 0 ≤ s) (h1 : s < 1 ∨ s = 1 ∧ i + 2 = x.length) :
    interval x (x.getD i 0 + s * (x.getD (i + 1) 0 - x.getD i 0)) = i ∧ part x (x.getD i 0 + s * (x.getD (i + 1) 0 - x.getD i 0)) = s := by
  have hp := sub_pos.2 (h i hi)
  have e := interval_eq h hi (q := x.getD i 0 + s * (x.getD (i + 1) 0 - x.getD i 0)) (by nlinarith) (by
    rcases h1 with h1 | h1
    · left; nlinarith
    · right; exact h1.2)
  refine ⟨e, ?_⟩
  unfold part
  rw [e]
  field_simp
  ring

/-- Values between four nodes. -/
theorem rgi_eq {x y : List ℝ} (hx : Inc x) (hy : Inc y) {i j : ℕ} (hi : i + 1 < x.length) (hj : j + 1 < y.length) {s t : ℝ} (hs0 : 0 ≤ s)
    (hs1 : s < 1 ∨ s = 1 ∧ i + 2 = x.length) (ht0 : 0 ≤ t) (ht1 : t < 1 ∨ t = 1 ∧ j + 2 = y.length) (f : Field) :
    rgi x y f (x.getD i 0 + s * (x.getD (i + 1) 0 - x.getD i 0)) (y.getD j 0 + t * (y.getD (j + 1) 0 - y.getD j 0)) =
      blend s t (f j i) (f j (i + 1)) (f (j + 1) i) (f (j + 1) (i + 1)) := by
  obtain ⟨e1, e2⟩ := part_eq hx hi hs0 hs1
  obtain ⟨e3, e4⟩ := part_eq hy hj ht0 ht1
  unfold rgi
  rw [e1, e2, e3, e4]
  have px := hx i hi
  have py := hy j hj
  have a1 := inc_le hx (Nat.zero_le i) (by omega)
  have a2 := inc_le hx (show i + 1 ≤ x.length - 1 by omega) (by omega)
  have a3 := inc_le hy (Nat.zero_le j) (by omega)
  have a4 := inc_le hy (show j + 1 ≤ y.length - 1 by omega) (by omega)
  have s1 : s ≤ 1 := by rcases hs1 with h | h <;> linarith [h]
  have t1 : t ≤ 1 := by rcases ht1 with h | h <;> linarith [h]
  rw [if_neg]
  push Not
  refine ⟨by nlinarith, by nlinarith, by nlinarith, by nlinarith⟩

/-! ## Global and regional grids -/

/-- Finite numbers everywhere. -/
def lift (g : ℕ → ℕ → ℝ) : Field := fun j i => some (g j i)

theorem orient_inc {S : Src} (hx : Inc S.x) (hy : Inc S.y) : orient S = S := by
  have key : ∀ {z : List ℝ}, Inc z → ¬ Desc z := by
    rintro z hz ⟨h1, h2⟩
    exact absurd (inc_lt hz (show 0 < z.length - 1 by omega) (by omega)) (not_lt.2 h2.le)
  unfold orient orientX
  rw [if_neg (key hx)]
  unfold orientY
  rw [if_neg (key hy)]

theorem spansFull_iff {x : List ℝ} (h2 : 2 ≤ x.length) : spansFull x = true ↔
    300 ≤ x.getD (x.length - 1) 0 - x.getD 0 0 + median (diffs x) ∧ x.getD (x.length - 1) 0 - x.getD 0 0 + median (diffs x) ≤ 370 := by
  unfold spansFull
  rw [if_neg (by omega)]
  simp

private theorem getD_append_lt {x : List ℝ} {z : ℝ} {i : ℕ} (h : i < x.length) : (x ++ [z]).getD i 0 = x.getD i 0 := by
  rw [List.getD_eq_getElem?_getD, List.getD_eq_getElem?_getD, List.getElem?_append_left h]

private theorem getD_append_last {x : List ℝ} {z : ℝ} : (x ++ [z]).getD x.length 0 = z := by
  rw [List.getD_eq_getElem?_getD, List.getElem?_append_right le_rfl]
  simp

private theorem inc_append {x : List ℝ} {z : ℝ} (h : Inc x) (h2 : 2 ≤ x.length) : Inc (x ++ [z]) ↔ x.getD (x.length - 1) 0 < z := by
  constructor
  · intro h'
    have := h' (x.length - 1) (by simp; omega)
    rw [getD_append_lt (by omega), show x.length - 1 + 1 = x.length by omega, getD_append_last] at this
    exact this
  · intro h' i hi
    rw [List.length_append, List.length_singleton] at hi
    rcases Nat.lt_or_ge (i + 1) x.length with h3 | h3
    · rw [getD_append_lt (by omega), getD_append_lt h3]; exact h i h3
    · have : i = x.length - 1 := by omega
      subst this
      rw [getD_append_lt (by omega), show x.length - 1 + 1 = x.length by omega, getD_append_last]
      exact h'

private theorem endpoint_append {x : List ℝ} (h2 : 2 ≤ x.length) : hasEndpoint (x ++ [x.getD 0 0 + 360]) = true := by
  unfold hasEndpoint
  rw [if_neg (by rw [List.length_append, List.length_singleton]; omega)]
  dsimp only
  rw [List.length_append, List.length_singleton, Nat.add_sub_cancel, getD_append_last, getD_append_lt (by omega), add_sub_cancel_left,
    sub_self, abs_zero, decide_eq_true_eq]
  exact le_max_of_le_left (by norm_num)

private theorem wrap_endpoint {x : List ℝ} (h2 : 2 ≤ x.length) (he : hasEndpoint x = true) (q : ℝ) :
    wrapQuery x q = npMod (q - x.getD 0 0) 360 + x.getD 0 0 := by
  unfold wrapQuery
  rw [if_neg (by omega), he]
  simp

private theorem npMod_eq {a r : ℝ} {k : ℤ} (h : a = r + 360 * k) (h0 : 0 ≤ r) (h1 : r < 360) : npMod a 360 = r := by
  have : ⌊a / 360⌋ = k := by
    rw [Int.floor_eq_iff]
    constructor
    · rw [le_div_iff₀ (by norm_num)]; linarith
    · rw [div_lt_iff₀ (by norm_num)]; linarith
  unfold npMod
  rw [this]; linarith

/-- The prepared arrays of a grid that is taken to go round. -/
theorem prepared_full {S : Src} (hx : Inc S.x) (hy : Inc S.y) (h : spansFull S.x = true) : prepared S =
    ⟨S.x ++ [S.x.getD 0 0 + 360], S.y, addCol S.x.length S.u, addCol S.x.length S.v, S.s.map (addCol S.x.length)⟩ := by
  unfold prepared
  rw [orient_inc hx hy]
  dsimp only
  rw [if_pos h]

theorem prepared_part {S : Src} (hx : Inc S.x) (hy : Inc S.y) (h : spansFull S.x = false) : prepared S = S := by
  unfold prepared
  rw [orient_inc hx hy]
  dsimp only
  rw [h]
  simp

/-- Values at a point between two columns, the second of which may be the repeated one. -/
private theorem cartopy_full {x y : List ℝ} (hx : Inc x) (hy : Inc y) (h2 : 2 ≤ x.length) (hs : spansFull x = true)
    (hlast : x.getD (x.length - 1) 0 < x.getD 0 0 + 360) (g h : ℕ → ℕ → ℝ) (cs : List (ℕ → ℕ → ℝ)) (R : ℝ × ℝ → ℝ × ℝ → ℝ × ℝ)
    {i j : ℕ} (hi : i < x.length) (hj : j + 1 < y.length) {s t : ℝ} (hs0 : 0 ≤ s) (hs1 : s < 1) (ht0 : 0 ≤ t) (ht1 : t < 1 ∨ t = 1 ∧ j + 2 = y.length)
    (k : ℤ) (e : ℝ) (he : e = if i + 1 < x.length then x.getD (i + 1) 0 else x.getD 0 0 + 360) (q Y : ℝ)
    (hq : q = x.getD i 0 + s * (e - x.getD i 0) + 360 * k) (hY : Y = y.getD j 0 + t * (y.getD (j + 1) 0 - y.getD j 0)) :
    ∀ B : (ℕ → ℕ → ℝ) → ℝ, (B = fun c => (c j i * (1 - s) + c j ((i + 1) % x.length) * s) * (1 - t) +
      (c (j + 1) i * (1 - s) + c (j + 1) ((i + 1) % x.length) * s) * t) →
    cartopy R ⟨x, y, lift g, lift h, cs.map lift⟩ (some (q, Y)) = some (some (R (q, Y) (B g, B h)), cs.map fun c => some (B c)) := by
  intro B hB
  have hinc := (inc_append hx h2 (z := x.getD 0 0 + 360)).2 hlast
  have hnode : (x ++ [x.getD 0 0 + 360]).getD (i + 1) 0 = e := by
    rw [he]
    split_ifs with h'
    · exact getD_append_lt h'
    · rw [show i + 1 = x.length by omega]; exact getD_append_last
  have hei : x.getD i 0 < e := by
    have := hinc i (by simp; omega)
    rwa [hnode, getD_append_lt hi] at this
  have hlo : x.getD 0 0 ≤ x.getD i 0 := inc_le hx (Nat.zero_le _) hi
  have hhi : e ≤ x.getD 0 0 + 360 := by
    rw [he]
    split_ifs with h'
    · exact (inc_le hx (show i + 1 ≤ x.length - 1 by omega) (by omega)).trans hlast.le
    · exact le_rfl
  have hwrap : wrapQuery (x ++ [x.getD 0 0 + 360]) q = x.getD i 0 + s * (e - x.getD i 0) := by
    rw [wrap_endpoint (by simp; omega) (endpoint_append h2), getD_append_lt (by omega),
      npMod_eq (r := x.getD i 0 + s * (e - x.getD i 0) - x.getD 0 0) (k := k) (by rw [hq]; ring) (by nlinarith) (by nlinarith)]
    ring
  have hval : ∀ c, rgi (x ++ [x.getD 0 0 + 360]) y (addCol x.length (lift c)) (wrapQuery (x ++ [x.getD 0 0 + 360]) q) Y = some (B c) := by
    intro c
    have := rgi_eq hinc hy (i := i) (j := j) (by simp; omega) hj hs0 (Or.inl hs1) ht0 ht1 (addCol x.length (lift c))
    rw [hnode, getD_append_lt hi] at this
    rw [hwrap, hY, this, hB]
    have a1 : ∀ r, addCol x.length (lift c) r i = some (c r i) := by
      intro r; unfold addCol lift; rw [if_neg (by omega)]
    have a2 : ∀ r, addCol x.length (lift c) r (i + 1) = some (c r ((i + 1) % x.length)) := by
      intro r; unfold addCol lift
      split_ifs with h'
      · rw [h', Nat.mod_self]
      · rw [Nat.mod_eq_of_lt (by omega)]
    rw [a1, a1, a2, a2]
    rfl
  unfold cartopy
  rw [prepared_full hx hy hs]
  dsimp only
  rw [if_neg (not_not.2 ⟨hinc, hy⟩), hval, hval, List.map_map, List.map_map]
  congr 2
  refine List.map_congr_left fun c _ => ?_
  exact hval c

/-- C298: on a global grid (equally spaced longitudes once round the globe), for any target point: winds, colours and line widths are the
bilinear interpolation between the four neighbours on the globe, the last column being followed by the first, whatever multiple of 360 the
longitude of the point is given with. -/
theorem C298_global (x y : List ℝ) (o d : ℝ) (hd : 0 < d) (hx : Spec.Even x o d) (h2 : 2 ≤ x.length) (hn : x.length * d = 360) (hy : Inc y)
    (g h : ℕ → ℕ → ℝ) (cs : List (ℕ → ℕ → ℝ)) (R : ℝ × ℝ → ℝ × ℝ → ℝ × ℝ) (i j : ℕ) (hi : i < x.length) (hj : j + 1 < y.length) (s t : ℝ)
    (hs0 : 0 ≤ s) (hs1 : s < 1) (ht0 : 0 ≤ t) (ht1 : t < 1 ∨ t = 1 ∧ j + 2 = y.length) (k : ℤ) (q Y : ℝ) (hq : q = o + (i + s) * d + 360 * k)
    (hY : Y = (1 - t) * y.getD j 0 + t * y.getD (j + 1) 0) (B : (ℕ → ℕ → ℝ) → ℝ)
    (hB : B = fun c => (1 - t) * ((1 - s) * c j i + s * c j ((i + 1) % x.length)) + t * ((1 - s) * c (j + 1) i + s * c (j + 1) ((i + 1) % x.length))) :
    cartopy R ⟨x, y, lift g, lift h, cs.map lift⟩ (some (q, Y)) = some (some (R (q, Y) (B g, B h)), cs.map fun c => some (B c)) := by
  have hinc := even_inc hx hd
  have e0 : x.getD 0 0 = o := by rw [hx 0 (by omega)]; simp
  have el : x.getD (x.length - 1) 0 = o + 360 - d := by
    rw [hx _ (by omega), Nat.cast_sub (by omega)]; push_cast; linarith
  have hs : spansFull x = true := by
    rw [spansFull_iff h2, median_even hx h2, el, e0]
    constructor <;> linarith
  refine cartopy_full hinc hy h2 hs (by rw [el, e0]; linarith) g h cs R hi hj hs0 hs1 ht0 ht1 k (o + (i + 1) * d) ?_ q Y ?_ ?_ B ?_
  · split_ifs with h'
    · rw [hx _ h']; push_cast; ring
    · have : ((i + 1 : ℕ) : ℝ) = (x.length : ℕ) := by rw [show i + 1 = x.length by omega]
      push_cast at this
      rw [e0, this, hn]
  · rw [hq, hx i hi]; ring
  · rw [hY]; ring
  · rw [hB]; funext c; ring

/-! ### Errors -/

/-- C299, expected: winds on ascending longitudes and latitudes can be drawn in another projection. -/
def C299_statement : Prop :=
  ∀ (R : ℝ × ℝ → ℝ × ℝ → ℝ × ℝ) (S : Src) (p : Option (ℝ × ℝ)), Inc S.x → Inc S.y → 2 ≤ S.x.length → 2 ≤ S.y.length → cartopy R S p ≠ none

/-- C299: ascending axes fail exactly if the longitudes reach 360 degrees or more and this, plus the median spacing, is at most 370. -/
theorem C299_partial (R : ℝ × ℝ → ℝ × ℝ → ℝ × ℝ) (S : Src) (p : Option (ℝ × ℝ)) (hx : Inc S.x) (hy : Inc S.y) (h2 : 2 ≤ S.x.length) :
    cartopy R S p = none ↔ 360 ≤ S.x.getD (S.x.length - 1) 0 - S.x.getD 0 0 ∧
      S.x.getD (S.x.length - 1) 0 - S.x.getD 0 0 + median (diffs S.x) ≤ 370 := by
  have hm := median_pos hx h2
  have hnone : cartopy R S p = none ↔ ¬ (Inc (prepared S).x ∧ Inc (prepared S).y) := by
    unfold cartopy
    dsimp only
    split_ifs with h
    · rcases p with _ | p <;> simp [h]
    · simp [h]
  rw [hnone]
  rcases hs : spansFull S.x with _ | _
  · have hns : ¬ _ := fun h => by
      have := (spansFull_iff h2).2 h
      rw [hs] at this; cases this
    rw [prepared_part hx hy hs]
    refine ⟨fun h => absurd ⟨hx, hy⟩ h, fun h => absurd ⟨by linarith [h.1], h.2⟩ hns⟩
  · have hsp := (spansFull_iff h2).1 hs
    rw [prepared_full hx hy hs]
    dsimp only
    rw [inc_append hx h2]
    constructor
    · intro h
      have : ¬ S.x.getD (S.x.length - 1) 0 < S.x.getD 0 0 + 360 := fun h' => h ⟨h', hy⟩
      exact ⟨by linarith, hsp.2⟩
    · rintro ⟨h, _⟩ ⟨h', _⟩
      linarith

/-- Longitudes 0, 10, …, `10 (n - 1)`. -/
noncomputable def tens (n : ℕ) : List ℝ := (List.range n).map fun i : ℕ => 0 + (i : ℝ) * 10

theorem tens_even (n : ℕ) : Spec.Even (tens n) 0 10 ∧ (tens n).length = n := by
  have hl : (tens n).length = n := by unfold tens; simp
  refine ⟨fun i hi => ?_, hl⟩
  rw [hl] at hi
  unfold tens
  rw [List.getD_eq_getElem?_getD, List.getElem?_eq_getElem (by simpa using hi)]
  simp

/-- C299: an equally spaced grid that repeats its first longitude at 360 degrees fails, if its spacing is 10 degrees or less. -/
theorem C299_endpoint (R : ℝ × ℝ → ℝ × ℝ → ℝ × ℝ) (S : Src) (p : Option (ℝ × ℝ)) (o d : ℝ) (hx : Spec.Even S.x o d) (hd : 0 < d) (h10 : d ≤ 10)
    (hy : Inc S.y) (h2 : 2 ≤ S.x.length) (hn : ((S.x.length - 1 : ℕ) : ℝ) * d = 360) : cartopy R S p = none := by
  rw [C299_partial R S p (even_inc hx hd) hy h2, median_even hx h2, hx _ (show S.x.length - 1 < S.x.length by omega), hx 0 (by omega), hn]
  constructor
  · simp
  · simp; linarith

private theorem inc01 : Inc [0, 1] := by
  intro i hi
  have : i = 0 := by simp at hi; omega
  subst this; simp

/-- **C299** (false): 0, 10, …, 360. -/
theorem C299_false : ¬ C299_statement := by
  intro h
  obtain ⟨e, hl⟩ := tens_even 37
  refine h (fun _ w => w) ⟨tens 37, [0, 1], lift fun _ _ => 1, lift fun _ _ => 0, []⟩ none (even_inc e (by norm_num)) inc01 (by dsimp only; omega) (by simp) ?_
  exact C299_endpoint _ ⟨tens 37, [0, 1], lift fun _ _ => 1, lift fun _ _ => 0, []⟩ none 0 10 e (by norm_num) le_rfl inc01 (by dsimp only; omega)
    (by dsimp only; rw [hl]; norm_num)

/-! ### Longitudes without data -/

/-- C300, expected: where the grid has no data, 30 degrees or more of the globe, nothing is drawn. -/
def C300_statement : Prop :=
  ∀ (S : Src) (q Y : ℝ) (r : Option (ℝ × ℝ) × List (Option ℝ)), Inc S.x → Inc S.y → 2 ≤ S.x.length → 2 ≤ S.y.length →
    S.x.getD (S.x.length - 1) 0 - S.x.getD 0 0 ≤ 330 →
    (∀ k : ℤ, ¬ (S.x.getD 0 0 ≤ q + 360 * k ∧ q + 360 * k ≤ S.x.getD (S.x.length - 1) 0)) →
    cartopy (fun _ w => w) S (some (q, Y)) = some r → r.1 = none

/-- C300: if the longitudes and a median spacing cover 300 degrees, the gap is filled by interpolation between the last and the first column. -/
theorem C300_gap (x y : List ℝ) (hx : Inc x) (hy : Inc y) (h2 : 2 ≤ x.length) (h300 : 300 ≤ x.getD (x.length - 1) 0 - x.getD 0 0 + median (diffs x))
    (h370 : x.getD (x.length - 1) 0 - x.getD 0 0 + median (diffs x) ≤ 370) (hlast : x.getD (x.length - 1) 0 < x.getD 0 0 + 360)
    (g h : ℕ → ℕ → ℝ) (cs : List (ℕ → ℕ → ℝ)) (R : ℝ × ℝ → ℝ × ℝ → ℝ × ℝ) (j : ℕ) (hj : j < y.length - 1) (s : ℝ) (hs0 : 0 ≤ s) (hs1 : s < 1)
    (k : ℤ) (q : ℝ) (hq : q = (1 - s) * x.getD (x.length - 1) 0 + s * (x.getD 0 0 + 360) + 360 * k) (B : (ℕ → ℕ → ℝ) → ℝ)
    (hB : B = fun c => (1 - s) * c j (x.length - 1) + s * c j 0) :
    cartopy R ⟨x, y, lift g, lift h, cs.map lift⟩ (some (q, y.getD j 0)) =
      some (some (R (q, y.getD j 0) (B g, B h)), cs.map fun c => some (B c)) := by
  refine cartopy_full hx hy h2 ((spansFull_iff h2).2 ⟨h300, h370⟩) hlast g h cs R (i := x.length - 1) (j := j) (by omega) (by omega) hs0 hs1 le_rfl
    (Or.inl one_pos) k (x.getD 0 0 + 360) ?_ q _ ?_ (by ring) B ?_
  · rw [if_neg (by omega)]
  · rw [hq]; ring
  · rw [hB]; funext c
    rw [show x.length - 1 + 1 = x.length by omega, Nat.mod_self]; ring

/-- **C300** (false): data from 0 to 310, drawn at 335. -/
theorem C300_false : ¬ C300_statement := by
  intro h
  obtain ⟨e, hl⟩ := tens_even 32
  have hinc := even_inc e (by norm_num)
  have e0 : (tens 32).getD 0 0 = 0 := by rw [e 0 (by omega)]; simp
  have el : (tens 32).getD 31 0 = 310 := by rw [e 31 (by omega)]; norm_num
  have hm := median_even e (by omega)
  have := h ⟨tens 32, [0, 1], lift fun _ _ => 1, lift fun _ _ => 1, [].map lift⟩ 335 0 _ hinc inc01 (by dsimp only; omega) (by simp) (by
    dsimp only; rw [hl]; norm_num only; rw [el, e0]; norm_num) (by
    intro k
    dsimp only
    rw [hl]; norm_num only
    rw [el, e0]
    rintro ⟨h1, h2⟩
    have a1 : (-1 : ℝ) < k := by linarith
    have a2 : (k : ℝ) < 0 := by linarith
    have b1 : (-1 : ℤ) < k := by exact_mod_cast a1
    have b2 : k < 0 := by exact_mod_cast a2
    omega) (C300_gap (tens 32) [0, 1] hinc inc01 (by omega) (by rw [hm, hl]; norm_num only; rw [el, e0]; norm_num)
      (by rw [hm, hl]; norm_num only; rw [el, e0]; norm_num) (by rw [hl]; norm_num only; rw [el, e0]; norm_num) (fun _ _ => 1) (fun _ _ => 1) []
      (fun _ w => w) 0 (by simp) (1 / 2) (by norm_num) (by norm_num) 0 335 (by rw [hl]; norm_num only; rw [el, e0]; norm_num) _ rfl)
  cases this

private theorem regional {x : List ℝ} (hx : Inc x) (h2 : 2 ≤ x.length) (h : x.getD (x.length - 1) 0 - x.getD 0 0 + median (diffs x) < 300) :
    spansFull x = false ∧ ∀ q, wrapQuery x q = q := by
  have hm := median_pos hx h2
  have hlast := inc_lt hx (show 0 < x.length - 1 by omega) (by omega)
  have hs : spansFull x = false := by
    rw [← Bool.not_eq_true, spansFull_iff h2]
    rintro ⟨h1, _⟩; linarith
  have he : hasEndpoint x = false := by
    unfold hasEndpoint
    rw [if_neg (by omega)]
    dsimp only
    rw [decide_eq_false_iff_not, not_le, abs_of_nonneg hm, abs_of_neg (show x.getD (x.length - 1) 0 - x.getD 0 0 - 360 < 0 by linarith), max_lt_iff]
    constructor
    · have : (1 : ℝ) / 10 ^ 6 < 60 := by norm_num
      linarith
    · have : median (diffs x) * (1 / 10 ^ 3) ≤ median (diffs x) := by nlinarith
      linarith
  refine ⟨hs, fun q => ?_⟩
  unfold wrapQuery
  rw [if_neg (by omega), if_pos ⟨he, hs⟩]

/-- C300: if longitudes and median spacing cover less than 300 degrees, nothing is drawn outside. -/
theorem C300_partial (R : ℝ × ℝ → ℝ × ℝ → ℝ × ℝ) (S : Src) (q Y : ℝ) (hx : Inc S.x) (hy : Inc S.y) (h2 : 2 ≤ S.x.length)
    (h : S.x.getD (S.x.length - 1) 0 - S.x.getD 0 0 + median (diffs S.x) < 300)
    (hq : q < S.x.getD 0 0 ∨ S.x.getD (S.x.length - 1) 0 < q ∨ Y < S.y.getD 0 0 ∨ S.y.getD (S.y.length - 1) 0 < Y) :
    cartopy R S (some (q, Y)) = some (none, S.s.map fun _ => none) := by
  obtain ⟨h1, h3⟩ := regional hx h2 h
  have hr : ∀ f, rgi S.x S.y f q Y = none := by
    intro f; unfold rgi; rw [if_pos hq]
  unfold cartopy
  rw [prepared_part hx hy h1]
  dsimp only
  rw [if_neg (not_not.2 ⟨hx, hy⟩), h3]
  simp only [hr]

/-! ### Full turns -/

/-- C301, expected: a point gets the same values whether its longitude is given as `q` or with full turns added. -/
def C301_statement : Prop :=
  ∀ (S : Src) (q Y : ℝ) (k : ℤ), Inc S.x → Inc S.y → 2 ≤ S.x.length → 2 ≤ S.y.length →
    cartopy (fun _ w => w) S (some (q + 360 * k, Y)) = cartopy (fun _ w => w) S (some (q, Y))

/-- C301: this holds for grids whose longitudes and a median spacing cover 300 to 370 degrees. -/
theorem C301_partial (S : Src) (q Y : ℝ) (k : ℤ) (hx : Inc S.x) (hy : Inc S.y) (h2 : 2 ≤ S.x.length)
    (h300 : 300 ≤ S.x.getD (S.x.length - 1) 0 - S.x.getD 0 0 + median (diffs S.x))
    (h370 : S.x.getD (S.x.length - 1) 0 - S.x.getD 0 0 + median (diffs S.x) ≤ 370) :
    cartopy (fun _ w => w) S (some (q + 360 * k, Y)) = cartopy (fun _ w => w) S (some (q, Y)) := by
  have hw : wrapQuery (S.x ++ [S.x.getD 0 0 + 360]) (q + 360 * k) = wrapQuery (S.x ++ [S.x.getD 0 0 + 360]) q := by
    rw [wrap_endpoint (by simp; omega) (endpoint_append h2), wrap_endpoint (by simp; omega) (endpoint_append h2)]
    congr 1
    unfold npMod
    have : (q + 360 * k - (S.x ++ [S.x.getD 0 0 + 360]).getD 0 0) / 360 = (q - (S.x ++ [S.x.getD 0 0 + 360]).getD 0 0) / 360 + k := by
      field_simp; ring
    rw [this, Int.floor_add_intCast]
    push_cast
    ring
  unfold cartopy
  rw [prepared_full hx hy ((spansFull_iff h2).2 ⟨h300, h370⟩)]
  dsimp only
  rw [hw]

/-- **C301** (false): data from 200 to 280 are found at 240, but not at -120. -/
theorem C301_false : ¬ C301_statement := by
  intro h
  have e : Spec.Even [200, 240, 280] 200 40 := by
    intro i hi
    have : i = 0 ∨ i = 1 ∨ i = 2 := by simp at hi; omega
    rcases this with rfl | rfl | rfl <;> norm_num
  have hinc := even_inc e (by norm_num)
  have hm := median_even e (by simp)
  have hspan : ([200, 240, 280] : List ℝ).getD (([200, 240, 280] : List ℝ).length - 1) 0 - ([200, 240, 280] : List ℝ).getD 0 0 +
      median (diffs [200, 240, 280]) < 300 := by rw [hm]; norm_num
  obtain ⟨h1, h3⟩ := regional hinc (by simp) hspan
  have a := C300_partial (fun _ w => w) ⟨[200, 240, 280], [0, 1], lift fun _ _ => 1, lift fun _ _ => 1, []⟩ (-120) 0 hinc inc01 (by simp) hspan
    (Or.inl (by norm_num))
  have b := h ⟨[200, 240, 280], [0, 1], lift fun _ _ => 1, lift fun _ _ => 1, []⟩ 240 0 (-1) hinc inc01 (by simp) (by simp)
  rw [show (240 : ℝ) + 360 * ((-1 : ℤ) : ℝ) = -120 by norm_num, a] at b
  have hv := rgi_eq hinc inc01 (i := 1) (j := 0) (by simp) (by simp) (s := 0) (t := 0) le_rfl (Or.inl one_pos) le_rfl (Or.inl one_pos)
    (lift fun _ _ => 1)
  have hv' : rgi [200, 240, 280] [0, 1] (lift fun _ _ => 1) 240 0 = some 1 := by
    have e1 : ([200, 240, 280] : List ℝ).getD 1 0 = 240 := by norm_num
    have e2 : ([0, 1] : List ℝ).getD 0 0 = 0 := by norm_num
    rw [zero_mul, zero_mul, add_zero, add_zero, e1, e2] at hv
    rw [hv]
    unfold lift blend
    norm_num
  have c : cartopy (fun _ w => w) ⟨[200, 240, 280], [0, 1], lift fun _ _ => 1, lift fun _ _ => 1, []⟩ (some (240, 0)) = some (some (1, 1), []) := by
    unfold cartopy
    rw [prepared_part hinc inc01 h1]
    dsimp only
    rw [if_neg (not_not.2 ⟨hinc, inc01⟩), h3, hv']
    rfl
  rw [c] at b
  cases b

/-- The hypotheses of C298_global are met. -/
example : Spec.Even (tens 36) 0 10 ∧ (tens 36).length * (10 : ℝ) = 360 := by
  obtain ⟨e, hl⟩ := tens_even 36
  refine ⟨e, ?_⟩
  rw [hl]; norm_num

end Skyborn.Plot.Prep
