/-
`interp_multidim`: horizontal interpolation of data on latitudes and longitudes.
Modelled: interp/interpolation.py:1085-1163, 2362-2485; xarray's `DataArray.interp` (sorting, one axis after the other) and SciPy's `interp1d`
(`linear`, `nearest`). Exact arithmetic over an ordered field; `none` for NaN. Not modelled: coordinates that are not numbers, axes of one
node, names of dimensions and metadata, other methods.
-/
import Mathlib.Data.List.Sort
import Mathlib.Algebra.Order.Field.Basic
import Mathlib.Data.List.Perm.Basic
import Mathlib.Tactic.Linarith
import Mathlib.Tactic.Ring
import Mathlib.Tactic.FieldSimp
import Mathlib.Tactic.NormNum
import Mathlib.Tactic.Push

namespace Skyborn.Interp.Multi

variable {α : Type} [Field α] [LinearOrder α] [IsStrictOrderedRing α]

/-! ## Model -/

/-- Data: sizes of the leading dimensions, latitudes, longitudes, values by leading index, row and column. Shapes are taken to match. -/
structure Data (α : Type) where
  /-- leading dimensions -/ extra : List ℕ
  /-- latitudes -/ lat : List α
  /-- longitudes -/ lon : List α
  /-- values; `none`: NaN -/ val : List ℕ → ℕ → ℕ → Option α

/-- `method`. -/
inductive Method
  | linear
  | nearest

/-- `fill_value`: a number or NaN, or "extrapolate". -/
inductive Fill (α : Type)
  | value (c : Option α)
  | extrapolate

/-- NumPy `searchsorted` (left) in ascending nodes: how many lie below. -/
def search (x : List α) (q : α) : ℕ := x.countP fun a => decide (a < q)

/-- SciPy `interp1d._call_linear`: the interval is open on the left, the outer ones reach beyond the ends. -/
def lin1 (x : List α) (y : ℕ → Option α) (q : α) : Option α :=
  let hi := min (max (search x q) 1) (x.length - 1)
  match y (hi - 1), y hi with
  | some a, some b => some ((b - a) / (x.getD hi 0 - x.getD (hi - 1) 0) * (q - x.getD (hi - 1) 0) + a)
  | _, _ => none

/-- SciPy `interp1d`: the points halfway between neighbours. -/
def mids (x : List α) : List α := (List.range (x.length - 1)).map fun i => x.getD (i + 1) 0 / 2 + x.getD i 0 / 2

/-- SciPy `interp1d._call_nearest`. -/
def near1 (x : List α) (y : ℕ → Option α) (q : α) : Option α := y (min (search (mids x) q) (x.length - 1))

/-- SciPy `interp1d` for one method. -/
def core1 : Method → List α → (ℕ → Option α) → α → Option α
  | .linear => lin1
  | .nearest => near1

/-- SciPy `interp1d` along one axis. -/
def interp1 (m : Method) (fill : Fill α) (x : List α) (y : ℕ → Option α) (q : α) : Option α :=
  match fill with
  | .extrapolate => core1 m x y q
  | .value c => if q < x.getD 0 0 ∨ x.getD (x.length - 1) 0 < q then c else core1 m x y q

/-- xarray `sortby`: the order of an axis. -/
def argsort (x : List α) : List ℕ := (List.range x.length).mergeSort fun a b => decide (x.getD a 0 ≤ x.getD b 0)

/-- The sorted axis. -/
def sorted (x : List α) : List α := (argsort x).map fun i => x.getD i 0

/-- The nodes ascend strictly (xarray raises an error for an index with repetitions). -/
def Inc (x : List α) : Prop := ∀ i < x.length - 1, x.getD i 0 < x.getD (i + 1) 0

instance (x : List α) : Decidable (Inc x) := inferInstanceAs (Decidable (∀ i < x.length - 1, _))

/-- interpolation.py:1114-1118: the missing value becomes NaN. -/
def hideMissing (missing : Option α) (v : Option α) : Option α := if missing.isSome ∧ v = missing then none else v

/-- interpolation.py:1121-1136: a column on either side; only for two dimensions (`np.pad` raises `ValueError` otherwise). -/
def pad (d : Data α) : Option (Data α) :=
  if d.extra ≠ [] then none
  else
    let n := d.lon.length
    some ⟨d.extra, d.lat, (d.lon.getD (n - 1) 0 - 360) :: d.lon ++ [d.lon.getD 0 0 + 360],
      fun e j i => if i = 0 then d.val e j (n - 1) else if i = n + 1 then d.val e j 0 else d.val e j (i - 1)⟩

/-- xarray `DataArray.interp` for longitudes, then latitudes; `none`: an error. -/
def xrInterp (m : Method) (fill : Fill α) (d : Data α) (latOut lonOut : List α) : Option (Data α) :=
  let lat := sorted d.lat
  let lon := sorted d.lon
  if ¬ (Inc lat ∧ Inc lon) then none
  else some ⟨d.extra, latOut, lonOut, fun e l k =>
    interp1 m fill lat (fun j => interp1 m fill lon (fun i => d.val e ((argsort d.lat).getD j 0) ((argsort d.lon).getD i 0))
      (lonOut.getD k 0)) (latOut.getD l 0)⟩

/-- interpolation.py:1157-1161: NaN becomes the missing value. -/
def showMissing (missing : Option α) (v : Option α) : Option α := v.or missing

/-- interpolation.py:2362-2485 `interp_multidim` for labelled data (or arrays with both coordinates). -/
def multi (d : Data α) (latOut lonOut : List α) (cyclic : Bool) (missing : Option α) (m : Method) (fill : Fill α) : Option (Data α) :=
  let d : Data α := { d with val := fun e j i => hideMissing missing (d.val e j i) }
  let p := if cyclic then pad d else some d
  (p.bind fun d => xrInterp m fill d latOut lonOut).map fun r => { r with val := fun e l k => showMissing missing (r.val e l k) }

/-! ## Specification -/

/-- No coordinate occurs twice. -/
def Spec.Distinct (x : List α) : Prop := ∀ i < x.length, ∀ k < x.length, x.getD i 0 = x.getD k 0 → i = k

/-- `q` lies between the neighbouring nodes number `i` and `i'` (in whatever order the nodes are listed), at part `s` of the way. -/
structure Spec.Between (x : List α) (i i' : ℕ) (q s : α) : Prop where
  lt : i < x.length
  lt' : i' < x.length
  up : x.getD i 0 < x.getD i' 0
  none_between : ∀ k < x.length, x.getD k 0 ≤ x.getD i 0 ∨ x.getD i' 0 ≤ x.getD k 0
  nonneg : 0 ≤ s
  le_one : s ≤ 1
  pos : q = (1 - s) * x.getD i 0 + s * x.getD i' 0

/-- Outside all nodes. -/
def Spec.Outside (x : List α) (q : α) : Prop := (∀ z ∈ x, q < z) ∨ ∀ z ∈ x, z < q

/-! ## Sorting -/

theorem getD_lt {x : List α} {i : ℕ} (h : i < x.length) : x.getD i 0 = x[i] := by
  rw [List.getD_eq_getElem?_getD, List.getElem?_eq_getElem h, Option.getD_some]

theorem getDN_lt {x : List ℕ} {i : ℕ} (h : i < x.length) : x.getD i 0 = x[i] := by
  rw [List.getD_eq_getElem?_getD, List.getElem?_eq_getElem h, Option.getD_some]

theorem inc_lt {x : List α} (h : Inc x) {i k : ℕ} (hik : i < k) (hk : k < x.length) : x.getD i 0 < x.getD k 0 := by
  induction k with
  | zero => omega
  | succ k ih =>
    rcases Nat.lt_succ_iff_lt_or_eq.1 hik with h' | rfl
    · exact (ih h' (by omega)).trans (h k (by omega))
    · exact h i (by omega)

theorem inc_le {x : List α} (h : Inc x) {i k : ℕ} (hik : i ≤ k) (hk : k < x.length) : x.getD i 0 ≤ x.getD k 0 := by
  rcases hik.lt_or_eq with h' | rfl
  · exact (inc_lt h h' hk).le
  · exact le_rfl

theorem argsort_perm (x : List α) : (argsort x).Perm (List.range x.length) := List.mergeSort_perm _ _

theorem argsort_length (x : List α) : (argsort x).length = x.length := by rw [(argsort_perm x).length_eq, List.length_range]

theorem argsort_lt (x : List α) {i : ℕ} (hi : i < x.length) : (argsort x).getD i 0 < x.length := by
  have h : i < (argsort x).length := by rw [argsort_length]; exact hi
  rw [getDN_lt h]
  exact List.mem_range.1 ((argsort_perm x).subset (List.getElem_mem h))

theorem argsort_inj (x : List α) {i k : ℕ} (hi : i < x.length) (hk : k < x.length) (h : (argsort x).getD i 0 = (argsort x).getD k 0) : i = k := by
  have h1 : i < (argsort x).length := by rw [argsort_length]; exact hi
  have h2 : k < (argsort x).length := by rw [argsort_length]; exact hk
  rw [getDN_lt h1, getDN_lt h2] at h
  exact ((argsort_perm x).nodup_iff.2 List.nodup_range).getElem_inj_iff.1 h

theorem argsort_surj (x : List α) {k : ℕ} (hk : k < x.length) : ∃ i < x.length, (argsort x).getD i 0 = k := by
  obtain ⟨i, hi, h⟩ := List.getElem_of_mem ((argsort_perm x).symm.subset (List.mem_range.2 hk))
  exact ⟨i, by rw [← argsort_length x]; exact hi, by rw [getDN_lt hi, h]⟩

theorem sorted_length (x : List α) : (sorted x).length = x.length := by unfold sorted; rw [List.length_map, argsort_length]

theorem sorted_getD (x : List α) {i : ℕ} (hi : i < x.length) : (sorted x).getD i 0 = x.getD ((argsort x).getD i 0) 0 := by
  have h : i < (argsort x).length := by rw [argsort_length]; exact hi
  unfold sorted
  rw [getD_lt (by rw [List.length_map]; exact h), List.getElem_map, getDN_lt h]

theorem sorted_le (x : List α) {i k : ℕ} (hik : i < k) (hk : k < x.length) : (sorted x).getD i 0 ≤ (sorted x).getD k 0 := by
  have h1 : i < (argsort x).length := by rw [argsort_length]; omega
  have h2 : k < (argsort x).length := by rw [argsort_length]; omega
  have key : (argsort x).Pairwise fun a b => x.getD a 0 ≤ x.getD b 0 := by
    have := List.pairwise_mergeSort (le := fun a b : ℕ => decide (x.getD a 0 ≤ x.getD b 0)) (by
      intro a b c; simpa using le_trans) (by intro a b; simpa using le_total _ _) (List.range x.length)
    unfold argsort
    simpa using this
  have := List.pairwise_iff_getElem.1 key i k h1 h2 hik
  rw [sorted_getD x (by omega), sorted_getD x hk, getDN_lt h1, getDN_lt h2]
  exact this

theorem sorted_inc_iff (x : List α) : Inc (sorted x) ↔ Spec.Distinct x := by
  constructor
  · intro h i hi k hk hik
    obtain ⟨a, ha, rfl⟩ := argsort_surj x hi
    obtain ⟨b, hb, rfl⟩ := argsort_surj x hk
    rw [← sorted_getD x ha, ← sorted_getD x hb] at hik
    congr 1
    rcases lt_trichotomy a b with hab | hab | hab
    · exact absurd hik (inc_lt h hab (by rw [sorted_length]; exact hb)).ne
    · exact hab
    · exact absurd hik (inc_lt h hab (by rw [sorted_length]; exact ha)).ne'
  · intro h i hi
    rw [sorted_length] at hi
    refine lt_of_le_of_ne (sorted_le x (by omega) (by omega)) fun he => ?_
    rw [sorted_getD x (by omega), sorted_getD x (by omega)] at he
    have := argsort_inj x (by omega) (by omega) (h _ (argsort_lt x (by omega)) _ (argsort_lt x (by omega)) he)
    omega

/-- Neighbours are neighbours in the sorted axis. -/
theorem between_sorted {x : List α} (hd : Spec.Distinct x) {i i' : ℕ} {q s : α} (h : Spec.Between x i i' q s) :
    ∃ k, k + 1 < x.length ∧ (argsort x).getD k 0 = i ∧ (argsort x).getD (k + 1) 0 = i' := by
  have hi := (sorted_inc_iff x).2 hd
  obtain ⟨k, hk, e⟩ := argsort_surj x h.lt
  obtain ⟨k', hk', e'⟩ := argsort_surj x h.lt'
  have hu := h.up
  rw [← e, ← e', ← sorted_getD x hk, ← sorted_getD x hk'] at hu
  have hl := sorted_length x
  have hlt : k < k' := by
    by_contra hn
    exact absurd (inc_le hi (show k' ≤ k by omega) (by omega)) (not_le.2 hu)
  rcases (show k + 1 ≤ k' from hlt).lt_or_eq with h' | h'
  · exfalso
    have := h.none_between _ (argsort_lt x (show k + 1 < x.length by omega))
    rw [← e, ← e', ← sorted_getD x hk, ← sorted_getD x hk', ← sorted_getD x (show k + 1 < x.length by omega)] at this
    rcases this with h3 | h3
    · exact absurd (inc_lt hi (show k < k + 1 by omega) (by omega)) (not_lt.2 h3)
    · exact absurd (inc_lt hi h' (by omega)) (not_lt.2 h3)
  · subst h'
    exact ⟨k, hk', e, e'⟩

theorem sorted_bounds {x : List α} (h : 0 < x.length) : ∀ i < x.length, (sorted x).getD 0 0 ≤ x.getD i 0 ∧ x.getD i 0 ≤ (sorted x).getD (x.length - 1) 0 := by
  intro i hi
  obtain ⟨k, hk, rfl⟩ := argsort_surj x hi
  rw [← sorted_getD x hk]
  constructor
  · rcases Nat.eq_zero_or_pos k with rfl | h'
    · exact le_rfl
    · exact sorted_le x h' hk
  · rcases Nat.lt_or_ge k (x.length - 1) with h' | h'
    · exact sorted_le x h' (by omega)
    · rw [show k = x.length - 1 by omega]

/-! ## One axis -/

theorem search_eq {x : List α} {q : α} {m : ℕ} (hm : m ≤ x.length) (h : ∀ i < x.length, x.getD i 0 < q ↔ i < m) : search x q = m := by
  have e : x = (List.range x.length).map fun i => x.getD i 0 := by
    refine List.ext_getElem (by simp) fun i h1 h2 => ?_
    rw [List.getElem_map, List.getElem_range, getD_lt h1]
  have hc : ∀ n, (List.range n).countP (fun i => decide (i < m)) = min m n := by
    intro n
    induction n with
    | zero => simp
    | succ n ih =>
      rw [List.range_succ, List.countP_append, ih]
      by_cases h : n < m
      · simp [h]; omega
      · simp [h]; omega
  unfold search
  rw [e, List.countP_map]
  refine Eq.trans (List.countP_congr fun i hi => ?_) ((hc x.length).trans (by omega))
  rw [List.mem_range] at hi
  simp only [Function.comp, decide_eq_true_eq]
  exact h i hi

theorem search_inc {x : List α} (h : Inc x) {q : α} {k : ℕ} (hk : k + 1 < x.length) (h1 : x.getD k 0 < q) (h2 : q ≤ x.getD (k + 1) 0) :
    search x q = k + 1 := by
  refine search_eq (by omega) fun i hi => ⟨fun h' => ?_, fun h' => ?_⟩
  · by_contra hn
    exact absurd (inc_le h (show k + 1 ≤ i by omega) hi) (not_le.2 (lt_of_lt_of_le h' h2))
  · exact lt_of_le_of_lt (inc_le h (show i ≤ k by omega) (by omega)) h1

theorem search_low {x : List α} (h : Inc x) {q : α} (h1 : q ≤ x.getD 0 0) : search x q = 0 := by
  refine search_eq (by omega) fun i hi => ⟨fun h' => ?_, fun h' => by omega⟩
  exact absurd (inc_le h (Nat.zero_le i) hi) (not_le.2 (lt_of_lt_of_le h' h1))

theorem search_high {x : List α} (h : Inc x) {q : α} (h1 : x.getD (x.length - 1) 0 < q) : search x q = x.length := by
  refine search_eq le_rfl fun i hi => ⟨fun _ => hi, fun h' => ?_⟩
  exact lt_of_le_of_lt (inc_le h (show i ≤ x.length - 1 by omega) (by omega)) h1

/-- Where the interval of a point is. -/
theorem locate {x : List α} (h : Inc x) (h2 : 2 ≤ x.length) (q : α) : ∃ k, k + 1 < x.length ∧ min (max (search x q) 1) (x.length - 1) = k + 1 ∧
    (x.getD 0 0 < q → q ≤ x.getD (x.length - 1) 0 → x.getD k 0 < q ∧ q ≤ x.getD (k + 1) 0) ∧ (q ≤ x.getD 0 0 → k = 0) ∧
    (x.getD (x.length - 1) 0 < q → k + 2 = x.length) := by
  rcases le_or_gt q (x.getD 0 0) with hq | hq
  · refine ⟨0, by omega, by rw [search_low h hq]; omega, fun h' => absurd h' (not_lt.2 hq), fun _ => rfl, fun h' => ?_⟩
    exact absurd (inc_le h (Nat.zero_le (x.length - 1)) (by omega)) (not_le.2 (lt_of_lt_of_le h' hq))
  rcases lt_or_ge (x.getD (x.length - 1) 0) q with hq' | hq'
  · exact ⟨x.length - 2, by omega, by rw [search_high h hq']; omega, fun _ h' => absurd h' (not_le.2 hq'), fun h' => absurd h' (not_le.2 hq),
      fun _ => by omega⟩
  have : ∃ k, k + 1 < x.length ∧ x.getD k 0 < q ∧ q ≤ x.getD (k + 1) 0 := by
    have key : ∀ n, n < x.length → q ≤ x.getD n 0 → ∃ k, k + 1 < x.length ∧ x.getD k 0 < q ∧ q ≤ x.getD (k + 1) 0 := by
      intro n
      induction n with
      | zero => intro _ h'; exact absurd h' (not_le.2 hq)
      | succ n ih =>
        intro hn h'
        rcases le_or_gt q (x.getD n 0) with h3 | h3
        · exact ih (by omega) h3
        · exact ⟨n, hn, h3, h'⟩
    exact key (x.length - 1) (by omega) hq'
  obtain ⟨k, hk, h3, h4⟩ := this
  refine ⟨k, hk, by rw [search_inc h hk h3 h4]; omega, fun _ _ => ⟨h3, h4⟩, fun h' => absurd h' (not_le.2 hq), fun h' => absurd h' (not_lt.2 hq')⟩

/-- Linear interpolation of finite numbers, in any interval that has the point. -/
theorem lin1_between {x : List α} (h : Inc x) (g : ℕ → α) {k : ℕ} (hk : k + 1 < x.length) {q s : α} (hs0 : 0 ≤ s) (hs1 : s ≤ 1)
    (hq : q = (1 - s) * x.getD k 0 + s * x.getD (k + 1) 0) : lin1 x (fun i => some (g i)) q = some ((1 - s) * g k + s * g (k + 1)) := by
  have hp : 0 < x.getD (k + 1) 0 - x.getD k 0 := sub_pos.2 (h k (by omega))
  have e : q - x.getD k 0 = s * (x.getD (k + 1) 0 - x.getD k 0) := by rw [hq]; ring
  by_cases h0 : s = 0 ∧ 0 < k
  · -- the node `k`, reached from below
    obtain ⟨rfl, hk0⟩ := h0
    have hq' : q = x.getD k 0 := by rw [hq]; ring
    have hp' : 0 < x.getD k 0 - x.getD (k - 1) 0 := sub_pos.2 (inc_lt h (by omega) (by omega))
    have := search_inc h (q := q) (k := k - 1) (by omega) (by rw [hq']; linarith) (by rw [hq', show k - 1 + 1 = k by omega])
    unfold lin1
    rw [this, show min (max (k - 1 + 1) 1) (x.length - 1) = k by omega]
    simp only [Option.some.injEq]
    rw [hq']
    field_simp
    ring
  · have : min (max (search x q) 1) (x.length - 1) = k + 1 := by
      rcases hs0.lt_or_eq with h' | h'
      · rw [search_inc h hk (by nlinarith) (by nlinarith)]; omega
      · have hk0 : k = 0 := by
          by_contra hn
          exact h0 ⟨h'.symm, by omega⟩
        subst hk0
        rw [search_low h (by rw [hq, ← h']; simp)]; omega
    unfold lin1
    rw [this]
    dsimp only
    rw [Nat.add_sub_cancel]
    simp only [Option.some.injEq]
    rw [e]
    field_simp
    ring

/-- A linear function is reproduced everywhere, beyond the ends too. -/
theorem lin1_linear {x : List α} (h : Inc x) (h2 : 2 ≤ x.length) (a b : α) (y : ℕ → Option α) (hy : ∀ i < x.length, y i = some (a + b * x.getD i 0)) (q : α) :
    lin1 x y q = some (a + b * q) := by
  obtain ⟨k, hk, e, -⟩ := locate h h2 q
  have hp : 0 < x.getD (k + 1) 0 - x.getD k 0 := sub_pos.2 (h k (by omega))
  unfold lin1
  rw [e]
  dsimp only
  rw [Nat.add_sub_cancel, hy k (by omega), hy (k + 1) hk]
  simp only [Option.some.injEq]
  field_simp
  ring

end Skyborn.Interp.Multi
