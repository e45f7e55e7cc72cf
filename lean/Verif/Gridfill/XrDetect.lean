/-
C229: which dimensions are used. C230: detection of a cyclic longitude.
-/
import Verif.Gridfill.XrFill

namespace Skyborn.Gridfill.Xr

open Skyborn Gridfill

variable {K : Type} [Field K] [LinearOrder K]

/-- The documented priorities: `standard_name`, `axis`, name of a dimension, `units`. Where several coordinates qualify the last one
counts for `standard_name`, the first one otherwise. -/
def Spec.pick (d : DArr K) (std axis : String) (names : List String) (units : String) : Option String :=
  ((d.coords.reverse.find? fun c => decide (c.standardName = some std)).map Coord.name).orElse fun _ =>
  ((d.coords.find? fun c => decide (c.axis = some axis)).map Coord.name).orElse fun _ =>
  (d.dims.find? fun n => decide (n.toLower ∈ names)).orElse fun _ =>
  (d.coords.find? fun c => c.units.any fun u => contains u units).map Coord.name

/-- Latitude. -/
def Spec.lat (d : DArr K) : Option String := Spec.pick d "latitude" "Y" ["lat", "latitude", "y"] "degrees_north"

/-- Longitude. -/
def Spec.lon (d : DArr K) : Option String := Spec.pick d "longitude" "X" ["lon", "lng", "longitude", "x"] "degrees_east"

/-- One stage in which the first match counts and only fills what is still unknown. -/
theorem stage {α : Type} (l : List α) (P Q : α → Bool) (nm : α → String) (hd : ∀ a ∈ l, ¬ (P a = true ∧ Q a = true)) (s : Found) :
    l.foldl (fun s a => if s.1 = none ∧ P a = true then (some (nm a), s.2) else if s.2 = none ∧ Q a = true then (s.1, some (nm a)) else s) s =
      (s.1.orElse fun _ => (l.find? P).map nm, s.2.orElse fun _ => (l.find? Q).map nm) := by
  induction l generalizing s with
  | nil => obtain ⟨a, b⟩ := s; cases a <;> cases b <;> rfl
  | cons a l ih =>
    have hd' : ∀ b ∈ l, ¬ (P b = true ∧ Q b = true) := fun b hb => hd b (List.mem_cons_of_mem _ hb)
    have ha := hd a List.mem_cons_self
    obtain ⟨u, v⟩ := s
    rw [List.foldl_cons, ih hd']
    by_cases hP : P a = true
    · have hQ : Q a = false := by
        cases h : Q a with
        | false => rfl
        | true => exact absurd ⟨hP, h⟩ ha
      cases u <;> cases v <;> simp [hP, hQ, Option.orElse]
    · have hP' : P a = false := by simpa using hP
      cases hQ : Q a with
      | false => cases u <;> cases v <;> simp [hP', hQ, Option.orElse]
      | true => cases u <;> cases v <;> simp [hP', hQ, Option.orElse]

/-- A stage that is skipped when both are known changes nothing. -/
theorem guard {s t u : Found} (h : t = (s.1.orElse fun _ => u.1, s.2.orElse fun _ => u.2)) :
    (if s.2 = none ∨ s.1 = none then t else s) = (s.1.orElse fun _ => u.1, s.2.orElse fun _ => u.2) := by
  obtain ⟨a, b⟩ := s
  split
  · exact h
  · next hc =>
    push Not at hc
    cases a with
    | none => simp at hc
    | some a => cases b with
      | none => simp at hc
      | some b => rfl

theorem std_eq (coords : List (Coord K)) (s : Found) :
    byStandardName coords s =
      (((coords.reverse.find? fun c => decide (c.standardName = some "latitude")).map Coord.name).orElse fun _ => s.1,
       ((coords.reverse.find? fun c => decide (c.standardName = some "longitude")).map Coord.name).orElse fun _ => s.2) := by
  unfold byStandardName
  induction coords generalizing s with
  | nil => obtain ⟨a, b⟩ := s; rfl
  | cons c l ih =>
    rw [List.foldl_cons, ih]
    obtain ⟨a, b⟩ := s
    simp only [List.reverse_cons, List.find?_append, List.find?_cons, List.find?_nil]
    by_cases h1 : c.standardName = some "latitude"
    · have h2 : ¬ (some "latitude" = some "longitude") := by decide
      simp only [h1, if_true, decide_true, decide_false, h2, Option.or_none]
      cases l.reverse.find? (fun c => decide (c.standardName = some "latitude")) <;> rfl
    · by_cases h2 : c.standardName = some "longitude"
      · have h3 : ¬ (some "longitude" = some "latitude") := by decide
        simp only [h2, if_true, decide_true, decide_false, h3, Option.or_none, if_false]
        cases l.reverse.find? (fun c => decide (c.standardName = some "longitude")) <;> rfl
      · simp only [h1, h2, if_false, decide_false, Option.or_none]

theorem axis_eq (coords : List (Coord K)) (s : Found) :
    byAxis coords s =
      (s.1.orElse fun _ => (coords.find? fun c => decide (c.axis = some "Y")).map Coord.name,
       s.2.orElse fun _ => (coords.find? fun c => decide (c.axis = some "X")).map Coord.name) := by
  unfold byAxis
  refine guard (u := (_, _)) ?_
  refine Eq.trans ?_ (stage coords (fun c => decide (c.axis = some "Y")) (fun c => decide (c.axis = some "X")) Coord.name (by
    intro c _ h
    simp only [decide_eq_true_eq] at h
    rw [h.1] at h; simp at h) s)
  congr 1
  funext s c
  simp only [decide_eq_true_eq]
  by_cases h1 : c.axis = some "Y" <;> by_cases h2 : c.axis = some "X" <;> simp [h1, h2]

theorem name_eq (dims : List String) (s : Found) :
    byName dims s =
      (s.1.orElse fun _ => dims.find? fun n => decide (n.toLower ∈ latNames),
       s.2.orElse fun _ => dims.find? fun n => decide (n.toLower ∈ lonNames)) := by
  unfold byName
  refine guard (u := (_, _)) ?_
  have := stage dims (fun n => decide (n.toLower ∈ latNames)) (fun n => decide (n.toLower ∈ lonNames)) (fun n => n) (by
    intro c _ h
    simp only [decide_eq_true_eq, latNames, lonNames, List.mem_cons, List.not_mem_nil, or_false] at h
    rcases h.1 with e | e | e <;> rw [e] at h <;> simp at h) s
  simp only [Option.map_id', decide_eq_true_eq] at this
  exact this

theorem units_eq (coords : List (Coord K)) (hu : ∀ c ∈ coords, ∀ u, c.units = some u → ¬ (contains u "degrees_north" = true ∧ contains u "degrees_east" = true))
    (s : Found) :
    byUnits coords s =
      (s.1.orElse fun _ => (coords.find? fun c => c.units.any fun u => contains u "degrees_north").map Coord.name,
       s.2.orElse fun _ => (coords.find? fun c => c.units.any fun u => contains u "degrees_east").map Coord.name) := by
  unfold byUnits
  refine guard (u := (_, _)) ?_
  refine Eq.trans ?_ (stage coords (fun c => c.units.any fun u => contains u "degrees_north") (fun c => c.units.any fun u => contains u "degrees_east") Coord.name (by
    intro c hc h
    cases hcu : c.units with
    | none => simp [hcu] at h
    | some u =>
      simp only [hcu, Option.any_some] at h
      exact hu c hc u hcu h) s)
  congr 1
  funext s c
  cases c.units with
  | none => simp
  | some u => rfl

/-- No `units` text names both directions. -/
def Spec.PlainUnits (d : DArr K) : Prop :=
  ∀ c ∈ d.coords, ∀ u, c.units = some u → ¬ (contains u "degrees_north" = true ∧ contains u "degrees_east" = true)

theorem found_eq (d : DArr K) (hu : Spec.PlainUnits d) :
    byUnits d.coords (byName d.dims (byAxis d.coords (byStandardName d.coords (none, none)))) = (Spec.lat d, Spec.lon d) := by
  rw [units_eq _ hu, name_eq, axis_eq, std_eq]
  unfold Spec.lat Spec.lon Spec.pick latNames lonNames
  congr 1
  · cases (d.coords.reverse.find? fun c => decide (c.standardName = some "latitude")) <;>
    cases (d.coords.find? fun c => decide (c.axis = some "Y")) <;>
    cases (d.dims.find? fun n => decide (n.toLower ∈ ["lat", "latitude", "y"])) <;> rfl
  · cases (d.coords.reverse.find? fun c => decide (c.standardName = some "longitude")) <;>
    cases (d.coords.find? fun c => decide (c.axis = some "X")) <;>
    cases (d.dims.find? fun n => decide (n.toLower ∈ ["lon", "lng", "longitude", "x"])) <;> rfl

/-- The search succeeds exactly when the two documented choices exist and are dimensions of the array, and then returns them. -/
theorem findSpatial_eq (d : DArr K) (hu : Spec.PlainUnits d) (y x : String) (yi xi : ℕ) :
    findSpatial d = .ok (y, x, yi, xi) ↔
      Spec.lat d = some y ∧ Spec.lon d = some x ∧ y ∈ d.dims ∧ x ∈ d.dims ∧ yi = d.dims.idxOf y ∧ xi = d.dims.idxOf x := by
  unfold findSpatial
  rw [found_eq d hu]
  cases Spec.lat d with
  | none => simp
  | some a =>
    cases Spec.lon d with
    | none => simp
    | some b =>
      simp only [indexOf?]
      by_cases ha : a ∈ d.dims
      · by_cases hb : b ∈ d.dims
        · simp only [ha, hb, if_true, Except.ok.injEq, Prod.mk.injEq, Option.some.injEq]
          constructor
          · rintro ⟨rfl, rfl, rfl, rfl⟩; exact ⟨rfl, rfl, ha, hb, rfl, rfl⟩
          · rintro ⟨rfl, rfl, -, -, rfl, rfl⟩; exact ⟨rfl, rfl, rfl, rfl⟩
        · simp only [ha, hb, if_true, if_false, reduceCtorEq, Option.some.injEq, false_iff]
          rintro ⟨-, rfl, -, h, -⟩; exact hb h
      · simp only [ha, if_false, reduceCtorEq, Option.some.injEq, false_iff]
        rintro ⟨rfl, -, h, -⟩; exact ha h

theorem findSpatial_error (d : DArr K) (hu : Spec.PlainUnits d) :
    findSpatial d = .error .valueError ↔
      ¬ ∃ y x, Spec.lat d = some y ∧ Spec.lon d = some x ∧ y ∈ d.dims ∧ x ∈ d.dims := by
  constructor
  · rintro e ⟨y, x, h1, h2, h3, h4⟩
    have := (findSpatial_eq d hu y x _ _).mpr ⟨h1, h2, h3, h4, rfl, rfl⟩
    rw [e] at this; simp at this
  · intro h
    cases e : findSpatial d with
    | error err =>
      unfold findSpatial at e
      repeat' split at e
      all_goals first | exact e.symm | simp at e
      all_goals exact congrArg _ e.symm
    | ok r =>
      obtain ⟨y, x, yi, xi⟩ := r
      have := (findSpatial_eq d hu y x yi xi).mp e
      exact absurd ⟨y, x, this.1, this.2.1, this.2.2.1, this.2.2.2.1⟩ h

/-- C229: with no dimension named, `fill` does what it does with the documented choices named, and raises ValueError exactly when
a choice does not exist or is no dimension. -/
theorem C229_detected (d : DArr K) (hu : Spec.PlainUnits d) (o : Opts K) (cyclic : Option Bool) (keep : Bool) (note : String) :
    (∀ y x, Spec.lat d = some y → Spec.lon d = some x → y ∈ d.dims → x ∈ d.dims →
      fill d o none none cyclic keep note = fill d o (some x) (some y) cyclic keep note) ∧
    ((¬ ∃ y x, Spec.lat d = some y ∧ Spec.lon d = some x ∧ y ∈ d.dims ∧ x ∈ d.dims) →
      fill d o none none cyclic keep note = .error .valueError) := by
  constructor
  · intro y x h1 h2 h3 h4
    have e := (findSpatial_eq d hu y x _ _).mpr ⟨h1, h2, h3, h4, rfl, rfl⟩
    have e1 : fillDims d none none = .ok (x, d.dims.idxOf y, d.dims.idxOf x) := by simp [fillDims, e]
    have e2 : fillDims d (some x) (some y) = .ok (x, d.dims.idxOf y, d.dims.idxOf x) := by simp [fillDims, indexOf?, h3, h4]
    unfold fill
    rw [e1, e2]
  · intro h
    have e1 : fillDims d none none = .error .valueError := by simp [fillDims, (findSpatial_error d hu).mpr h]
    unfold fill
    rw [e1]

/-- C229, the part that holds: with both dimensions named, the names are used whatever the metadata say (with C228: they are the axes
filled), and a name that is no dimension raises ValueError. Missing: a single name should be used as well (`C229_false`). -/
theorem C229_named_partial (d : DArr K) (x y : String) (o : Opts K) (cyc : Bool) (keep : Bool) (note : String) :
    (¬ (x ∈ d.dims ∧ y ∈ d.dims) → fill d o (some x) (some y) (some cyc) keep note = .error .valueError) ∧
    (∀ coords, fill { d with coords := coords } o (some x) (some y) (some cyc) keep note =
      (fill d o (some x) (some y) (some cyc) keep note).map fun r => ({ r.1 with coords := coords }, r.2)) := by
  constructor
  · intro h
    have e : fillDims d (some x) (some y) = .error .valueError := by
      simp only [fillDims, indexOf?]
      by_cases hx : x ∈ d.dims
      · have hy : y ∉ d.dims := fun hy => h ⟨hx, hy⟩
        simp [hx, hy]
      · simp [hx]
    unfold fill; rw [e]
  · intro coords
    unfold fill fillDims resolveCyclic
    dsimp only
    cases indexOf? d.dims x <;> cases indexOf? d.dims y <;> try rfl
    dsimp only
    split
    · rfl
    · split <;> rfl

/-- C229, finding: a single name given is ignored. -/
theorem C229_one_ignored (d : DArr K) (n : String) (o : Opts K) (cyc : Bool) (keep : Bool) (note : String) :
    fill d o (some n) none (some cyc) keep note = fill d o none none (some cyc) keep note ∧
    fill d o none (some n) (some cyc) keep note = fill d o none none (some cyc) keep note := by
  constructor <;>
  · unfold fill fillDims resolveCyclic
    cases findSpatial d <;> rfl

/-- A (level, latitude, longitude) array of 3 x 3 x 2 points with a gap. -/
def thin : DArr ℚ := ⟨["lev", "lat", "lon"], ⟨[3, 3, 2], fun idx => if idx = [1, 1, 0] then none else some (idx.sum : ℚ)⟩, [], none, []⟩

/-- C229 is false: naming only `x_dim` = "lev" raises because "lon" has two points, although "lat" is detected and filling along
"lev" and "lat" works. -/
theorem C229_false : ∃ d : DArr ℚ, Spec.Labelled d ∧ Spec.PlainUnits d ∧ Spec.lat d = some "lat" ∧ ∀ o keep note,
    (∃ r, fill d o (some "lev") (some "lat") (some o.cyclic) keep note = .ok r) ∧
    fill d o (some "lev") none (some o.cyclic) keep note = .error .valueError := by
  have hL : Spec.Labelled thin := ⟨by decide, rfl⟩
  have hP : Spec.PlainUnits thin := fun c hc => by simp [thin] at hc
  refine ⟨thin, hL, hP, by decide +kernel, fun o keep note => ⟨?_, ?_⟩⟩
  · have hm : ∃ f, Spec.Point thin f ∧ Spec.at thin f = none := by
      refine ⟨fun n => if n = "lon" then 0 else 1, ?_, by simp [Spec.at, thin]⟩
      intro n hn
      simp only [thin, List.mem_cons, List.not_mem_nil, or_false] at hn
      rcases hn with rfl | rfl | rfl <;> decide
    obtain ⟨out, w, e, -⟩ := C228_labelled hL (x := "lev") (y := "lat") (by decide) (by decide) (by decide) (by decide) (by decide) hm o keep note
    exact ⟨_, e⟩
  · rw [(C229_one_ignored thin "lev" o o.cyclic keep note).1,
      (C229_detected thin hP o (some o.cyclic) keep note).1 "lat" "lon" (by decide +kernel) (by decide +kernel) (by decide) (by decide)]
    have e : fillDims thin (some "lon") (some "lat") = .ok ("lon", 1, 2) := by decide +kernel
    unfold fill
    rw [e]
    simp only [resolveCyclic]
    rw [if_neg]
    · have := (C32_fill_errors thin.data 2 1 { o with cyclic := o.cyclic }).mpr (by
        rintro ⟨-, -, -, -, -, h, -⟩
        simp [thin] at h)
      rw [show ((2 : ℕ) : ℤ) = 2 from rfl, show ((1 : ℕ) : ℤ) = 1 from rfl, this]; rfl
    · exact not_not.mpr ⟨[1, 1, 0], by simp [thin, InB], by simp [thin]⟩

/-! ### Cyclic longitudes -/

theorem foldl_max_spec (l : List K) (a : K) : IsGreatest {v | v ∈ a :: l} (l.foldl max a) := by
  induction l generalizing a with
  | nil => simp [IsGreatest, upperBounds]
  | cons b l ih =>
    rw [List.foldl_cons]
    have h := ih (max a b)
    refine ⟨?_, ?_⟩
    · rcases List.mem_cons.mp h.1 with e | e
      · rw [Set.mem_setOf_eq, e]
        rcases max_choice a b with q | q <;> rw [q] <;> simp
      · exact List.mem_cons_of_mem _ (List.mem_cons_of_mem _ e)
    · intro v hv
      rcases List.mem_cons.mp hv with rfl | hv
      · exact (le_max_left v b).trans (h.2 List.mem_cons_self)
      · rcases List.mem_cons.mp hv with rfl | hv
        · exact (le_max_right a v).trans (h.2 List.mem_cons_self)
        · exact h.2 (List.mem_cons_of_mem _ hv)

theorem foldl_min_spec (l : List K) (a : K) : IsLeast {v | v ∈ a :: l} (l.foldl min a) := by
  induction l generalizing a with
  | nil => simp [IsLeast, lowerBounds]
  | cons b l ih =>
    rw [List.foldl_cons]
    have h := ih (min a b)
    refine ⟨?_, ?_⟩
    · rcases List.mem_cons.mp h.1 with e | e
      · rw [Set.mem_setOf_eq, e]
        rcases min_choice a b with q | q <;> rw [q] <;> simp
      · exact List.mem_cons_of_mem _ (List.mem_cons_of_mem _ e)
    · intro v hv
      rcases List.mem_cons.mp hv with rfl | hv
      · exact (h.2 List.mem_cons_self).trans (min_le_left v b)
      · rcases List.mem_cons.mp hv with rfl | hv
        · exact (h.2 List.mem_cons_self).trans (min_le_right a v)
        · exact h.2 (List.mem_cons_of_mem _ hv)

/-- Detection for a coordinate whose least value is `lo` and greatest `hi`. -/
theorem detect_eq (c : Coord K) (lo hi : K) (hlo : IsLeast {v | v ∈ c.vals} lo) (hhi : IsGreatest {v | v ∈ c.vals} hi) :
    ∃ b, detectCyclic c = .ok b ∧ (b = true ↔ c.circular = true ∨ |hi - lo - 360| < 10 ∨ (|lo| < 10 ∧ |hi - 360| < 10) ∨
      (|lo + 180| < 10 ∧ |hi - 180| < 10)) := by
  unfold detectCyclic
  by_cases hc : c.circular = true
  · exact ⟨true, by rw [if_pos hc], by simp [hc]⟩
  rw [if_neg hc]
  obtain ⟨v, l, hv⟩ : ∃ v l, c.vals = v :: l := by
    cases h : c.vals with
    | nil => rw [h] at hlo; exact absurd hlo.1 (by simp)
    | cons v l => exact ⟨v, l, rfl⟩
  rw [hv] at hlo hhi ⊢
  have e1 : l.foldl max v = hi := (foldl_max_spec l v).unique hhi
  have e2 : l.foldl min v = lo := (foldl_min_spec l v).unique hlo
  simp only [listMax, listMin, e1, e2]
  by_cases h1 : |hi - lo - 360| < 10
  · exact ⟨true, by rw [if_pos h1], by simp [h1]⟩
  rw [if_neg h1]
  by_cases h2 : |lo| < 10 ∧ |hi - 360| < 10
  · exact ⟨true, by rw [if_pos h2], by simp [h2]⟩
  rw [if_neg h2]
  by_cases h3 : |lo + 180| < 10 ∧ |hi - 180| < 10
  · exact ⟨true, by rw [if_pos h3], by simp [h3]⟩
  rw [if_neg h3]
  exact ⟨false, rfl, by simp [h1, h2, h3, hc]⟩

/-- C230: without `cyclic`, `fill` does what it does with the detected value given. -/
theorem C230_used (d : DArr K) (o : Opts K) (x y : String) (c : Coord K) (b : Bool) (hx : x ∈ d.dims) (hy : y ∈ d.dims)
    (hc : d.coords.find? (fun c => c.name == x) = some c) (hb : detectCyclic c = .ok b) (keep : Bool) (note : String) :
    fill d o (some x) (some y) none keep note = fill d o (some x) (some y) (some b) keep note := by
  have e2 : fillDims d (some x) (some y) = .ok (x, d.dims.idxOf y, d.dims.idxOf x) := by simp [fillDims, indexOf?, hx, hy]
  unfold fill
  simp only [e2, resolveCyclic, hc, hb]

variable [IsStrictOrderedRing K]

/-- `n` longitudes equally spaced around the whole circle, starting at `lo`. -/
def Spec.circle (lo : K) (n : ℕ) : List K := (List.range n).map fun k : ℕ => lo + (k : K) * (360 / (n : K))

/-- C230, the part that holds: equally spaced longitudes around the whole circle are detected as cyclic when their spacing is below 10 degrees, an
explicit `circular` attribute is honoured, and longitudes spanning at most 340 degrees are not detected. Missing: coarser global
grids (`C230_false`). -/
theorem C230_partial (c : Coord K) :
    (∀ lo n, 36 < n → c.vals = Spec.circle lo n → detectCyclic c = .ok true) ∧
    (c.circular = true → detectCyclic c = .ok true) ∧
    (c.circular = false → c.vals ≠ [] → (∀ u ∈ c.vals, ∀ v ∈ c.vals, u - v ≤ 340) → detectCyclic c = .ok false) := by
  refine ⟨fun lo n hn hv => ?_, fun hc => by simp [detectCyclic, hc], fun hc hne hsp => ?_⟩
  · have hn0 : (0 : K) < n := by exact_mod_cast (by omega : 0 < n)
    have hstep : (0 : K) ≤ 360 / n := by positivity
    have hlo : IsLeast {v | v ∈ c.vals} lo := by
      rw [hv]
      refine ⟨List.mem_map.mpr ⟨0, List.mem_range.mpr (by omega), by simp⟩, ?_⟩
      rintro v hv'
      obtain ⟨k, -, rfl⟩ := List.mem_map.mp hv'
      have : (0 : K) ≤ (k : K) * (360 / n) := mul_nonneg (Nat.cast_nonneg k) hstep
      linarith
    have hhi : IsGreatest {v | v ∈ c.vals} (lo + ((n - 1 : ℕ) : K) * (360 / n)) := by
      rw [hv]
      refine ⟨List.mem_map.mpr ⟨n - 1, List.mem_range.mpr (by omega), rfl⟩, ?_⟩
      rintro v hv'
      obtain ⟨k, hk, rfl⟩ := List.mem_map.mp hv'
      have hk' : (k : K) ≤ ((n - 1 : ℕ) : K) := by exact_mod_cast (by have := List.mem_range.mp hk; omega)
      nlinarith [mul_le_mul_of_nonneg_right hk' hstep]
    obtain ⟨b, hb, hiff⟩ := detect_eq c _ _ hlo hhi
    rw [hb, hiff.mpr]
    right; left
    have h1 : ((n - 1 : ℕ) : K) = n - 1 := by rw [Nat.cast_sub (by omega)]; simp
    have h2 : lo + ((n - 1 : ℕ) : K) * (360 / n) - lo - 360 = -(360 / n) := by
      rw [h1]; field_simp; ring
    rw [h2, abs_neg, abs_of_nonneg hstep, div_lt_iff₀ hn0]
    have : (37 : K) ≤ n := by exact_mod_cast hn
    linarith
  · obtain ⟨v, l, hv⟩ : ∃ v l, c.vals = v :: l := List.exists_cons_of_ne_nil hne
    have h1 := foldl_max_spec l v
    have h2 := foldl_min_spec l v
    rw [← hv] at h1 h2
    obtain ⟨b, hb, hiff⟩ := detect_eq c _ _ h2 h1
    rw [hb]
    have hs := hsp _ h1.1 _ h2.1
    cases b with
    | false => rfl
    | true =>
      exfalso
      rcases hiff.mp rfl with h | h | h | h
      · rw [hc] at h; simp at h
      · have := (abs_lt.mp h).1; linarith
      · have a := (abs_lt.mp h.1); have b := (abs_lt.mp h.2); linarith [a.1, a.2, b.1, b.2]
      · have a := (abs_lt.mp h.1); have b := (abs_lt.mp h.2); linarith [a.1, a.2, b.1, b.2]

/-- C230 is false: the 15-degree global grid 0, 15, ..., 345 is not detected as cyclic. -/
theorem C230_false : detectCyclic (⟨"lon", Spec.circle 0 24, some "longitude", some "X", some "degrees_east", false⟩ : Coord ℚ) = .ok false := by
  decide +kernel

/-- The same grid shifted by six degrees is. -/
example : detectCyclic (⟨"lon", Spec.circle 6 24, some "longitude", some "X", some "degrees_east", false⟩ : Coord ℚ) = .ok true := by
  decide +kernel

/-- A coordinate for each part of `C230_partial`. -/
example : ∃ c : Coord ℚ, c.vals = Spec.circle 0 72 ∧ c.circular = false := ⟨⟨"lon", Spec.circle 0 72, none, none, none, false⟩, rfl, rfl⟩

example : ∀ u ∈ ([10, 60, 110] : List ℚ), ∀ v ∈ ([10, 60, 110] : List ℚ), u - v ≤ 340 := by decide +kernel

/-- Metadata the detection understands: a dimension "nav" with standard name, and "LON" by name. -/
example : let d : DArr ℚ := ⟨["time", "nav", "LON"], ⟨[1, 3, 3], fun _ => none⟩, [⟨"nav", [1, 2, 3], some "latitude", none, none, false⟩], none, []⟩
    Spec.PlainUnits d ∧ Spec.lat d = some "nav" ∧ Spec.lon d = some "LON" := by
  refine ⟨?_, by decide +kernel, by decide +kernel⟩
  intro c hc u hu
  simp only [List.mem_singleton] at hc
  subst hc
  simp at hu

end Skyborn.Gridfill.Xr
