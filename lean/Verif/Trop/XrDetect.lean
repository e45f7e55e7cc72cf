/-
C233: detection of the dimensions; C235 (generated pressure).
-/
import Verif.Trop.XrProps
import Mathlib.Data.List.Infix

namespace Skyborn.Trop.Xr

open Skyborn

/-- The words the function knows for each kind of dimension (its own lists, in lower case), without `year` and `yr`. -/
def Spec.lonWords : List String := ["lon", "longitude", "x"]
/-- Latitude. -/
def Spec.latWords : List String := ["lat", "latitude", "y"]
/-- Level. -/
def Spec.levWords : List String := ["level", "lev", "plev", "pressure", "pressure_level", "z", "height", "altitude", "depth", "isobaric", "model_level"]
/-- Time. -/
def Spec.timeWords : List String := ["time", "t", "month", "mn", "season"]

/-- `s` is one of the words, in any case. -/
def Spec.Is (words : List String) (s : String) : Prop := ∃ v ∈ words, v.toList = lower s

/-- A name that has nothing to do with any of the words. -/
def Spec.Unrelated (s : String) : Prop :=
  (∀ v ∈ Spec.lonWords ++ Spec.latWords ++ Spec.levWords, ¬ v.toList <:+: lower s) ∧ ∀ v ∈ timeNames, v.toList ≠ lower s

/-- Names by the words: `x`, `y`, `l`, `td` are what they are called, and the others are unrelated. -/
structure Spec.Called (dims : List String) (x y td : Option String) (l : String) : Prop where
  lon : ∀ s ∈ x, Spec.Is Spec.lonWords s
  lat : ∀ s ∈ y, Spec.Is Spec.latWords s
  time : ∀ s ∈ td, Spec.Is Spec.timeWords s
  lev : Spec.Is Spec.levWords l
  rest : ∀ s ∈ dims, s ≠ l → x ≠ some s → y ≠ some s → td ≠ some s → Spec.Unrelated s

theorem contains_iff (s sub : List Char) : contains s sub = true ↔ sub <:+: s := by
  unfold contains
  simp only [List.any_eq_true, List.mem_range, List.isPrefixOf_iff_prefix]
  rw [List.infix_iff_prefix_suffix]
  constructor
  · rintro ⟨k, -, h⟩
    exact ⟨_, h, List.drop_suffix k s⟩
  · rintro ⟨t, h1, h2⟩
    obtain ⟨a, rfl⟩ := h2
    exact ⟨a.length, by simp, by simpa using h1⟩

/-- The kinds the code distinguishes. -/
inductive Kind
  | lon | lat | lev | time | other
  deriving DecidableEq

/-- The kind of a lower-case name. -/
def kind (s : List Char) : Kind :=
  if lonNames.any (fun n => contains s n.toList) then .lon
  else if latNames.any (fun n => contains s n.toList) then .lat
  else if levNames.any (fun n => contains s n.toList) then .lev
  else if timeNames.any (fun n => decide (n.toList = s)) then .time
  else .other

theorem kind_lon {s : String} (h : Spec.Is Spec.lonWords s) : kind (lower s) = .lon := by
  obtain ⟨v, hv, e⟩ := h
  rw [← e]
  have : ∀ v ∈ Spec.lonWords, kind v.toList = .lon := by decide +kernel
  exact this v hv

theorem kind_lat {s : String} (h : Spec.Is Spec.latWords s) : kind (lower s) = .lat := by
  obtain ⟨v, hv, e⟩ := h
  rw [← e]
  have : ∀ v ∈ Spec.latWords, kind v.toList = .lat := by decide +kernel
  exact this v hv

theorem kind_lev {s : String} (h : Spec.Is Spec.levWords s) : kind (lower s) = .lev := by
  obtain ⟨v, hv, e⟩ := h
  rw [← e]
  have : ∀ v ∈ Spec.levWords, kind v.toList = .lev := by decide +kernel
  exact this v hv

theorem kind_time {s : String} (h : Spec.Is Spec.timeWords s) : kind (lower s) = .time := by
  obtain ⟨v, hv, e⟩ := h
  rw [← e]
  have : ∀ v ∈ Spec.timeWords, kind v.toList = .time := by decide +kernel
  exact this v hv

/-- A lower-case name has no capital letter. -/
theorem lower_no_upper (s : String) : ∀ c ∈ lower s, c.isUpper = false := by
  intro c hc
  obtain ⟨d, -, rfl⟩ := List.mem_map.mp hc
  unfold Char.toLower
  split
  · next h =>
    have h1 := UInt32.le_iff_toNat_le.mp h.1
    have h2 := UInt32.le_iff_toNat_le.mp h.2
    have e : ('A' : Char).val.toNat = 65 := by decide
    have e2 : ('Z' : Char).val.toNat = 90 := by decide
    have e3 : ('a'.val - 'A'.val).toNat = 32 := by decide
    rw [e] at h1
    rw [e2] at h2
    unfold Char.isUpper
    rw [decide_eq_false_iff_not]
    rintro ⟨-, h4⟩
    have h4 := UInt32.le_iff_toNat_le.mp h4
    rw [UInt32.toNat_add, e2, e3, Nat.mod_eq_of_lt (by omega)] at h4
    omega
  · next h =>
    unfold Char.isUpper
    rw [decide_eq_false_iff_not]
    exact h

theorem no_capital {s : String} {v : List Char} (hv : v.any Char.isUpper = true) : contains (lower s) v = false := by
  by_contra h
  have h : contains (lower s) v = true := by simpa using h
  rw [contains_iff] at h
  obtain ⟨c, hc, hu⟩ := List.any_eq_true.mp hv
  have := lower_no_upper s c (h.subset hc)
  rw [this] at hu; simp at hu

theorem kind_other {s : String} (h : Spec.Unrelated s) : kind (lower s) = .other := by
  have hall : ∀ (names words : List String), (∀ v ∈ names, v ∈ words ∨ v.toList.any Char.isUpper = true) →
      (∀ v ∈ words, ¬ v.toList <:+: lower s) → names.any (fun n => contains (lower s) n.toList) = false := by
    intro names words h1 h2
    rw [List.any_eq_false]
    intro v hv
    rcases h1 v hv with h3 | h3
    · rw [contains_iff]; exact h2 v h3
    · rw [no_capital h3]; simp
  have h1 := hall lonNames Spec.lonWords (by decide +kernel) (fun v hv => h.1 v (by simp [hv]))
  have h2 := hall latNames Spec.latWords (by decide +kernel) (fun v hv => h.1 v (by simp [hv]))
  have h3 := hall levNames Spec.levWords (by decide +kernel) (fun v hv => h.1 v (by simp [hv]))
  have h4 : timeNames.any (fun n => decide (n.toList = lower s)) = false := by
    rw [List.any_eq_false]
    intro v hv
    simpa using h.2 v hv
  unfold kind
  simp [h1, h2, h3, h4]

theorem step_eq (a : Axes) (p : String × ℕ) : step a p = match kind (lower p.1) with
    | .lon => { a with x := some p.2 }
    | .lat => { a with y := some p.2 }
    | .lev => { a with l := some p.2 }
    | .time => { a with t := some p.2 }
    | .other => a := by
  unfold step kind
  dsimp only
  by_cases h1 : lonNames.any (fun n => contains (lower p.1) n.toList) = true
  · simp [h1]
  by_cases h2 : latNames.any (fun n => contains (lower p.1) n.toList) = true
  · simp [h1, h2]
  by_cases h3 : levNames.any (fun n => contains (lower p.1) n.toList) = true
  · simp [h1, h2, h3]
  by_cases h4 : timeNames.any (fun n => decide (n.toList = lower p.1)) = true
  · simp [h1, h2, h3, h4]
  · simp [h1, h2, h3, h4]

/-- The field of a kind. -/
def get (a : Axes) : Kind → Option ℤ
  | .lon => a.x
  | .lat => a.y
  | .lev => a.l
  | .time => a.t
  | .other => none

theorem step_get (a : Axes) (p : String × ℕ) (k : Kind) (hk : k ≠ .other) :
    get (step a p) k = if kind (lower p.1) = k then some (p.2 : ℤ) else get a k := by
  rw [step_eq]
  cases k <;> cases h : kind (lower p.1) <;> simp_all [get]

theorem fold_none (L : List (String × ℕ)) (a : Axes) (k : Kind) (hk : k ≠ .other) (h : ∀ p ∈ L, kind (lower p.1) ≠ k) :
    get (L.foldl step a) k = get a k := by
  induction L generalizing a with
  | nil => rfl
  | cons p L ih =>
    rw [List.foldl_cons, ih _ fun q hq => h q (List.mem_cons_of_mem _ hq), step_get _ _ _ hk, if_neg (h p List.mem_cons_self)]

/-- With one name of a kind, its index is found; with none, nothing. -/
theorem fold_one {dims : List String} (hd : dims.Nodup) (a : Axes) (k : Kind) (hk : k ≠ .other) {s : String} (hs : s ∈ dims) (hks : kind (lower s) = k)
    (ho : ∀ n ∈ dims, n ≠ s → kind (lower n) ≠ k) : get (dims.zipIdx.foldl step a) k = some (dims.idxOf s : ℤ) := by
  obtain ⟨A, B, rfl⟩ := List.append_of_mem hs
  have hA : s ∉ A := by
    intro h
    have := List.nodup_append.mp hd
    exact this.2.2 s h s List.mem_cons_self rfl
  have hB : s ∉ B := (List.nodup_cons.mp (List.nodup_append.mp hd).2.1).1
  rw [List.zipIdx_append, List.zipIdx_cons, List.foldl_append, List.foldl_cons, fold_none _ _ _ hk, step_get _ _ _ hk, if_pos hks]
  · rw [List.idxOf_append_of_notMem hA, List.idxOf_cons_self]
    simp
  · intro p hp
    have hm : p.1 ∈ B := by
      have := List.mem_map_of_mem (f := Prod.fst) hp
      simpa using this
    exact ho p.1 (by simp [hm]) (fun e => hB (e ▸ hm))

theorem fold_role {dims : List String} (hd : dims.Nodup) (k : Kind) (hk : k ≠ .other) {s : Option String} (hs : ∀ a ∈ s, a ∈ dims ∧ kind (lower a) = k)
    (ho : ∀ n ∈ dims, s ≠ some n → kind (lower n) ≠ k) :
    get (dims.zipIdx.foldl step ⟨none, none, none, none⟩) k = s.map fun a => (dims.idxOf a : ℤ) := by
  cases s with
  | some a =>
    rw [fold_one hd _ k hk (hs a rfl).1 (hs a rfl).2 (fun n hn hne => ho n hn (by simpa using fun e => hne e.symm))]
    rfl
  | none =>
    rw [fold_none _ _ _ hk]
    · cases k <;> rfl
    · intro p hp
      have hm : p.1 ∈ dims := by
        have := List.mem_map_of_mem (f := Prod.fst) hp
        simpa using this
      exact ho p.1 hm (by simp)

/-- The axes found. -/
theorem fold_called {dims : List String} (hd : dims.Nodup) {x y td : Option String} {l : String} (hl : l ∈ dims)
    (hm : (∀ s ∈ x, s ∈ dims) ∧ (∀ s ∈ y, s ∈ dims) ∧ ∀ s ∈ td, s ∈ dims) (h : Spec.Called dims x y td l) :
    dims.zipIdx.foldl step ⟨none, none, none, none⟩ = ⟨x.map fun a => (dims.idxOf a : ℤ), y.map fun a => (dims.idxOf a : ℤ), some (dims.idxOf l : ℤ),
      td.map fun a => (dims.idxOf a : ℤ)⟩ := by
  have kd : ∀ n ∈ dims, (n = l ∧ kind (lower n) = .lev) ∨ (x = some n ∧ kind (lower n) = .lon) ∨ (y = some n ∧ kind (lower n) = .lat) ∨
      (td = some n ∧ kind (lower n) = .time) ∨ kind (lower n) = .other := by
    intro n hn
    by_cases h1 : n = l
    · exact Or.inl ⟨h1, by rw [h1]; exact kind_lev h.lev⟩
    by_cases h2 : x = some n
    · exact Or.inr (Or.inl ⟨h2, kind_lon (h.lon n h2)⟩)
    by_cases h3 : y = some n
    · exact Or.inr (Or.inr (Or.inl ⟨h3, kind_lat (h.lat n h3)⟩))
    by_cases h4 : td = some n
    · exact Or.inr (Or.inr (Or.inr (Or.inl ⟨h4, kind_time (h.time n h4)⟩)))
    · exact Or.inr (Or.inr (Or.inr (Or.inr (kind_other (h.rest n hn h1 h2 h3 h4)))))
  have gx := fold_role hd .lon (by decide) (s := x) (fun a ha => ⟨hm.1 a ha, kind_lon (h.lon a ha)⟩) (fun n hn hne e => by
    rcases kd n hn with ⟨-, k⟩ | ⟨k, -⟩ | ⟨-, k⟩ | ⟨-, k⟩ | k
    all_goals first | exact hne k | (rw [e] at k; simp at k))
  have gy := fold_role hd .lat (by decide) (s := y) (fun a ha => ⟨hm.2.1 a ha, kind_lat (h.lat a ha)⟩) (fun n hn hne e => by
    rcases kd n hn with ⟨-, k⟩ | ⟨-, k⟩ | ⟨k, -⟩ | ⟨-, k⟩ | k
    all_goals first | exact hne k | (rw [e] at k; simp at k))
  have gt := fold_role hd .time (by decide) (s := td) (fun a ha => ⟨hm.2.2 a ha, kind_time (h.time a ha)⟩) (fun n hn hne e => by
    rcases kd n hn with ⟨-, k⟩ | ⟨-, k⟩ | ⟨-, k⟩ | ⟨k, -⟩ | k
    all_goals first | exact hne k | (rw [e] at k; simp at k))
  have gl := fold_role hd .lev (by decide) (s := some l) (fun a ha => by
      obtain rfl : l = a := by simpa using ha
      exact ⟨hl, kind_lev h.lev⟩) (fun n hn hne e => by
    rcases kd n hn with ⟨k, -⟩ | ⟨-, k⟩ | ⟨-, k⟩ | ⟨-, k⟩ | k
    all_goals first | exact hne (by rw [k]) | (rw [e] at k; simp at k))
  generalize dims.zipIdx.foldl step ⟨none, none, none, none⟩ = a at *
  obtain ⟨ax, ay, al, at'⟩ := a
  simp only [get, Option.map_some] at gx gy gt gl
  rw [gx, gy, gt, gl]

theorem detect_called {dims : List String} (hd : dims.Nodup) {x y td : Option String} {l : String} (ha : Spec.Arranged dims x y td l)
    (h : Spec.Called dims x y td l) :
    detect dims = .ok ⟨x.map fun a => (dims.idxOf a : ℤ), y.map fun a => (dims.idxOf a : ℤ), some (dims.idxOf l : ℤ),
      td.map fun a => (dims.idxOf a : ℤ)⟩ := by
  unfold detect
  rw [fold_called hd ha.lev ha.mem h]
  dsimp only
  rw [if_neg (by simp)]
  have hf := ha.forms
  simp only [Option.isNone_map, Option.isSome_map]
  rcases hf with ⟨hn, hf⟩ | ⟨hn, hf⟩ | ⟨hn, hf⟩
  · rw [if_neg (by omega), if_pos hn, if_neg]
    cases x <;> cases y <;> simp_all
  · rw [if_neg (by omega), if_neg (by omega), if_pos hn, if_neg]
    cases x <;> cases y <;> cases td <;> simp_all
  · rw [if_neg (by omega), if_neg (by omega), if_neg (by omega), if_pos (by omega), if_neg]
    cases x <;> cases y <;> simp_all

theorem map_getD (dims : List String) {s : Option String} (h : ∀ a ∈ s, a ∈ dims) :
    (s.map fun a => (dims.idxOf a : ℤ)).getD (-1) = (index dims (Spec.arg s)).getD (-1) := by
  rw [index_arg h]; rfl

/-- **C233, the part that holds**: without dimension arguments the function does what it does with the names given, whatever the order of the dimensions, when
the dimensions are called by the words it knows (in any case) and the others by unrelated names. Missing: the words `year` and `yr` (`C233_false`). -/
theorem C233_partial {t : TArr} (h : Spec.Labelled t) {x y td : Option String} {l : String} (ha : Spec.Arranged t.dims x y td l)
    (hc : Spec.Called t.dims x y td l) (p : Option (NDArr ℝ)) (unit : String) (c missing : ℝ) (auto : Bool) (w : Work) (s : Scratch)
    (out0 : ℕ → ℕ → ℕ → Cell) :
    tropWmo t p none none none none unit c missing auto w s out0 =
      tropWmo t p (Spec.arg x) (Spec.arg y) (some (.name l)) (Spec.arg td) unit c missing auto w s out0 := by
  have e1 : resolve t none none none none = .ok ⟨x.map fun a => (t.dims.idxOf a : ℤ), y.map fun a => (t.dims.idxOf a : ℤ),
      some (t.dims.idxOf l : ℤ), td.map fun a => (t.dims.idxOf a : ℤ)⟩ := by
    unfold resolve
    rw [if_pos (by simp)]
    simp [bind, Except.bind, detect_called h.nodup ha hc]
  unfold tropWmo
  simp only [bind, Except.bind, e1, resolve_named t ha.lev, map_getD _ ha.mem.1, map_getD _ ha.mem.2.1, map_getD _ ha.mem.2.2]

/-- A profile, too. -/
theorem C233_profile {t : TArr} (h : Spec.Labelled t) {l : String} (hl : t.dims = [l]) (hc : Spec.Is Spec.levWords l) (p : Option (NDArr ℝ)) (unit : String)
    (c missing : ℝ) (auto : Bool) (w : Work) (s : Scratch) (out0 : ℕ → ℕ → ℕ → Cell) :
    tropWmo t p none none none none unit c missing auto w s out0 = tropWmo t p none none (some (.name l)) none unit c missing auto w s out0 := by
  have hcalled : Spec.Called t.dims none none none l :=
    ⟨by simp, by simp, by simp, hc, fun s hs hne => absurd (by simpa [hl] using hs) hne⟩
  have ed : detect t.dims = .ok ⟨none, none, some (t.dims.idxOf l : ℤ), none⟩ := by
    unfold detect
    rw [fold_called h.nodup (by rw [hl]; simp) ⟨by simp, by simp, by simp⟩ hcalled]
    simp [hl]
  have e1 : resolve t none none none none = .ok ⟨none, none, some (t.dims.idxOf l : ℤ), none⟩ := by
    unfold resolve
    rw [if_pos (by simp)]
    simp [bind, Except.bind, ed]
  have e2 : resolve t none none (some (.name l)) none = .ok ⟨none, none, some (t.dims.idxOf l : ℤ), none⟩ := by
    unfold resolve
    rw [if_neg (by rw [h.rank, hl]; simp)]
    simp [index, hl]
  unfold tropWmo
  simp only [e1, e2]

/-- A four-dimensional array with an unrelated name. -/
example : Spec.Arranged ["Lon", "number", "LEV", "latitude"] (some "Lon") (some "latitude") none "LEV" ∧
    Spec.Called ["Lon", "number", "LEV", "latitude"] (some "Lon") (some "latitude") none "LEV" := by
  refine ⟨⟨by decide, ⟨by simp, by simp, by simp⟩, by decide, by decide⟩, ⟨?_, ?_, by simp, ⟨"lev", by decide +kernel, by decide +kernel⟩, ?_⟩⟩
  · intro s hs
    obtain rfl : "Lon" = s := by simpa using hs
    exact ⟨"lon", by decide +kernel, by decide +kernel⟩
  · intro s hs
    obtain rfl : "latitude" = s := by simpa using hs
    exact ⟨"latitude", by decide +kernel, by decide +kernel⟩
  · intro s hs h1 h2 h3 h4
    simp only [List.mem_cons, List.not_mem_nil, or_false] at hs
    rcases hs with rfl | rfl | rfl | rfl
    · simp at h2
    · have : ∀ v ∈ Spec.lonWords ++ Spec.latWords ++ Spec.levWords, contains (lower "number") v.toList = false := by decide +kernel
      refine ⟨fun v hv => ?_, by decide +kernel⟩
      rw [← contains_iff, this v hv]; simp
    · simp at h1
    · simp at h3

/-- **C233 is false**: `year` is in the list of time names, but is taken for a latitude (it contains a y): a (year, level, lat) section is refused, the same
section with the dimension called `time` is not. -/
theorem C233_false (g : List ℕ → ℝ) (p : NDArr ℝ) (hp : p.shape = [3]) (w : Work) (s : Scratch) (out0 : ℕ → ℕ → ℕ → Cell) :
    "year" ∈ timeNames ∧
    tropWmo ⟨["year", "level", "lat"], ⟨[2, 3, 4], g⟩, []⟩ (some p) none none none none "hPa" 2 (-999) true w s out0 = .error .value ∧
    ∃ r, tropWmo ⟨["time", "level", "lat"], ⟨[2, 3, 4], g⟩, []⟩ (some p) none none none none "hPa" 2 (-999) true w s out0 = .ok r := by
  refine ⟨by decide, ?_, ?_⟩
  · have e : detect ["year", "level", "lat"] = .error .value := by decide +kernel
    unfold tropWmo
    simp only [bind, Except.bind, pressureOf, resolve]
    simp [e]
  · have hL : Spec.Labelled ⟨["time", "level", "lat"], ⟨[2, 3, 4], g⟩, []⟩ := ⟨by simp, rfl⟩
    have hA : Spec.Arranged ["time", "level", "lat"] none (some "lat") (some "time") "level" :=
      ⟨by decide, ⟨by simp, by simp, by simp⟩, by decide, by decide⟩
    have hC : Spec.Called ["time", "level", "lat"] none (some "lat") (some "time") "level" := by
      refine ⟨by simp, ?_, ?_, ⟨"level", by decide +kernel, by decide +kernel⟩, ?_⟩
      · intro s hs
        obtain rfl : "lat" = s := by simpa using hs
        exact ⟨"lat", by decide +kernel, by decide +kernel⟩
      · intro s hs
        obtain rfl : "time" = s := by simpa using hs
        exact ⟨"time", by decide +kernel, by decide +kernel⟩
      · intro s hs h1 h2 h3 h4
        simp only [List.mem_cons, List.not_mem_nil, or_false] at hs
        rcases hs with rfl | rfl | rfl
        · simp at h4
        · simp at h1
        · simp at h3
    rw [C233_partial hL hA hC]
    obtain ⟨r, σ, e, -⟩ := C232_named hL hA hp (by simp [Spec.size]) (by norm_num) "hPa" 2 (-999) true w s out0
    exact ⟨r, e⟩

/-! #### C235: generated pressure -/

/-- The values of a coordinate as an array. -/
def Spec.line (v : List ℝ) : NDArr ℝ := ⟨[v.length], fun idx => v.getD (idx.getD 0 0) 0⟩

/-- **C235, the part that holds**: without a pressure, the function does what it does with the coordinate of the level dimension given as pressure, for dimensions called by
the words it knows. Missing: other names, which it refuses even when the dimensions are given (`C235_false`). -/
theorem C235_generated_partial {t : TArr} (h : Spec.Labelled t) {x y td : Option String} {l : String} (ha : Spec.Arranged t.dims x y td l)
    (hc : Spec.Called t.dims x y td l) {v : List ℝ} (hv : t.coords.lookup l = some v) (ax ay al at' : Option DimArg) (unit : String) (c missing : ℝ) (auto : Bool)
    (w : Work) (s : Scratch) (out0 : ℕ → ℕ → ℕ → Cell) :
    tropWmo t none ax ay al at' unit c missing auto w s out0 = tropWmo t (some (Spec.line v)) ax ay al at' unit c missing auto w s out0 := by
  have hk := List.idxOf_lt_length_of_mem ha.lev
  have e : pressureOf t none = .ok (Spec.line v) := by
    unfold pressureOf
    simp only [bind, Except.bind, detect_called h.nodup ha hc, pos_ok hk]
    have hg : t.dims.getD (t.dims.idxOf l) "" = l := by rw [List.getD_eq_getElem _ _ hk, List.getElem_idxOf]
    rw [hg, hv]
    rfl
  have e' : pressureOf t (some (Spec.line v)) = .ok (Spec.line v) := rfl
  unfold tropWmo
  rw [e, e']

/-- **C235 is false**: with every dimension given and the coordinate present, a level dimension called `p` is refused without pressure and accepted with its
coordinate as pressure. -/
theorem C235_false (g : List ℕ → ℝ) (w : Work) (s : Scratch) (out0 : ℕ → ℕ → ℕ → Cell) :
    tropWmo ⟨["p", "lat", "lon"], ⟨[3, 4, 5], g⟩, [("p", [100, 200, 300])]⟩ none (some (.name "lon")) (some (.name "lat")) (some (.name "p")) (some (.int (-1)))
      "hPa" 2 (-999) true w s out0 = .error .value ∧
    ∃ r, tropWmo ⟨["p", "lat", "lon"], ⟨[3, 4, 5], g⟩, [("p", [100, 200, 300])]⟩ (some (Spec.line [100, 200, 300])) (some (.name "lon")) (some (.name "lat"))
      (some (.name "p")) (some (.int (-1))) "hPa" 2 (-999) true w s out0 = .ok r := by
  constructor
  · have e : detect ["p", "lat", "lon"] = .error .value := by decide +kernel
    unfold tropWmo pressureOf
    simp only [bind, Except.bind, e]
  · have hL : Spec.Labelled ⟨["p", "lat", "lon"], ⟨[3, 4, 5], g⟩, [("p", [100, 200, 300])]⟩ := ⟨by simp, rfl⟩
    have hA : Spec.Arranged ["p", "lat", "lon"] (some "lon") (some "lat") none "p" := ⟨by decide, ⟨by simp, by simp, by simp⟩, by decide, by decide⟩
    obtain ⟨r, σ, e, -⟩ := C232_named hL hA (p := Spec.line [100, 200, 300]) (m := 3) rfl (by simp [Spec.size]) (by norm_num) "hPa" 2 (-999) true w s out0
    exact ⟨r, e⟩

end Skyborn.Trop.Xr
