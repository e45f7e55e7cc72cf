/-
Labelled arrays: points, coordinates, reversal, reordering.
-/
import Verif.WindXr.Model

namespace Skyborn.WindXr

open Skyborn Windspharm Sphere

variable {K α : Type} [Field K] [LinearOrder K]

/-- An array as xarray makes it: different dimension names, and coordinates of its dimensions, of their sizes, at most one each. -/
structure Spec.Proper (a : WArr K α) : Prop where
  dims : a.dims.Nodup
  rank : a.data.shape.length = a.dims.length
  coords : ∀ c ∈ a.coords, c.name ∈ a.dims ∧ c.vals.length = a.data.shape.getD (a.dims.idxOf c.name) 0
  names : (a.coords.map fun c => c.name).Nodup

/-- Size of a dimension. -/
def Spec.size (a : WArr K α) (d : String) : ℕ := a.data.shape.getD (a.dims.idxOf d) 0

/-- The value at the point with position `f d` along every dimension `d`. -/
def Spec.at (a : WArr K α) (f : String → ℕ) : α := a.data.get (a.dims.map f)

/-- `f` is a point of the array. -/
def Spec.Point (a : WArr K α) (f : String → ℕ) : Prop := ∀ d ∈ a.dims, f d < Spec.size a d

/-- `c` is the coordinate of dimension `d`; a dimension without one is numbered from zero. -/
def Spec.Carries (a : WArr K α) (d : String) (c : Coord K) : Prop :=
  (c ∈ a.coords ∧ c.name = d) ∨
    ((∀ c' ∈ a.coords, c'.name ≠ d) ∧ c = ⟨d, (List.range (Spec.size a d)).map fun k : ℕ => (k : K), none, none⟩)

/-- The dimensions that are neither latitude nor longitude, in order. -/
def Spec.rest (dims : List String) (lat lon : String) : List String := dims.filter fun d => d ≠ lat ∧ d ≠ lon

theorem coordOf_name (a : WArr K α) (d : String) : (coordOf a d).name = d := by
  unfold coordOf
  cases h : a.coords.find? fun c => c.name == d with
  | none => rfl
  | some c => simpa using List.find?_some h

theorem carries_coordOf (a : WArr K α) (d : String) : Spec.Carries a d (coordOf a d) := by
  unfold coordOf
  cases h : a.coords.find? fun c => c.name == d with
  | none => exact Or.inr ⟨fun c' hc' hn => by simpa [hn] using List.find?_eq_none.mp h c' hc', rfl⟩
  | some c => exact Or.inl ⟨List.mem_of_find?_eq_some h, by simpa using List.find?_some h⟩

theorem carries_unique {a : WArr K α} (h : (a.coords.map fun c => c.name).Nodup) {d : String} {c c' : Coord K} (h1 : Spec.Carries a d c)
    (h2 : Spec.Carries a d c') : c = c' := by
  rcases h1 with ⟨h1, e1⟩ | ⟨h1, e1⟩ <;> rcases h2 with ⟨h2, e2⟩ | ⟨h2, e2⟩
  · exact List.inj_on_of_nodup_map h h1 h2 (e1.trans e2.symm)
  · exact absurd e1 (h2 _ h1)
  · exact absurd e2 (h1 _ h2)
  · rw [e1, e2]

theorem carries_iff {a : WArr K α} (h : (a.coords.map fun c => c.name).Nodup) {d : String} {c : Coord K} : Spec.Carries a d c ↔ c = coordOf a d :=
  ⟨fun h1 => carries_unique h h1 (carries_coordOf a d), fun e => e ▸ carries_coordOf a d⟩

theorem coordOf_length {a : WArr K α} (h : Spec.Proper a) (d : String) : (coordOf a d).vals.length = Spec.size a d := by
  rcases carries_coordOf a d with ⟨h1, h2⟩ | ⟨-, h2⟩
  · rw [(h.coords _ h1).2, h2]; rfl
  · rw [h2]; simp

theorem shape_eq {a : WArr K α} (h : Spec.Proper a) : a.data.shape = a.dims.map (Spec.size a) := (exists_assign h.dims h.rank).symm

theorem lay {a : WArr K α} (h : Spec.Proper a) : Lay a.dims a.data (Spec.size a) (Spec.at a) := ⟨shape_eq h, fun _ _ => rfl⟩

theorem size_of_lay {a : WArr K α} {sz : String → ℕ} {val : (String → ℕ) → α} (h : Lay a.dims a.data sz val) {d : String} (hd : d ∈ a.dims) :
    Spec.size a d = sz d := by
  unfold Spec.size
  rw [h.1, List.getD_eq_getElem _ _ (by simpa using List.idxOf_lt_length_of_mem hd), List.getElem_map, List.getElem_idxOf]

/-- Reordering the dimensions. -/
theorem lay_transposeTo {a : WArr K α} {sz : String → ℕ} {val : (String → ℕ) → α} (hd : a.dims.Nodup) (h : Lay a.dims a.data sz val)
    {names : List String} (hn : names.Perm a.dims) : Lay names (transposeTo a names).data sz val := by
  have hsl : a.data.shape.length = a.dims.length := by rw [h.1, List.length_map]
  constructor
  · show (names.map fun n => a.dims.idxOf n).map (fun d => a.data.shape.getD d 0) = _
    rw [List.map_map]
    exact List.map_congr_left fun d hdm => size_of_lay h (hn.mem_iff.mp hdm)
  · intro f hf
    show a.data.get _ = _
    rw [← h.2 f fun d hdm => hf d (hn.mem_iff.mpr hdm)]
    congr 1
    rw [hsl]
    apply List.ext_getElem (by simp)
    intro i h1 h2
    have hi : i < a.dims.length := by simpa using h1
    have hnd : names.Nodup := hn.nodup_iff.mpr hd
    have hmem : a.dims[i] ∈ names := hn.mem_iff.mpr (List.getElem_mem hi)
    have hk := List.idxOf_lt_length_of_mem hmem
    have hidx : (names.map fun n => a.dims.idxOf n).idxOf i = names.idxOf a.dims[i] := by
      have e : i = (names.map fun n => a.dims.idxOf n)[names.idxOf a.dims[i]]'(by simpa using hk) := by
        rw [List.getElem_map, List.getElem_idxOf, hd.idxOf_getElem i hi]
      have hnd' : (names.map fun n => a.dims.idxOf n).Nodup := by
        refine List.Nodup.map_on ?_ hnd
        intro x hx y hy hxy
        exact (List.idxOf_inj (hn.mem_iff.mp hx)).mp hxy
      conv_lhs => rw [e]
      exact hnd'.idxOf_getElem _ _
    rw [List.getElem_map, List.getElem_range, hidx, List.getD_eq_getElem _ _ (by simpa using hk), List.getElem_map, List.getElem_idxOf,
      List.getElem_map]

/-- `names` with a different position for one. -/
theorem map_set_idx {dims : List String} (hd : dims.Nodup) {n : String} (hn : n ∈ dims) (f : String → ℕ) (k : ℕ) :
    (dims.map f).set (dims.idxOf n) k = dims.map fun d => if d = n then k else f d := by
  apply List.ext_getElem (by simp)
  intro i h1 h2
  have hi : i < dims.length := by simpa using h1
  rw [List.getElem_set, List.getElem_map, List.getElem_map]
  by_cases h : dims[i] = n
  · rw [if_pos (by rw [← h, hd.idxOf_getElem i hi]), if_pos h]
  · rw [if_neg h, if_neg]
    intro hc
    apply h
    subst hc
    exact List.getElem_idxOf _

theorem getD_map_idx {dims : List String} {n : String} (hn : n ∈ dims) (f : String → ℕ) : (dims.map f).getD (dims.idxOf n) 0 = f n := by
  rw [List.getD_eq_getElem _ _ (by simpa using List.idxOf_lt_length_of_mem hn), List.getElem_map, List.getElem_idxOf]

/-- Reversing a dimension. -/
theorem lay_reverse {a : WArr K α} {sz : String → ℕ} {val : (String → ℕ) → α} (hd : a.dims.Nodup) (h : Lay a.dims a.data sz val)
    {n : String} (hn : n ∈ a.dims) : Lay a.dims (reverse a n).data sz fun f => val fun d => if d = n then sz n - 1 - f n else f d := by
  refine ⟨h.1, fun f hf => ?_⟩
  show a.data.get _ = _
  have hs : a.data.shape.getD (a.dims.idxOf n) 0 = sz n := size_of_lay h hn
  rw [hs, getD_map_idx hn, map_set_idx hd hn]
  apply h.2
  intro d hdm
  by_cases e : d = n
  · subst e
    have := hf d hdm
    simp only [if_true]
    omega
  · rw [if_neg e]; exact hf d hdm

theorem reverse_proper {a : WArr K α} (h : Spec.Proper a) (n : String) : Spec.Proper (reverse a n) := by
  refine ⟨h.dims, h.rank, ?_, ?_⟩
  · intro c hc
    obtain ⟨c0, hc0, rfl⟩ := List.mem_map.mp hc
    have := h.coords c0 hc0
    by_cases e : c0.name = n
    · rw [if_pos e]
      exact ⟨this.1, by rw [List.length_reverse]; exact this.2⟩
    · rw [if_neg e]; exact this
  · have : (reverse a n).coords.map (fun c => c.name) = a.coords.map fun c => c.name := by
      show (a.coords.map _).map _ = _
      rw [List.map_map]
      apply List.map_congr_left
      intro c _
      simp only [Function.comp]
      split <;> rfl
    rw [this]; exact h.names

/-- The coordinates of a reversed array. -/
theorem carries_reverse {a : WArr K α} (n : String) {d : String} {c : Coord K} (h : c ∈ a.coords) (e : c.name = d) :
    Spec.Carries (reverse a n) d (if d = n then { c with vals := c.vals.reverse } else c) := by
  refine Or.inl ⟨?_, ?_⟩
  · show _ ∈ a.coords.map _
    exact List.mem_map.mpr ⟨c, h, by rw [e]⟩
  · split <;> exact e

theorem carries_reverse_none {a : WArr K α} (n : String) {d : String} (h : ∀ c ∈ a.coords, c.name ≠ d) {c : Coord K} (hc : Spec.Carries a d c) :
    Spec.Carries (reverse a n) d c := by
  rcases hc with ⟨h1, h2⟩ | ⟨-, h2⟩
  · exact absurd h2 (h _ h1)
  · refine Or.inr ⟨?_, h2⟩
    intro c' hc'
    obtain ⟨c0, hc0, rfl⟩ := List.mem_map.mp hc'
    have := h c0 hc0
    split <;> exact this

theorem coordOf_reverse {a : WArr K α} (h : Spec.Proper a) (n d : String) :
    coordOf (reverse a n) d = if d = n ∧ ∃ c ∈ a.coords, c.name = n then { coordOf a d with vals := (coordOf a d).vals.reverse } else coordOf a d := by
  symm
  rw [← carries_iff (reverse_proper h n).names]
  by_cases hc : ∃ c ∈ a.coords, c.name = d
  · obtain ⟨c, h1, h2⟩ := hc
    have e : coordOf a d = c := ((carries_iff h.names).mp (Or.inl ⟨h1, h2⟩)).symm
    have := carries_reverse n h1 h2
    rw [e]
    by_cases hd : d = n
    · rw [if_pos hd] at this
      rw [if_pos ⟨hd, c, h1, h2.trans hd⟩]
      exact this
    · rw [if_neg hd] at this
      rw [if_neg fun hx => hd hx.1]
      exact this
  · rw [if_neg]
    · exact carries_reverse_none n (fun c h1 h2 => hc ⟨c, h1, h2⟩) (carries_coordOf a d)
    · rintro ⟨rfl, c, h1, h2⟩
      exact hc ⟨c, h1, h2⟩

theorem coordOf_transpose {a : WArr K α} (h : Spec.Proper a) {names : List String} (hn : names.Perm a.dims) {d : String} (hd : d ∈ a.dims) :
    coordOf (transposeTo a names) d = coordOf a d := by
  unfold coordOf
  show (match a.coords.find? fun c => c.name == d with | some c => c | none => _) = _
  cases a.coords.find? fun c => c.name == d with
  | some c => rfl
  | none =>
    simp only
    have e : (transposeTo a names).data.shape.getD ((transposeTo a names).dims.idxOf d) 0 = a.data.shape.getD (a.dims.idxOf d) 0 := by
      have := size_of_lay (a := transposeTo a names) (lay_transposeTo h.dims (lay h) hn) (hn.mem_iff.mpr hd)
      exact this
    rw [e]

/-- The order of the transforms. -/
theorem apiNames_ok {dims : List String} (hd : dims.Nodup) {lat lon : String} (h1 : lat ∈ dims) (h2 : lon ∈ dims) (h : lat ≠ lon) :
    apiNames dims lat lon = .ok (lat :: lon :: Spec.rest dims lat lon) ∧ (lat :: lon :: Spec.rest dims lat lon).Perm dims := by
  have k1 := List.idxOf_lt_length_of_mem h1
  have k2 := List.idxOf_lt_length_of_mem h2
  have hne : dims.idxOf lat ≠ dims.idxOf lon := fun e => h ((List.idxOf_inj h1).mp e)
  have hmap : (dims.idxOf lat :: dims.idxOf lon :: otherDims dims.length (dims.idxOf lon) (dims.idxOf lat)).map (fun i => dims.getD i "")
      = lat :: lon :: Spec.rest dims lat lon := by
    simp only [List.map_cons]
    rw [List.getD_eq_getElem _ _ k1, List.getElem_idxOf, List.getD_eq_getElem _ _ k2, List.getElem_idxOf]
    congr 2
    have e : dims = (List.range dims.length).map fun i => dims.getD i "" := by
      apply List.ext_getElem (by simp)
      intro i q1 q2
      simp [List.getElem?_eq_getElem q1]
    unfold otherDims Spec.rest
    conv_rhs => rw [e]
    rw [List.filter_map]
    congr 1
    apply List.filter_congr
    intro i hi
    have hi' : i < dims.length := by simpa using hi
    simp only [Function.comp, List.getD_eq_getElem _ _ hi']
    have hx : ∀ x ∈ dims, (i ≠ dims.idxOf x ↔ dims[i] ≠ x) := by
      intro x hx
      constructor
      · rintro q rfl
        exact q (hd.idxOf_getElem i hi').symm
      · rintro q rfl
        exact q (List.getElem_idxOf _)
    by_cases a1 : dims[i] = lat <;> by_cases a2 : dims[i] = lon <;> simp [hx _ h1, hx _ h2, a1, a2]
  obtain ⟨e, hp⟩ := C25_apiorder k1 k2 hne
  constructor
  · unfold apiNames
    rw [e]
    simp only [hmap]
  · rw [← hmap]
    have := hp.map fun i => dims.getD i ""
    refine this.trans ?_
    have e : (List.range dims.length).map (fun i => dims.getD i "") = dims := by
      symm
      apply List.ext_getElem (by simp)
      intro i q1 q2
      simp [List.getElem?_eq_getElem q1]
    rw [e]

theorem apiNames_same {dims : List String} {lat : String} (h1 : lat ∈ dims) : apiNames dims lat lat = .error .valueError := by
  unfold apiNames
  rw [C25_errors (by simp)]

theorem filter_map_single {A B : Type} {l : List A} (hl : l.Nodup) (f : A → B) (p : B → Bool) {c : B} :
    (l.map f).filter p = [c] ↔ ∃ d ∈ l, f d = c ∧ p c = true ∧ ∀ d' ∈ l, p (f d') = true → d' = d := by
  rw [List.filter_map]
  constructor
  · intro h
    obtain ⟨d, h1, rfl⟩ := List.map_eq_singleton_iff.mp h
    have hd : d ∈ l.filter (p ∘ f) := by rw [h1]; simp
    have hd' := List.mem_filter.mp hd
    refine ⟨d, hd'.1, rfl, hd'.2, fun d' q1 q2 => ?_⟩
    have : d' ∈ l.filter (p ∘ f) := List.mem_filter.mpr ⟨q1, q2⟩
    rw [h1] at this
    simpa using this
  · rintro ⟨d, h1, rfl, h3, h4⟩
    have : l.filter (p ∘ f) = [d] := by
      have hn : (l.filter (p ∘ f)).Nodup := hl.filter _
      have hall : ∀ x ∈ l.filter (p ∘ f), x = d := fun x hx => h4 x (List.mem_filter.mp hx).1 (List.mem_filter.mp hx).2
      have hmem : d ∈ l.filter (p ∘ f) := List.mem_filter.mpr ⟨h1, h3⟩
      match hq : l.filter (p ∘ f) with
      | [] => rw [hq] at hmem; simp at hmem
      | [x] => rw [hq] at hall; rw [hall x (by simp)]
      | x :: y :: t =>
        rw [hq] at hall hn
        have e1 := hall x (by simp)
        have e2 := hall y (by simp)
        rw [e1, e2] at hn
        simp at hn
    rw [this]
    rfl

/-- Exactly one coordinate with a property. -/
theorem findCoord_ok {a : WArr K α} (hd : a.dims.Nodup) (p : Coord K → Bool) (c : Coord K) :
    findCoord a p = .ok c ↔ ∃ d ∈ a.dims, coordOf a d = c ∧ p c = true ∧ ∀ d' ∈ a.dims, p (coordOf a d') = true → d' = d := by
  rw [← filter_map_single hd]
  unfold findCoord dimCoords
  constructor
  · intro h
    split at h
    · next c' hc => rw [hc]; injection h with h; rw [h]
    · cases h
  · intro h; rw [h]

theorem findCoord_error {a : WArr K α} (p : Coord K → Bool) {e : XErr} (h : findCoord a p = .error e) : e = .valueError := by
  unfold findCoord at h
  split at h
  · cases h
  · injection h with h; exact h.symm

end Skyborn.WindXr
