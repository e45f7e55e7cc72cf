/-
What the constructor of `VectorWind` on labelled arrays accepts, and what it then holds.
-/
import Verif.WindXr.Arrange

namespace Skyborn.WindXr

open Skyborn Windspharm Sphere

variable {K α : Type} [Field K] [LinearOrder K]

/-- Equal, or one value against any number of copies. -/
def Spec.Same (a b : List K) : Prop := a = b ∨ (∃ x, a = [x] ∧ ∀ y ∈ b, y = x) ∨ ∃ y, b = [y] ∧ ∀ x ∈ a, x = y

/-- The two winds have the same dimensions in the same order, and their coordinates compare equal. -/
def Spec.Match (u v : WArr K α) : Prop :=
  u.dims = v.dims ∧ ∀ d ∈ u.dims, ∀ c c', Spec.Carries u d c → Spec.Carries v d c' → Spec.Same c.vals c'.vals

theorem sameValues_iff (a b : List K) : sameValues a b = true ↔ Spec.Same a b := by
  unfold sameValues Spec.Same
  by_cases hl : a.length = b.length
  · rw [if_pos hl]
    simp only [decide_eq_true_eq]
    constructor
    · exact Or.inl
    · rintro (h | ⟨x, rfl, h⟩ | ⟨x, rfl, h⟩)
      · exact h
      · match b, hl, h with
        | [y], _, h => rw [h y (by simp)]
      · match a, hl, h with
        | [y], _, h => rw [h y (by simp)]
  · rw [if_neg hl]
    have hne : a ≠ b := fun e => hl (by rw [e])
    match a, b with
    | [x], b =>
      simp only [List.all_eq_true, decide_eq_true_eq]
      constructor
      · intro h
        exact Or.inr (Or.inl ⟨x, rfl, fun y hy => (h y hy).symm⟩)
      · rintro (h | ⟨x', e, h⟩ | ⟨y, rfl, h⟩)
        · exact absurd h hne
        · injection e with e
          intro y hy
          rw [h y hy, e]
        · exact absurd rfl hl
    | [], [y] => simp
    | [], [] => simp at hl
    | [], _ :: _ :: _ => simp
    | x :: x' :: t, [y] =>
      simp only [List.all_eq_true, decide_eq_true_eq]
      constructor
      · intro h
        exact Or.inr (Or.inr ⟨y, rfl, h⟩)
      · rintro (h | ⟨x', e, h⟩ | ⟨y, e, h⟩)
        · exact absurd h hne
        · simp at e
        · injection e with e
          rw [e]
          exact h
    | _ :: _ :: _, [] => simp
    | _ :: _ :: _, _ :: _ :: _ =>
      simp only [Bool.false_eq_true, false_iff]
      rintro (h | ⟨x', e, h⟩ | ⟨y, e, h⟩)
      · exact absurd h hne
      · simp at e
      · simp at e

theorem all_zip_map {A B : Type} (l : List A) (f g : A → B) (p : B × B → Bool) :
    ((l.map f).zip (l.map g)).all p = true ↔ ∀ d ∈ l, p (f d, g d) = true := by
  rw [List.zip_map', List.all_map, List.all_eq_true]
  rfl

theorem validate_iff {u v : WArr K α} (hu : Spec.Proper u) (hv : Spec.Proper v) : validateCoords u v = .ok () ↔ Spec.Match u v := by
  unfold validateCoords Spec.Match
  by_cases hd : u.dims = v.dims
  · rw [if_neg (not_not.mpr hd)]
    simp only [carries_iff hu.names, carries_iff hv.names]
    have : (((dimCoords u).zip (dimCoords v)).all fun p => sameValues p.1.vals p.2.vals) = true ↔
        ∀ d ∈ u.dims, Spec.Same (coordOf u d).vals (coordOf v d).vals := by
      unfold dimCoords
      rw [← hd, all_zip_map]
      simp only [sameValues_iff]
    by_cases hs : (((dimCoords u).zip (dimCoords v)).all fun p => sameValues p.1.vals p.2.vals) = true
    · rw [if_pos hs]
      simp only [true_iff]
      exact ⟨hd, fun d q c c' e e' => by rw [e, e']; exact this.mp hs d q⟩
    · rw [if_neg hs]
      simp only [reduceCtorEq, false_iff]
      exact fun h => hs (this.mpr fun d q => h.2 d q _ _ rfl rfl)
  · rw [if_pos hd]
    simp only [reduceCtorEq, false_iff]
    exact fun h => hd h.1

theorem validate_error {u v : WArr K α} {e : XErr} (h : validateCoords u v = .error e) : e = .valueError := by
  unfold validateCoords at h
  split at h
  · injection h with h; exact h.symm
  · split at h
    · cases h
    · injection h with h; exact h.symm

/-- The order of the rows. -/
def asc (c : Coord K) : Bool := decide (c.vals.getD 0 0 < c.vals.getD 1 0)

/-- Order of the transforms. -/
def order (a : WArr K α) (lat lon : String) : List String := lat :: lon :: Spec.rest a.dims lat lon

theorem frame_parts {a : WArr K α} (h : Spec.Proper a) {lat lon : String} {c : Coord K} (hf : Spec.Frame a lat lon c) :
    findCoord a isLatitude = .ok c ∧ c.name = lat ∧ (∃ c', findCoord a isLongitude = .ok c' ∧ c'.name = lon) ∧ ascending c = .ok (asc c) ∧
      c.vals.length = Spec.size a lat ∧ c = coordOf a lat := by
  have e := (carries_iff h.names).mp hf.isLat.2.1
  have en : c.name = lat := by rw [e, coordOf_name]
  obtain ⟨c', hc'⟩ := hf.isLon
  have e' := (carries_iff h.names).mp hc'.2.1
  have en' : c'.name = lon := by rw [e', coordOf_name]
  have hl : c.vals.length = Spec.size a lat := by rw [e, coordOf_length h]
  refine ⟨(only_iff h isLatitude_iff c).mpr (en ▸ hf.isLat), en, ⟨c', (only_iff h isLongitude_iff c').mpr (en' ▸ hc'), en'⟩, ?_, hl, e⟩
  rw [ascending_eq, if_pos (by rw [hl]; exact hf.rows)]
  rfl

/-- Why there is no frame. -/
theorem no_frame {a : WArr K α} (h : Spec.Proper a) (hn : ¬ ∃ lat lon c, Spec.Frame a lat lon c) :
    (findCoord a isLatitude = .error .valueError ∨ ∃ c, findCoord a isLatitude = .ok c ∧
      (findCoord a isLongitude = .error .valueError ∨ ∃ c', findCoord a isLongitude = .ok c' ∧
        (ascending c = .error .indexError ∨ (∃ b, ascending c = .ok b) ∧ c'.name = c.name))) := by
  cases h1 : findCoord a isLatitude with
  | error e => rw [findCoord_error _ h1]; exact Or.inl rfl
  | ok c =>
    refine Or.inr ⟨c, rfl, ?_⟩
    cases h2 : findCoord a isLongitude with
    | error e => rw [findCoord_error _ h2]; exact Or.inl rfl
    | ok c' =>
      refine Or.inr ⟨c', rfl, ?_⟩
      rw [ascending_eq]
      by_cases h3 : 2 ≤ c.vals.length
      · right
        rw [if_pos h3]
        refine ⟨⟨_, rfl⟩, ?_⟩
        by_contra hne
        have o1 := (only_iff h isLatitude_iff c).mp h1
        have o2 := (only_iff h isLongitude_iff c').mp h2
        refine hn ⟨c.name, c'.name, c, o1, ⟨c', o2⟩, Ne.symm hne, ?_⟩
        rw [← coordOf_length h, ← (carries_iff h.names).mp o1.2.1]
        exact h3
      · left; rw [if_neg h3]

theorem prepare_ok {a : WArr K Cell} (h : Spec.Proper a) {lat lon : String} {c : Coord K} (hf : Spec.Frame a lat lon c) :
    prepare a = .ok (transposeTo (turned a lat (asc c)) (order a lat lon), dimCoords (transposeTo (turned a lat (asc c)) (order a lat lon)),
      (turned a lat (asc c)).dims) := by
  obtain ⟨p1, rfl, ⟨c', p2, rfl⟩, p3, -, p4⟩ := frame_parts h hf
  have p5 := find_turned h p1 (asc c)
  unfold turned at p5
  have hn := apiNames_ok h.dims hf.isLat.1 hf.isLon.choose_spec.1 hf.ne
  unfold prepare
  simp only [bind, Except.bind, p1, p2, p3, p5, coordOf_name]
  have := turned_dims a c.name (asc c)
  unfold turned at this
  rw [this, hn.1]
  simp only [pure, Except.pure, turned, order, this]

theorem prepare_error {a : WArr K Cell} (h : Spec.Proper a) (hn : ¬ ∃ lat lon c, Spec.Frame a lat lon c) :
    prepare a = .error .valueError ∨ prepare a = .error .indexError := by
  unfold prepare
  rcases no_frame h hn with h1 | ⟨c, h1, h2 | ⟨c', h2, h3 | ⟨⟨b, h3⟩, h4⟩⟩⟩
  · left; simp only [bind, Except.bind, h1]
  · left; simp only [bind, Except.bind, h1, h2]
  · right; simp only [bind, Except.bind, h1, h2, h3]
  · left
    have p5 := find_turned h h1 b
    have hd := turned_dims a c.name b
    have hm : c.name ∈ a.dims := ((only_iff h isLatitude_iff c).mp h1).1
    unfold turned at p5 hd
    simp only [bind, Except.bind, h1, h2, h3, p5, coordOf_name, hd, h4, apiNames_same hm]

/-- Everything the constructor does. -/
theorem construct_eq (lib : Grid → Leg → ℕ → ℕ → ℚ → Inst) (gauss : ℕ → Option (ℕ → K)) {u v : WArr K Cell} (hu : Spec.Proper u)
    (hv : Spec.Proper v) (hm : Spec.Match u v) {lat lon : String} {c : Coord K} (hf : Spec.Frame u lat lon c) (rsphere : ℚ) (legfunc : String)
    (gridtype : Option String) : construct lib gauss u v rsphere legfunc gridtype =
      match gridName gauss (coordOf (turned u lat (asc c)) lat).vals gridtype with
      | .error e => .error e
      | .ok g =>
        match accept (transposeTo (turned u lat (asc c)) (order u lat lon)).data (transposeTo (turned v lat (asc c)) (order u lat lon)).data g rsphere legfunc with
        | .error r => .error (.refused r)
        | .ok (g, l, x, y) => .ok ⟨u.dims, (transposeTo (turned u lat (asc c)) (order u lat lon)).data.shape,
            dimCoords (transposeTo (turned u lat (asc c)) (order u lat lon)), lib g l (Spec.size u lat) (Spec.size u lon) rsphere, x, y⟩ := by
  obtain ⟨p1, rfl, ⟨c', p2, rfl⟩, p3, -, p4⟩ := frame_parts hu hf
  have p5 := find_turned hu p1 (asc c)
  have hs := (lay_arranged hu (placed hu hf) (asc := asc c) rfl).1
  have hd := turned_dims u c.name (asc c)
  have hn := apiNames_ok hu.dims hf.isLat.1 hf.isLon.choose_spec.1 hf.ne
  unfold turned at p5 hd hs
  unfold construct
  have hval := (validate_iff hu hv).mpr hm
  unfold turned order
  simp only [bind, Except.bind, hval, p1, p2, p3, p5, coordOf_name, hd, hn.1]
  cases gridName gauss (coordOf (if asc c = true then reverse u c.name else u) c.name).vals gridtype with
  | error e => rfl
  | ok g =>
    simp only
    cases accept (transposeTo (if asc c = true then reverse u c.name else u) (c.name :: c'.name :: Spec.rest u.dims c.name c'.name)).data
      (transposeTo (if asc c = true then reverse v c.name else v) (c.name :: c'.name :: Spec.rest u.dims c.name c'.name)).data g rsphere legfunc with
    | error r => rfl
    | ok p =>
      obtain ⟨g, l, x, y⟩ := p
      simp only [hs, pure, Except.pure, List.map_cons]
      rfl

theorem construct_unmatched (lib : Grid → Leg → ℕ → ℕ → ℚ → Inst) (gauss : ℕ → Option (ℕ → K)) {u v : WArr K Cell} (hu : Spec.Proper u)
    (hv : Spec.Proper v) (hm : ¬ Spec.Match u v) (rsphere : ℚ) (legfunc : String) (gridtype : Option String) :
    construct lib gauss u v rsphere legfunc gridtype = .error .valueError := by
  unfold construct
  cases h : validateCoords u v with
  | ok x => exact absurd ((validate_iff hu hv).mp h) hm
  | error e => simp only [bind, Except.bind, validate_error h]

theorem construct_unframed (lib : Grid → Leg → ℕ → ℕ → ℚ → Inst) (gauss : ℕ → Option (ℕ → K)) {u v : WArr K Cell} (hu : Spec.Proper u)
    (hv : Spec.Proper v) (hm : Spec.Match u v) (hn : ¬ ∃ lat lon c, Spec.Frame u lat lon c) (rsphere : ℚ) (legfunc : String)
    (gridtype : Option String) :
    construct lib gauss u v rsphere legfunc gridtype = .error .valueError ∨ construct lib gauss u v rsphere legfunc gridtype = .error .indexError := by
  unfold construct
  have hval := (validate_iff hu hv).mpr hm
  rcases no_frame hu hn with h1 | ⟨c, h1, h2 | ⟨c', h2, h3 | ⟨⟨b, h3⟩, h4⟩⟩⟩
  · left; simp only [bind, Except.bind, hval, h1]
  · left; simp only [bind, Except.bind, hval, h1, h2]
  · right; simp only [bind, Except.bind, hval, h1, h2, h3]
  · left
    have p5 := find_turned hu h1 b
    have hd := turned_dims u c.name b
    have hmm : c.name ∈ u.dims := ((only_iff hu isLatitude_iff c).mp h1).1
    unfold turned at p5 hd
    simp only [bind, Except.bind, hval, h1, h2, h3, p5, coordOf_name, hd, h4, apiNames_same hmm]
    cases hg : gridName gauss (coordOf (if b = true then reverse u c.name else u) c.name).vals gridtype with
    | ok g => rfl
    | error e =>
      unfold gridName at hg
      split at hg
      · split at hg <;> first | cases hg; done | (injection hg with hg; rw [← hg])
      · split at hg
        · cases hg
        · injection hg with hg; rw [← hg]

end Skyborn.WindXr
