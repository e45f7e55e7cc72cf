/-
How `VectorWind` on labelled arrays arranges its input and labels its output.
-/
import Verif.WindXr.Lemmas

namespace Skyborn.WindXr

open Skyborn Windspharm Sphere

variable {K α : Type} [Field K] [LinearOrder K]

/-- A coordinate that passes for latitude: by name, units or axis. -/
def Spec.LatLike (c : Coord K) : Prop :=
  c.name = "latitude" ∨ c.name = "lat" ∨ c.name = "LAT" ∨ c.name = "LATITUDE" ∨ c.name = "Y" ∨ c.name = "y" ∨ c.name = "LATS" ∨
    c.name = "YLAT" ∨ c.units = some "degrees_north" ∨ c.axis = some "Y"

/-- A coordinate that passes for longitude. -/
def Spec.LonLike (c : Coord K) : Prop :=
  c.name = "longitude" ∨ c.name = "lon" ∨ c.name = "LON" ∨ c.name = "LONGITUDE" ∨ c.name = "X" ∨ c.name = "x" ∨ c.name = "LONS" ∨
    c.name = "XLONG" ∨ c.units = some "degrees_east" ∨ c.axis = some "X"

/-- `d`, with coordinate `c`, is the only dimension of the array whose coordinate passes. -/
def Spec.Only (a : WArr K α) (P : Coord K → Prop) (d : String) (c : Coord K) : Prop :=
  d ∈ a.dims ∧ Spec.Carries a d c ∧ P c ∧ ∀ d' ∈ a.dims, ∀ c', Spec.Carries a d' c' → P c' → d' = d

/-- Where a row goes when the latitudes `lats` are brought into north-to-south order (judged by the first two). -/
def Spec.turn (lats : List K) (k : ℕ) : ℕ := if lats.getD 0 0 < lats.getD 1 0 then lats.length - 1 - k else k

/-- The array has one latitude `lat`, with coordinate `c`, and one longitude `lon`, along different dimensions, and two rows or more. -/
structure Spec.Frame (a : WArr K α) (lat lon : String) (c : Coord K) : Prop where
  isLat : Spec.Only a Spec.LatLike lat c
  isLon : ∃ c', Spec.Only a Spec.LonLike lon c'
  ne : lat ≠ lon
  rows : 2 ≤ Spec.size a lat

/-- The position along dimension `d` after the rows have been brought into order. -/
def Spec.move (lat : String) (lats : List K) (d : String) (k : ℕ) : ℕ := if d = lat then Spec.turn lats k else k

/-- `x` holds the array with the dimensions in the order latitude (north to south), longitude, others. -/
structure Spec.Arranges (a : WArr K Cell) (lat lon : String) (lats : List K) (x : NDArr ℝ) : Prop where
  shape : x.shape = Spec.size a lat :: Spec.size a lon :: (Spec.rest a.dims lat lon).map (Spec.size a)
  value : ∀ f, Spec.Point a f → Spec.at a f = .num (x.get (Spec.turn lats (f lat) :: f lon :: (Spec.rest a.dims lat lon).map f))

/-- `out` has the dimensions and the coordinates of `a`, with the rows in order, and holds at every labelled point the value that `r`, arranged
latitude, longitude, others, holds there. -/
structure Spec.Labels (a : WArr K α) (lat lon : String) (lats : List K) (out : WArr K ℝ) (r : NDArr ℝ) : Prop where
  proper : Spec.Proper out
  dims : out.dims = a.dims
  size : ∀ d ∈ a.dims, Spec.size out d = Spec.size a d
  coord : ∀ d ∈ a.dims, ∀ c, Spec.Carries a d c → ∃ c', Spec.Carries out d c' ∧ c'.units = c.units ∧ c'.axis = c.axis ∧
    ∀ k, k < Spec.size a d → c'.vals[Spec.move lat lats d k]? = c.vals[k]?
  value : ∀ f, Spec.Point a f →
    Spec.at out (fun d => Spec.move lat lats d (f d)) = r.get (Spec.turn lats (f lat) :: f lon :: (Spec.rest a.dims lat lon).map f)

theorem isLatitude_iff (c : Coord K) : isLatitude c = true ↔ Spec.LatLike c := by
  unfold isLatitude Spec.LatLike
  simp only [Bool.or_eq_true, decide_eq_true_eq, List.mem_cons, List.not_mem_nil, or_false]
  tauto

theorem isLongitude_iff (c : Coord K) : isLongitude c = true ↔ Spec.LonLike c := by
  unfold isLongitude Spec.LonLike
  simp only [Bool.or_eq_true, decide_eq_true_eq, List.mem_cons, List.not_mem_nil, or_false]
  tauto

theorem only_iff {a : WArr K α} (h : Spec.Proper a) {p : Coord K → Bool} {P : Coord K → Prop} (hp : ∀ c, p c = true ↔ P c) (c : Coord K) :
    findCoord a p = .ok c ↔ Spec.Only a P c.name c := by
  rw [findCoord_ok h.dims]
  unfold Spec.Only
  simp only [carries_iff h.names]
  constructor
  · rintro ⟨d, h1, rfl, h3, h4⟩
    rw [coordOf_name]
    exact ⟨h1, rfl, (hp _).mp h3, fun d' q1 c' q2 q3 => h4 d' q1 ((hp _).mpr (q2 ▸ q3))⟩
  · rintro ⟨h1, h2, h3, h4⟩
    exact ⟨c.name, h1, h2.symm, (hp _).mpr h3, fun d' q1 q2 => h4 d' q1 _ rfl ((hp _).mp q2)⟩

theorem find_none {a : WArr K α} (h : Spec.Proper a) {p : Coord K → Bool} {P : Coord K → Prop} (hp : ∀ c, p c = true ↔ P c)
    (hn : ¬ ∃ d c, Spec.Only a P d c) : findCoord a p = .error .valueError := by
  cases hf : findCoord a p with
  | error e => rw [findCoord_error p hf]
  | ok c => exact absurd ⟨_, c, (only_iff h hp c).mp hf⟩ hn

/-- The array with its rows in order. -/
def turned (a : WArr K α) (n : String) (asc : Bool) : WArr K α := if asc then reverse a n else a

theorem turned_proper {a : WArr K α} (h : Spec.Proper a) (n : String) (asc : Bool) : Spec.Proper (turned a n asc) := by
  unfold turned
  split
  · exact reverse_proper h n
  · exact h

theorem turned_dims (a : WArr K α) (n : String) (asc : Bool) : (turned a n asc).dims = a.dims := by
  unfold turned; split <;> rfl

theorem turned_size (a : WArr K α) (n : String) (asc : Bool) (d : String) : Spec.size (turned a n asc) d = Spec.size a d := by
  unfold turned; split <;> rfl

theorem lat_reverse {a : WArr K α} (h : Spec.Proper a) (n d : String) (asc : Bool) :
    isLatitude (coordOf (turned a n asc) d) = isLatitude (coordOf a d) := by
  unfold turned
  split
  · rw [coordOf_reverse h]
    split <;> rfl
  · rfl

/-- After the reversal the same dimension is found. -/
theorem find_turned {a : WArr K α} (h : Spec.Proper a) {c : Coord K} (hc : findCoord a isLatitude = .ok c) (asc : Bool) :
    findCoord (turned a c.name asc) isLatitude = .ok (coordOf (turned a c.name asc) c.name) := by
  rw [findCoord_ok (by rw [turned_dims]; exact h.dims), turned_dims]
  obtain ⟨d, h1, rfl, h3, h4⟩ := (findCoord_ok h.dims _ _).mp hc
  rw [coordOf_name]
  exact ⟨d, h1, rfl, by rw [lat_reverse h]; exact h3, fun d' q1 q2 => h4 d' q1 (by rw [lat_reverse h] at q2; exact q2)⟩

theorem ascending_eq (c : Coord K) : ascending c = if 2 ≤ c.vals.length then .ok (decide (c.vals.getD 0 0 < c.vals.getD 1 0)) else .error .indexError := by
  unfold ascending
  match h : c.vals with
  | [] => simp
  | [a] => simp
  | a :: b :: t => simp

theorem turn_lt {lats : List K} {n k : ℕ} (hl : lats.length = n) (hk : k < n) : Spec.turn lats k < n := by
  unfold Spec.turn
  split <;> omega

theorem turn_turn {lats : List K} {n k : ℕ} (hl : lats.length = n) (hk : k < n) : Spec.turn lats (Spec.turn lats k) = k := by
  unfold Spec.turn
  split <;> omega

/-- Two different dimensions, the first as long as `lats`. -/
structure Placed (a : WArr K α) (lat lon : String) (lats : List K) : Prop where
  memLat : lat ∈ a.dims
  memLon : lon ∈ a.dims
  ne : lat ≠ lon
  len : lats.length = Spec.size a lat

theorem placed {a : WArr K α} (h : Spec.Proper a) {lat lon : String} {c : Coord K} (hf : Spec.Frame a lat lon c) : Placed a lat lon c.vals := by
  obtain ⟨h1, h2, -, -⟩ := hf.isLat
  obtain ⟨c', h3, -⟩ := hf.isLon
  exact ⟨h1, h3, hf.ne, by rw [(carries_iff h.names).mp h2, coordOf_length h]⟩

/-- Data in the order of the transforms. -/
theorem lay_arranged {a : WArr K α} (h : Spec.Proper a) {lat lon : String} {lats : List K} (hf : Placed a lat lon lats) {asc : Bool}
    (ha : asc = decide (lats.getD 0 0 < lats.getD 1 0)) :
    Lay (lat :: lon :: Spec.rest a.dims lat lon) (transposeTo (turned a lat asc) (lat :: lon :: Spec.rest a.dims lat lon)).data (Spec.size a)
      fun f => Spec.at a fun d => Spec.move lat lats d (f d) := by
  obtain ⟨h1, h3, hne, hl⟩ := hf
  have hp := (apiNames_ok h.dims h1 h3 hne).2
  have base : Lay (turned a lat asc).dims (turned a lat asc).data (Spec.size a) fun f => Spec.at a fun d => Spec.move lat lats d (f d) := by
    by_cases hb : lats.getD 0 0 < lats.getD 1 0
    · obtain rfl : asc = true := by rw [ha]; simpa using hb
      refine (lay_reverse h.dims (lay h) h1).congr (fun _ _ => rfl) fun f hf' => ?_
      congr 1
      funext d
      unfold Spec.move Spec.turn
      rw [if_pos hb, hl]
      by_cases e : d = lat
      · rw [if_pos e, if_pos e, e]
      · rw [if_neg e, if_neg e]
    · obtain rfl : asc = false := by rw [ha]; simpa using hb
      refine (lay h).congr (fun _ _ => rfl) fun f hf' => ?_
      congr 1
      funext d
      unfold Spec.move Spec.turn
      rw [if_neg hb]
      simp
  exact lay_transposeTo (by rw [turned_dims]; exact h.dims) base (by rw [turned_dims]; exact hp)

theorem rest_congr {dims : List String} {lat lon : String} {f g : String → ℕ} (h : ∀ d, d ≠ lat → f d = g d) :
    (Spec.rest dims lat lon).map f = (Spec.rest dims lat lon).map g := by
  apply List.map_congr_left
  intro d hd
  have := (List.mem_filter.mp hd).2
  simp only [decide_eq_true_eq] at this
  exact h d this.1

theorem move_point {a : WArr K α} {lat lon : String} {lats : List K} (hf : Placed a lat lon lats) {f : String → ℕ}
    (hp : Spec.Point a f) : Spec.Point a fun d => Spec.move lat lats d (f d) := by
  intro d hd
  have hl := hf.len
  unfold Spec.move
  beta_reduce
  by_cases e : d = lat
  · subst e; rw [if_pos rfl]; exact turn_lt hl (hp d hd)
  · rw [if_neg e]; exact hp d hd

theorem move_move {a : WArr K α} {lat lon : String} {lats : List K} (hf : Placed a lat lon lats) {f : String → ℕ}
    (hp : Spec.Point a f) {d : String} (hd : d ∈ a.dims) : Spec.move lat lats d (Spec.move lat lats d (f d)) = f d := by
  have hl := hf.len
  unfold Spec.move
  by_cases e : d = lat
  · subst e; rw [if_pos rfl, if_pos rfl]; exact turn_turn hl (hp d hd)
  · rw [if_neg e, if_neg e]

/-- The arranged array of numbers. -/
theorem arranges {a : WArr K Cell} (h : Spec.Proper a) {lat lon : String} {lats : List K} (hf : Placed a lat lon lats) {asc : Bool}
    (ha : asc = decide (lats.getD 0 0 < lats.getD 1 0)) {x : NDArr ℝ}
    (hs : x.shape = (transposeTo (turned a lat asc) (lat :: lon :: Spec.rest a.dims lat lon)).data.shape)
    (hx : ∀ idx, InB x.shape idx → (transposeTo (turned a lat asc) (lat :: lon :: Spec.rest a.dims lat lon)).data.get idx = .num (x.get idx)) :
    Spec.Arranges a lat lon lats x := by
  have hL := lay_arranged h hf ha
  have hp := (apiNames_ok h.dims hf.memLat hf.memLon hf.ne).2
  refine ⟨by rw [hs, hL.1]; simp, fun f hpt => ?_⟩
  have hm := move_point hf hpt
  have e := hL.2 _ (fun d hd => hm d (hp.mem_iff.mp hd))
  have hin : InB x.shape ((lat :: lon :: Spec.rest a.dims lat lon).map fun d => Spec.move lat lats d (f d)) := by
    rw [hs, hL.1, inB_map]
    exact fun d hd => hm d (hp.mem_iff.mp hd)
  rw [hx _ hin] at e
  have e2 : Spec.at a (fun d => Spec.move lat lats d (Spec.move lat lats d (f d))) = Spec.at a f := by
    unfold Spec.at
    congr 1
    exact List.map_congr_left fun d hd => move_move hf hpt hd
  beta_reduce at e
  rw [e2] at e
  rw [← e]
  simp only [List.map_cons]
  congr 2
  unfold Spec.move
  rw [if_pos rfl, if_neg hf.ne.symm]
  congr 2
  refine (rest_congr fun d hd => ?_).symm
  rw [if_neg hd]

theorem reshape_same {r : NDArr ℝ} {s : List ℕ} (h : r.shape = s) : ∃ d, r.reshape s = some d ∧ d.shape = s ∧ ∀ idx, InB s idx → d.get idx = r.get idx := by
  unfold NDArr.reshape
  rw [if_pos (by rw [h])]
  exact ⟨_, rfl, rfl, fun idx hi => by simp only [h, unravel_ravel hi]⟩

/-- The labels of an output. -/
theorem labels {a : WArr K α} (h : Spec.Proper a) {lat lon : String} {c : Coord K} (hf : Spec.Frame a lat lon c) {asc : Bool}
    (ha : asc = decide (c.vals.getD 0 0 < c.vals.getD 1 0)) (hc : asc = true → c ∈ a.coords) {r : NDArr ℝ}
    (hr : r.shape = Spec.size a lat :: Spec.size a lon :: (Spec.rest a.dims lat lon).map (Spec.size a)) (name : Option String)
    (attrs : List (String × String)) :
    ∃ out, labelled (transposeTo (turned a lat asc) (lat :: lon :: Spec.rest a.dims lat lon)).data.shape
        (dimCoords (transposeTo (turned a lat asc) (lat :: lon :: Spec.rest a.dims lat lon))) (turned a lat asc).dims r name attrs = .ok out ∧
      Spec.Labels a lat lon c.vals out r ∧ out.name = name ∧ out.attrs = attrs := by
  obtain ⟨h1, h2, -, -⟩ := hf.isLat
  obtain ⟨c', h3, -⟩ := hf.isLon
  obtain ⟨api, hapi⟩ : ∃ api, api = lat :: lon :: Spec.rest a.dims lat lon := ⟨_, rfl⟩
  have hp : api.Perm a.dims := by rw [hapi]; exact (apiNames_ok h.dims h1 h3 hf.ne).2
  have hL := lay_arranged h (placed h hf) ha
  rw [← hapi] at hL ⊢
  have hl : c.vals.length = Spec.size a lat := by rw [(carries_iff h.names).mp h2, coordOf_length h]
  have hpt := turned_proper h lat asc
  have hcoord : ∀ d ∈ a.dims, coordOf (transposeTo (turned a lat asc) api) d = coordOf (turned a lat asc) d := fun d hd =>
    coordOf_transpose hpt (by rw [turned_dims]; exact hp) (by rw [turned_dims]; exact hd)
  have hdc : dimCoords (transposeTo (turned a lat asc) api) = api.map (coordOf (turned a lat asc)) := by
    show api.map _ = _
    exact List.map_congr_left fun d hd => hcoord d (hp.mem_iff.mp hd)
  have hnames : (api.map (coordOf (turned a lat asc))).map (fun c => c.name) = api := by
    rw [List.map_map]
    conv_rhs => rw [← List.map_id api]
    exact List.map_congr_left fun d _ => coordOf_name _ d
  have hs : r.shape = api.map (Spec.size a) := by rw [hr, hapi]; rfl
  obtain ⟨D, e, hD, hDv⟩ := reshape_same hs
  rw [hL.1]
  unfold labelled
  rw [e, hdc, hnames]
  simp only [turned_dims]
  have hLD : Lay api D (Spec.size a) fun f => r.get (api.map f) := by
    refine ⟨hD, fun f hf' => hDv _ (by rw [inB_map]; exact hf')⟩
  have hnd : api.Nodup := hp.nodup_iff.mpr h.dims
  have hLo := lay_transposeTo (a := (⟨api, D, api.map (coordOf (turned a lat asc)), name, attrs⟩ : WArr K ℝ)) hnd hLD hp.symm
  obtain ⟨out, hout⟩ : ∃ out, out = transposeTo (⟨api, D, api.map (coordOf (turned a lat asc)), name, attrs⟩ : WArr K ℝ) a.dims := ⟨_, rfl⟩
  rw [← hout] at hLo
  have hod : out.dims = a.dims := by rw [hout]; rfl
  have hoc : out.coords = api.map (coordOf (turned a lat asc)) := by rw [hout]; rfl
  have hsz : ∀ d ∈ a.dims, Spec.size out d = Spec.size a d := fun d hd => size_of_lay (a := out) (by rw [hod]; exact hLo) (by rw [hod]; exact hd)
  rw [← hout]
  refine ⟨out, rfl, ⟨⟨by rw [hod]; exact h.dims, by rw [hLo.1, hod, List.length_map], ?_, by rw [hoc, hnames]; exact hnd⟩, hod, hsz, ?_, ?_⟩,
    by rw [hout]; rfl, by rw [hout]; rfl⟩
  · intro c0 hc0
    rw [hoc] at hc0
    obtain ⟨d, hd, rfl⟩ := List.mem_map.mp hc0
    have hd' := hp.mem_iff.mp hd
    rw [coordOf_name]
    refine ⟨by rw [hod]; exact hd', ?_⟩
    rw [coordOf_length hpt, turned_size]
    exact (hsz d hd').symm
  · intro d hd c0 hc0
    have e0 := (carries_iff h.names).mp hc0
    refine ⟨coordOf (turned a lat asc) d, Or.inl ⟨?_, coordOf_name _ d⟩, ?_⟩
    · rw [hoc]; exact List.mem_map.mpr ⟨d, hp.mem_iff.mpr hd, rfl⟩
    · unfold Spec.move Spec.turn
      by_cases hb : c.vals.getD 0 0 < c.vals.getD 1 0
      · obtain rfl : asc = true := by rw [ha]; simpa using hb
        have hcm := hc rfl
        have hcn : c.name = lat := by rw [(carries_iff h.names).mp h2, coordOf_name]
        have : coordOf (turned a lat true) d = _ := coordOf_reverse h lat d
        rw [this]
        by_cases ed : d = lat
        · subst ed
          rw [if_pos ⟨rfl, c, hcm, hcn⟩, e0]
          refine ⟨rfl, rfl, fun k hk => ?_⟩
          have ec : c = coordOf a d := (carries_iff h.names).mp h2
          have hl' : (coordOf a d).vals.length = Spec.size a d := coordOf_length h d
          rw [if_pos rfl, if_pos hb, hl, List.getElem?_reverse (by omega), hl']
          congr 1
          omega
        · rw [if_neg fun hx => ed hx.1, e0]
          refine ⟨rfl, rfl, fun k hk => ?_⟩
          rw [if_neg ed]
      · obtain rfl : asc = false := by rw [ha]; simpa using hb
        rw [e0]
        refine ⟨rfl, rfl, fun k hk => ?_⟩
        simp only [if_neg hb, ite_self]
        rfl
  · intro f hpt
    have hm := move_point (placed h hf) hpt
    unfold Spec.at
    rw [hod, hLo.2 _ hm, hapi]
    simp only [List.map_cons]
    unfold Spec.move
    rw [if_pos rfl, if_neg hf.ne.symm]
    congr 3
    refine rest_congr fun d hd => ?_
    rw [if_neg hd]

end Skyborn.WindXr
