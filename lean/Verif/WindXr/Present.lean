/-
C239: the answers do not depend on how the winds are laid out.
-/
import Verif.WindXr.Witness

namespace Skyborn.WindXr

open Skyborn Windspharm Sphere

variable {K α : Type} [Field K] [LinearOrder K]

/-- Positions along the latitude counted from the other end. -/
def Spec.mirror (a : WArr K α) (lat : String) (flip : Bool) (f : String → ℕ) (d : String) : ℕ :=
  if d = lat ∧ flip = true then Spec.size a lat - 1 - f d else f d

/-- `a'` is `a` with the dimensions in some order and, if `flip`, the rows from the other end: the same values at the same labels. -/
structure Spec.SameData (a a' : WArr K α) (lat : String) (flip : Bool) : Prop where
  perm : a'.dims.Perm a.dims
  size : ∀ d ∈ a.dims, Spec.size a' d = Spec.size a d
  coord : ∀ d ∈ a.dims, ∀ c c', Spec.Carries a d c → Spec.Carries a' d c' → c'.units = c.units ∧ c'.axis = c.axis ∧
    c'.vals = if d = lat ∧ flip = true then c.vals.reverse else c.vals
  value : ∀ f, Spec.Point a f → Spec.at a' (Spec.mirror a lat flip f) = Spec.at a f

/-- Strictly increasing or strictly decreasing. -/
def Spec.Strict (l : List K) : Prop := l.Pairwise (· < ·) ∨ l.Pairwise (· > ·)

theorem strict_turn {l : List K} (h : Spec.Strict l) (hn : 2 ≤ l.length) :
    (l.reverse.getD 0 0 < l.reverse.getD 1 0) ↔ ¬ (l.getD 0 0 < l.getD 1 0) := by
  have e0 : l.reverse.getD 0 0 = l[l.length - 1] := by
    rw [List.getD_eq_getElem _ _ (by simp; omega), List.getElem_reverse]; simp
  have e1 : l.reverse.getD 1 0 = l[l.length - 2] := by
    rw [List.getD_eq_getElem _ _ (by simp; omega), List.getElem_reverse]; congr 1
  rw [e0, e1, List.getD_eq_getElem _ _ (by omega), List.getD_eq_getElem _ _ (by omega)]
  rcases h with h | h
  · have a := List.pairwise_iff_getElem.mp h (l.length - 2) (l.length - 1) (by omega) (by omega) (by omega)
    have b := List.pairwise_iff_getElem.mp h 0 1 (by omega) (by omega) (by omega)
    exact ⟨fun h => absurd h (lt_asymm a), fun h => absurd b h⟩
  · have a := List.pairwise_iff_getElem.mp h (l.length - 2) (l.length - 1) (by omega) (by omega) (by omega)
    have b := List.pairwise_iff_getElem.mp h 0 1 (by omega) (by omega) (by omega)
    exact ⟨fun _ => lt_asymm b, fun _ => a⟩

theorem turn_reverse {l : List K} (h : Spec.Strict l) (hn : 2 ≤ l.length) {k : ℕ} (hk : k < l.length) :
    Spec.turn l.reverse (l.length - 1 - k) = Spec.turn l k := by
  unfold Spec.turn
  have := strict_turn h hn
  by_cases hb : l.getD 0 0 < l.getD 1 0
  · rw [if_pos hb, if_neg (fun h => this.mp h hb)]
  · rw [if_neg hb, if_pos (this.mpr hb), List.length_reverse]; omega

theorem northFirst_reverse {l : List K} (h : Spec.Strict l) (hn : 2 ≤ l.length) : Spec.northFirst l.reverse = Spec.northFirst l := by
  unfold Spec.northFirst
  have := strict_turn h hn
  by_cases hb : l.getD 0 0 < l.getD 1 0
  · rw [if_pos hb, if_neg (fun h => this.mp h hb)]
  · rw [if_neg hb, if_pos (this.mpr hb), List.reverse_reverse]

theorem frame_only {a : WArr K α} (h : Spec.Proper a) {lat lon lat' lon' : String} {c c' : Coord K} (h1 : Spec.Frame a lat lon c)
    (h2 : Spec.Frame a lat' lon' c') : lat' = lat ∧ lon' = lon ∧ c' = c := by
  obtain ⟨p1, rfl, ⟨d, p2, rfl⟩, -⟩ := frame_parts h h1
  obtain ⟨q1, rfl, ⟨d', q2, rfl⟩, -⟩ := frame_parts h h2
  rw [p1] at q1
  rw [p2] at q2
  injection q1 with q1
  injection q2 with q2
  rw [q1, q2]
  exact ⟨rfl, rfl, rfl⟩

theorem carries_name {a : WArr K α} {d : String} {c : Coord K} (h : Spec.Carries a d c) : c.name = d := by
  rcases h with ⟨-, h⟩ | ⟨-, rfl⟩
  · exact h
  · rfl

/-- The other layout has the same latitude and longitude. -/
theorem same_frame {a a' : WArr K α} (h' : Spec.Proper a') {lat lon : String} {flip : Bool} {c : Coord K} (hf : Spec.Frame a lat lon c)
    (hs : Spec.SameData a a' lat flip) : Spec.Frame a' lat lon (coordOf a' lat) := by
  have like : ∀ {P : Coord K → Prop}, (∀ c c' : Coord K, c'.name = c.name → c'.units = c.units → c'.axis = c.axis → (P c' ↔ P c)) → ∀ {d c}, Spec.Only a P d c →
      Spec.Only a' P d (coordOf a' d) := by
    intro P hP d c ⟨q1, q2, q3, q4⟩
    obtain ⟨k1, k2, -⟩ := hs.coord d q1 c _ q2 (carries_coordOf a' d)
    refine ⟨hs.perm.mem_iff.mpr q1, carries_coordOf a' d, (hP c _ (by rw [coordOf_name, carries_name q2]) k1 k2).mpr q3, fun d' m c' r1 r2 => ?_⟩
    have m' := hs.perm.mem_iff.mp m
    obtain ⟨k1, k2, -⟩ := hs.coord d' m' _ c' (carries_coordOf a d') r1
    exact q4 d' m' _ (carries_coordOf a d') ((hP (coordOf a d') c' (by rw [carries_name r1, coordOf_name]) k1 k2).mp r2)
  refine ⟨like (fun c c' e1 e2 e3 => by unfold Spec.LatLike; rw [e1, e2, e3]) hf.isLat, ?_, hf.ne, by rw [hs.size lat hf.isLat.1]; exact hf.rows⟩
  obtain ⟨x, hx⟩ := hf.isLon
  exact ⟨_, like (fun c c' e1 e2 e3 => by unfold Spec.LonLike; rw [e1, e2, e3]) hx⟩

theorem mirror_point {a : WArr K α} {lat : String} {flip : Bool} {f : String → ℕ} (h : Spec.Point a f) : Spec.Point a (Spec.mirror a lat flip f) := by
  intro d hd
  have := h d hd
  unfold Spec.mirror
  split
  · next e => rw [e.1] at this ⊢; omega
  · exact this

/-- The arranged arrays agree, slice by slice. -/
theorem arranged_same {a a' : WArr K Cell} (h : Spec.Proper a) {lat lon : String} {flip : Bool} (c c' : Coord K)
    (hp : Placed a lat lon c.vals) (hs : Spec.SameData a a' lat flip) (hstr : Spec.Strict c.vals) (hrows : 2 ≤ Spec.size a lat)
    (hcc : c'.vals = if flip = true then c.vals.reverse else c.vals) {x x' : NDArr ℝ}
    (hx : Spec.Arranges a lat lon c.vals x) (hx' : Spec.Arranges a' lat lon c'.vals x') {f : String → ℕ} (hf : Spec.Point a f) :
    Spec.cut (Spec.size a lat) (Spec.size a lon) x ((Spec.rest a.dims lat lon).map f) =
      Spec.cut (Spec.size a lat) (Spec.size a lon) x' ((Spec.rest a'.dims lat lon).map f) := by
  funext i j
  unfold Spec.cut
  by_cases hij : i < Spec.size a lat ∧ j < Spec.size a lon
  swap
  · rw [if_neg hij, if_neg hij]
  rw [if_pos hij, if_pos hij]
  set f0 : String → ℕ := fun d => if d = lat then Spec.turn c.vals i else if d = lon then j else f d with hf0
  have p0 : Spec.Point a f0 := by
    intro d hd
    rw [hf0]
    beta_reduce
    split
    · next e => rw [e]; exact turn_lt hp.len hij.1
    · split
      · next e => rw [e]; exact hij.2
      · exact hf d hd
  have l0 : f0 lat = Spec.turn c.vals i := by rw [hf0]; simp
  have l1 : f0 lon = j := by rw [hf0]; simp [Ne.symm hp.ne]
  have r0 : ∀ dims : List String, (Spec.rest dims lat lon).map f0 = (Spec.rest dims lat lon).map f := by
    intro dims
    apply List.map_congr_left
    intro d hd
    have := (List.mem_filter.mp hd).2
    simp only [decide_eq_true_eq] at this
    rw [hf0]; simp [this.1, this.2]
  have v1 := hx.value f0 p0
  have v2 := hx'.value (Spec.mirror a lat flip f0) (by
    intro d hd
    have := mirror_point (lat := lat) (flip := flip) p0 d (hs.perm.mem_iff.mp hd)
    rw [hs.size d (hs.perm.mem_iff.mp hd)]; exact this)
  rw [hs.value f0 p0, v1, l0, l1, turn_turn hp.len hij.1, r0] at v2
  injection v2 with v2
  rw [v2]
  have m1 : Spec.mirror a lat flip f0 lon = j := by unfold Spec.mirror; rw [if_neg (fun h => hp.ne h.1.symm), l1]
  have m2 : (Spec.rest a'.dims lat lon).map (Spec.mirror a lat flip f0) = (Spec.rest a'.dims lat lon).map f := by
    rw [← r0]
    apply rest_congr
    intro d hd
    unfold Spec.mirror
    rw [if_neg (fun h => hd h.1)]
  have m3 : Spec.turn c'.vals (Spec.mirror a lat flip f0 lat) = i := by
    unfold Spec.mirror
    rw [hcc]
    cases flip with
    | false => simp [l0, turn_turn hp.len hij.1]
    | true =>
      rw [if_pos rfl, if_pos ⟨rfl, rfl⟩, l0, ← hp.len, turn_reverse hstr (by rw [hp.len]; exact hrows) (by rw [hp.len]; exact turn_lt hp.len hij.1), turn_turn hp.len hij.1]
  rw [m1, m2, m3]

/-- Two labelled results agree: the same dimensions up to order, the same coordinates, the same value at the same labels. -/
structure Spec.Agree (a b : WArr K ℝ) : Prop where
  dims : b.dims.Perm a.dims
  coord : ∀ d ∈ a.dims, ∀ c c', Spec.Carries a d c → Spec.Carries b d c' → c'.vals = c.vals ∧ c'.units = c.units ∧ c'.axis = c.axis
  value : ∀ f, Spec.Point a f → Spec.Point b f ∧ Spec.at b f = Spec.at a f

theorem getElem?_ext {A : Type} {l m : List A} {n : ℕ} (hl : l.length = n) (hm : m.length = n) (h : ∀ k < n, l[k]? = m[k]?) : l = m := by
  apply List.ext_getElem?
  intro k
  by_cases hk : k < n
  · exact h k hk
  · rw [List.getElem?_eq_none (by omega), List.getElem?_eq_none (by omega)]

/-- Where a labelled result holds what. -/
theorem labels_at {a : WArr K Cell} {lat lon : String} {lats : List K} (hp : Placed a lat lon lats) {out : WArr K ℝ} {r : NDArr ℝ}
    (hl : Spec.Labels a lat lon lats out r) {f : String → ℕ} (hf : Spec.Point a f) :
    Spec.at out f = r.get (f lat :: f lon :: (Spec.rest a.dims lat lon).map f) := by
  have v := hl.value _ (move_point hp hf)
  have back : (out.dims.map fun d => Spec.move lat lats d (Spec.move lat lats d (f d))) = out.dims.map f :=
    List.map_congr_left fun n hn => move_move hp hf (hl.dims ▸ hn)
  have lhs : Spec.at out (fun d => Spec.move lat lats d (Spec.move lat lats d (f d))) = Spec.at out f := by
    unfold Spec.at; rw [back]
  have m1 : Spec.move lat lats lat (f lat) = Spec.turn lats (f lat) := if_pos rfl
  have m2 : Spec.move lat lats lon (f lon) = f lon := if_neg (Ne.symm hp.ne)
  have m3 : ((Spec.rest a.dims lat lon).map fun d => Spec.move lat lats d (f d)) = (Spec.rest a.dims lat lon).map f :=
    rest_congr fun d hd => if_neg hd
  rw [lhs, m1, m2, m3, turn_turn hp.len (hf lat hp.memLat)] at v
  exact v

/-- The coordinates of a labelled result. -/
theorem labels_coord {a : WArr K Cell} {lat lon : String} {lats : List K} (hp : Placed a lat lon lats) {out : WArr K ℝ} {r : NDArr ℝ}
    (hl : Spec.Labels a lat lon lats out r) {d : String} (hd : d ∈ a.dims) {c q : Coord K} (hc : Spec.Carries a d c) (hq : Spec.Carries out d q) :
    q.units = c.units ∧ q.axis = c.axis ∧ q.vals.length = Spec.size a d ∧
      ∀ k, k < Spec.size a d → q.vals[k]? = c.vals[if d = lat then Spec.turn lats k else k]? := by
  obtain ⟨q', h1, h2, h3, h4⟩ := hl.coord d hd c hc
  have e := carries_unique hl.proper.names hq h1
  subst e
  refine ⟨h2, h3, ?_, fun k hk => ?_⟩
  · rw [(carries_iff hl.proper.names).mp hq, coordOf_length hl.proper, hl.size d hd]
  · by_cases hdl : d = lat
    · subst hdl
      rw [if_pos rfl]
      have := h4 _ (turn_lt hp.len hk)
      unfold Spec.move at this
      rw [if_pos rfl, turn_turn hp.len hk] at this
      exact this
    · rw [if_neg hdl]
      have := h4 k hk
      unfold Spec.move at this
      rw [if_neg hdl] at this
      exact this

theorem agree {a a' : WArr K Cell} {lat lon : String} {flip : Bool} {c c' : Coord K} (hc : c = coordOf a lat)
    (hp : Placed a lat lon c.vals) (hp' : Placed a' lat lon c'.vals) (hs : Spec.SameData a a' lat flip) (hstr : Spec.Strict c.vals)
    (hrows : 2 ≤ Spec.size a lat) (hcc : c'.vals = if flip = true then c.vals.reverse else c.vals) {out out' : WArr K ℝ} {r r' : NDArr ℝ}
    (hl : Spec.Labels a lat lon c.vals out r) (hl' : Spec.Labels a' lat lon c'.vals out' r')
    (hrr : ∀ f, Spec.Point a f → r'.get (f lat :: f lon :: (Spec.rest a'.dims lat lon).map f) = r.get (f lat :: f lon :: (Spec.rest a.dims lat lon).map f)) :
    Spec.Agree out out' := by
  refine ⟨by rw [hl.dims, hl'.dims]; exact hs.perm, ?_, ?_⟩
  · intro d hd q q' hq hq'
    rw [hl.dims] at hd
    have hd' := hs.perm.mem_iff.mpr hd
    obtain ⟨a1, a2, a3, a4⟩ := labels_coord hp hl hd (carries_coordOf a d) hq
    obtain ⟨b1, b2, b3, b4⟩ := labels_coord hp' hl' hd' (carries_coordOf a' d) hq'
    obtain ⟨s1, s2, s3⟩ := hs.coord d hd _ _ (carries_coordOf a d) (carries_coordOf a' d)
    refine ⟨?_, by rw [b1, a1, s1], by rw [b2, a2, s2]⟩
    refine getElem?_ext (n := Spec.size a d) (by rw [b3, hs.size d hd]) a3 fun k hk => ?_
    rw [a4 k hk, b4 k (by rw [hs.size d hd]; exact hk), s3]
    by_cases hdl : d = lat
    swap
    · rw [if_neg hdl, if_neg hdl, if_neg (fun h => hdl h.1)]
    subst hdl
    rw [if_pos rfl, if_pos rfl]
    have k1 := hp.len
    cases flip with
    | false =>
      rw [if_neg (by simp)] at hcc
      rw [if_neg (by simp), hcc]
    | true =>
      rw [if_pos rfl] at hcc
      rw [if_pos ⟨rfl, rfl⟩, hcc]
      have t1 := turn_lt k1 hk
      have t2 := turn_reverse hstr (by rw [k1]; exact hrows) (k := Spec.turn c.vals k) (by rw [k1]; exact t1)
      rw [turn_turn k1 hk] at t2
      have t3 : Spec.turn c.vals.reverse k = c.vals.length - 1 - Spec.turn c.vals k := by
        have := turn_turn (lats := c.vals.reverse) (n := Spec.size a d) (k := c.vals.length - 1 - Spec.turn c.vals k) (by rw [List.length_reverse, k1]) (by rw [k1]; omega)
        rw [t2] at this
        exact this
      rw [← hc, t3, List.getElem?_reverse (by omega)]
      congr 1
      omega
  · intro f hf
    have hfa : Spec.Point a f := fun d hd => by rw [← hl.size d hd]; exact hf d (hl.dims ▸ hd)
    have hfa' : Spec.Point a' f := fun d hd => by rw [hs.size d (hs.perm.mem_iff.mp hd)]; exact hfa d (hs.perm.mem_iff.mp hd)
    refine ⟨fun d hd => by rw [hl'.size d (hl'.dims ▸ hd)]; exact hfa' d (hl'.dims ▸ hd), ?_⟩
    rw [labels_at hp hl hfa, labels_at hp' hl' hfa', hrr f hfa]

theorem gridIs_unique {gauss : ℕ → Option (ℕ → K)} {lats : List K} {gridtype : Option String} {g g' : Grid} (h : Spec.GridIs gauss lats gridtype g)
    (h' : Spec.GridIs gauss lats gridtype g') : g' = g := by
  unfold Spec.GridIs at h h'
  split at h
  · rcases h with ⟨a, rfl⟩ | ⟨a, rfl⟩ <;> rcases h' with ⟨b, rfl⟩ | ⟨b, rfl⟩ <;> first | rfl | (rw [a] at b; cases b)
  · rcases h with ⟨a, rfl⟩ | ⟨a, rfl⟩ <;> rcases h' with ⟨b, rfl⟩ | ⟨b, rfl⟩ <;> first | rfl | (rw [a] at b; exact absurd b (by decide))

/-- C239: two layouts of the same winds - the dimensions in another order, the latitudes from the other end - are worked on by the same transform, and every method answers for
one exactly when it does for the other, with results that agree: the same coordinates, the same value at the same labels. (Latitudes strictly increasing or
decreasing; the transforms accept the size.) -/
theorem C239_presentation [IsStrictOrderedRing K] {lib : Grid → Leg → ℕ → ℕ → ℚ → Inst} (hlib : Spec.Lib lib) {gauss : ℕ → Option (ℕ → K)} {u v u' v' : WArr K Cell}
    (hu : Spec.Proper u) (hv : Spec.Proper v) (hu' : Spec.Proper u') (hv' : Spec.Proper v') {rsphere : ℚ} {legfunc : String} {gridtype : Option String}
    {w w' : WObj K} (h : construct lib gauss u v rsphere legfunc gridtype = .ok w) (h' : construct lib gauss u' v' rsphere legfunc gridtype = .ok w')
    {lat lon : String} {c c' : Coord K} (hf : Spec.Frame u lat lon c) (hstr : Spec.Strict c.vals) (hc : c ∈ u.coords) (hc' : c' ∈ u'.coords) (hn' : c'.name = lat)
    {flip : Bool} (hsu : Spec.SameData u u' lat flip) (hsv : Spec.SameData v v' lat flip) (hG : Good w.inst (Spec.extra u lat lon ++ [2])) :
    w'.inst = w.inst ∧ ∀ (q : XQuery K) ans, Spec.plain w.inst w.u w.v q = some ans → ∀ (qs qs' : List (XQuery K)) (k k' : ℕ), qs[k]? = some q → qs'[k']? = some q →
      ((∃ outs, (run w qs)[k]? = some (.ok outs)) ↔ ∃ outs, (run w' qs')[k']? = some (.ok outs)) ∧
      ∀ outs outs', (run w qs)[k]? = some (.ok outs) → (run w' qs')[k']? = some (.ok outs') → List.Forall₂ Spec.Agree outs outs' := by
  obtain ⟨lat0, lon0, c0, hh, g, s, l, hg, hgs, hl, -, hi⟩ := holds hu hv h
  obtain ⟨rfl, rfl, rfl⟩ := frame_only hu hf hh.frame
  have hf' := same_frame hu' hf hsu
  have ec' : coordOf u' lat0 = c' := ((carries_iff hu'.names).mp (Or.inl ⟨hc', hn'⟩)).symm
  rw [ec'] at hf'
  obtain ⟨lat1, lon1, c1, hh', g', s', l', hg', hgs', hl', -, hi'⟩ := holds hu' hv' h'
  obtain ⟨rfl, rfl, rfl⟩ := frame_only hu' hf' hh'.frame
  have ec : c0 = coordOf u lat1 := (carries_iff hu.names).mp hf.isLat.2.1
  have hcc : c1.vals = if flip = true then c0.vals.reverse else c0.vals := by
    have := (hsu.coord lat1 hf.isLat.1 c0 c1 hf.isLat.2.1 hf'.isLat.2.1).2.2
    simpa using this
  have hp := placed hu hf
  have hp' := placed hu' hf'
  have hrows : 2 ≤ c0.vals.length := by rw [hp.len]; exact hf.rows
  -- the same transform
  have gi := (grid_iff gauss hu hf gridtype g).mp ⟨s, hg, hgs⟩
  have gi' := (grid_iff gauss hu' hf' gridtype g').mp ⟨s', hg', hgs'⟩
  have hnf : Spec.northFirst c1.vals = Spec.northFirst c0.vals := by
    rw [hcc]; split
    · exact northFirst_reverse hstr hrows
    · rfl
  have gi'' : Spec.GridIs gauss c0.vals gridtype g' := by
    unfold Spec.GridIs at gi' ⊢
    rw [hnf] at gi'; exact gi'
  have eg := gridIs_unique gi gi''
  have el : l' = l := by rw [hl] at hl'; injection hl' with hl'; exact hl'.symm
  have hinst : w'.inst = w.inst := by rw [hi, hi', eg, el, hsu.size _ hp.memLat, hsu.size _ hp.memLon]
  refine ⟨hinst, ?_⟩
  obtain ⟨i1, i2, i3, -, -⟩ := hlib g l (Spec.size u lat1) (Spec.size u lon1) rsphere
  rw [← hi] at i1 i2 i3
  -- shapes
  have hsz : ∀ d ∈ u.dims, Spec.size v d = Spec.size u d := hh.sizes
  have hsz' : ∀ d ∈ u'.dims, Spec.size v' d = Spec.size u' d := hh'.sizes
  have hd := hh.match'.1
  have hd' := hh'.match'.1
  have sv : w.v.shape = w.inst.nlat :: w.inst.nlon :: Spec.extra u lat1 lon1 := by
    rw [i1, i2, hh.hv.shape, ← hd, hsz _ hp.memLat, hsz _ hp.memLon]
    congr 2
    exact List.map_congr_left fun d hd => hsz d (List.mem_filter.mp hd).1
  have su : w.u.shape = w.inst.nlat :: w.inst.nlon :: Spec.extra u lat1 lon1 := by rw [i1, i2]; exact hh.hu.shape
  have sv' : w'.v.shape = w.inst.nlat :: w.inst.nlon :: Spec.extra u' lat1 lon1 := by
    rw [i1, i2, hh'.hv.shape, ← hd', hsz' _ hp'.memLat, hsz' _ hp'.memLon, hsu.size _ hp.memLat, hsu.size _ hp.memLon]
    congr 2
    exact List.map_congr_left fun d hd => hsz' d (List.mem_filter.mp hd).1
  have su' : w'.u.shape = w.inst.nlat :: w.inst.nlon :: Spec.extra u' lat1 lon1 := by
    rw [i1, i2, hh'.hu.shape, hsu.size _ hp.memLat, hsu.size _ hp.memLon]; rfl
  have hperm : (Spec.extra u' lat1 lon1).Perm (Spec.extra u lat1 lon1) := by
    have h1 : (Spec.rest u'.dims lat1 lon1).Perm (Spec.rest u.dims lat1 lon1) := hsu.perm.filter _
    have h2 := h1.map (Spec.size u')
    unfold Spec.extra
    rwa [List.map_congr_left (l := Spec.rest u.dims lat1 lon1) (f := Spec.size u') (g := Spec.size u) fun d hd => hsu.size d (List.mem_filter.mp hd).1] at h2
  have hprod : (Spec.extra u' lat1 lon1).prod = (Spec.extra u lat1 lon1).prod := hperm.prod_eq
  have hG' : Good w.inst (Spec.extra u' lat1 lon1 ++ [2]) := by
    have hpp : (Spec.extra u' lat1 lon1 ++ [2]).prod = (Spec.extra u lat1 lon1 ++ [2]).prod := by rw [List.prod_append, List.prod_append, hprod]
    exact ⟨hG.lat, hG.lon, hG.pos, by rw [hpp]; exact hG.some, by rw [hpp]; exact hG.fit⟩
  -- slices
  have hpv : Placed v lat1 lon1 c0.vals := ⟨hd ▸ hp.memLat, hd ▸ hp.memLon, hp.ne, by rw [hp.len, hsz _ hp.memLat]⟩
  have cutu : ∀ f, Spec.Point u f → Spec.cut w.inst.nlat w.inst.nlon w.u ((Spec.rest u.dims lat1 lon1).map f) =
      Spec.cut w.inst.nlat w.inst.nlon w'.u ((Spec.rest u'.dims lat1 lon1).map f) := by
    intro f hpt
    rw [i1, i2]
    exact arranged_same hu c0 c1 hp hsu hstr hf.rows hcc hh.hu hh'.hu hpt
  have cutv : ∀ f, Spec.Point u f → Spec.cut w.inst.nlat w.inst.nlon w.v ((Spec.rest u.dims lat1 lon1).map f) =
      Spec.cut w.inst.nlat w.inst.nlon w'.v ((Spec.rest u'.dims lat1 lon1).map f) := by
    intro f hpt
    have := arranged_same hv c0 c1 hpv hsv hstr (by rw [hsz _ hp.memLat]; exact hf.rows) hcc hh.hv hh'.hv (f := f) (fun d hdv => by rw [hsz d (hd ▸ hdv)]; exact hpt d (hd ▸ hdv))
    rw [hsz _ hp.memLat, hsz _ hp.memLon, ← hd, ← hd'] at this
    rw [i1, i2]
    exact this
  have hrun : ∀ (qs : List (XQuery K)) (k : ℕ) (q : XQuery K), qs[k]? = some q → (run w qs)[k]? = some (ask w q (Obj.fresh w.u w.v)).1 := by
    intro qs k q hq
    have := session_map su sv qs (valid_fresh w.inst w.u w.v)
    unfold run
    rw [this, List.getElem?_map, hq]; rfl
  have su1 : w'.u.shape = w'.inst.nlat :: w'.inst.nlon :: Spec.extra u' lat1 lon1 := by rw [hinst]; exact su'
  have sv1 : w'.v.shape = w'.inst.nlat :: w'.inst.nlon :: Spec.extra u' lat1 lon1 := by rw [hinst]; exact sv'
  have hrun' : ∀ (qs : List (XQuery K)) (k : ℕ) (q : XQuery K), qs[k]? = some q → (run w' qs)[k]? = some (ask w' q (Obj.fresh w'.u w'.v)).1 := by
    intro qs k q hq
    have := session_map su1 sv1 qs (valid_fresh w'.inst w'.u w'.v)
    unfold run
    rw [this, List.getElem?_map, hq]; rfl
  intro q ans ha qs qs' k k' hq hq'
  rw [hrun qs k q hq, hrun' qs' k' q hq']
  have i1' : w'.inst.nlat = Spec.size u' lat1 := by rw [hinst, i1, hsu.size _ hp.memLat]
  have i2' : w'.inst.nlon = Spec.size u' lon1 := by rw [hinst, i2, hsu.size _ hp.memLon]
  have hR := reply_ok hu hh (fun _ => hc) i1 i2 hG q ha (valid_fresh w.inst w.u w.v)
  obtain ⟨ans', ha'⟩ : ∃ ans', Spec.plain w'.inst w'.u w'.v q = some ans' := by cases q <;> first | exact ⟨_, rfl⟩ | cases ha
  have hR' := reply_ok hu' hh' (fun _ => hc') i1' i2' (by rw [hinst]; exact hG') q ha' (valid_fresh w'.inst w'.u w'.v)
  rw [hinst] at ha'
  -- the two answers, slice by slice
  have key : (∃ rs rs', ans = .ok rs ∧ ans' = .ok rs' ∧ List.Forall₂ (fun r r' => ∀ f, Spec.Point u f →
      r'.get (f lat1 :: f lon1 :: (Spec.rest u'.dims lat1 lon1).map f) = r.get (f lat1 :: f lon1 :: (Spec.rest u.dims lat1 lon1).map f)) rs rs') ∨
      ∃ e e', ans = .error e ∧ ans' = .error e' := by
    have pt : ∀ f, Spec.Point u f → f lat1 < w.inst.nlat ∧ f lon1 < w.inst.nlon := fun f hpt => by
      rw [i1, i2]; exact ⟨hpt _ hp.memLat, hpt _ hp.memLon⟩
    have ptr : ∀ f, Spec.Point u f → InB (Spec.extra u lat1 lon1) ((Spec.rest u.dims lat1 lon1).map f) ∧
        InB (Spec.extra u' lat1 lon1) ((Spec.rest u'.dims lat1 lon1).map f) := fun f hpt =>
      ⟨inB_map.mpr fun d hd => hpt d (List.mem_filter.mp hd).1, inB_map.mpr fun d hd => by
        have hm := hsu.perm.mem_iff.mp (List.mem_filter.mp hd).1
        rw [hsu.size d hm]; exact hpt d hm⟩
    have one : ∀ (x x' : NDArr ℝ), (∀ f, Spec.Point u f → Spec.cut w.inst.nlat w.inst.nlon x ((Spec.rest u.dims lat1 lon1).map f) =
        Spec.cut w.inst.nlat w.inst.nlon x' ((Spec.rest u'.dims lat1 lon1).map f)) → ∀ f, Spec.Point u f →
        x'.get (f lat1 :: f lon1 :: (Spec.rest u'.dims lat1 lon1).map f) = x.get (f lat1 :: f lon1 :: (Spec.rest u.dims lat1 lon1).map f) := by
      intro x x' hx f hpt
      have := congrFun (congrFun (hx f hpt) (f lat1)) (f lon1)
      unfold Spec.cut at this
      rw [if_pos (pt f hpt), if_pos (pt f hpt)] at this
      exact this.symm
    cases hqs : q.std with
    | none =>
      left
      cases q with
      | u =>
        injection ha with ha; injection ha' with ha'
        exact ⟨_, _, ha.symm, ha'.symm, .cons (one _ _ cutu) .nil⟩
      | v =>
        injection ha with ha; injection ha' with ha'
        exact ⟨_, _, ha.symm, ha'.symm, .cons (one _ _ cutv) .nil⟩
      | gradient chi t => cases ha
      | truncate x t => cases ha
      | _ => cases hqs
    | some sq =>
      have hfit : ∀ ex, Spec.Fits w.inst ex sq := by
        intro ex
        cases q <;> simp only [XQuery.std, Option.some.injEq, reduceCtorEq] at hqs <;> subst hqs <;> trivial
      have hfield : ∀ x, sq.field x = x := by
        intro x
        cases q <;> simp only [XQuery.std, Option.some.injEq, reduceCtorEq] at hqs <;> subst hqs <;> rfl
      rw [plain_std hqs] at ha ha'
      injection ha with ha
      injection ha' with ha'
      by_cases hr : Spec.Runs w.inst (Spec.extra u lat1 lon1).prod sq
      · left
        obtain ⟨T, hT⟩ := runs_trunc hG.lat hr
        obtain ⟨rs, e1, m1⟩ := answer_made hG su sv (hfit _) hr hT
        obtain ⟨rs', e2, m2⟩ := answer_made hG' su' sv' (hfit _) (by rw [hprod]; exact hr) hT
        refine ⟨rs, rs', ha ▸ e1, ha' ▸ e2, ?_⟩
        rw [hfield] at m1 m2
        unfold Made at m1 m2
        clear e1 e2
        generalize sliceFuns w.inst T sq = Fs at m1 m2
        induction m1 generalizing rs' with
        | nil => cases m2; exact .nil
        | cons x1 _ ih =>
          cases m2 with
          | cons x2 t2 =>
            refine .cons (fun f hpt => ?_) (ih _ t2)
            rw [x1.2 _ (ptr f hpt).1 _ _ (pt f hpt).1 (pt f hpt).2, x2.2 _ (ptr f hpt).2 _ _ (pt f hpt).1 (pt f hpt).2]
            beta_reduce
            rw [cutu f hpt, cutv f hpt]
      · right
        obtain ⟨e1, h1⟩ := answer_refused hG su sv (hfit _) hr
        obtain ⟨e2, h2⟩ := answer_refused hG' su' sv' (hfit _) (by rw [hprod]; exact hr)
        exact ⟨e1, e2, ha ▸ h1, ha' ▸ h2⟩
  rcases key with ⟨rs, rs', rfl, rfl, hF⟩ | ⟨e, e', rfl, rfl⟩
  · obtain ⟨outs, r1, r2, -⟩ := hR
    obtain ⟨outs', r1', r2', -⟩ := hR'
    rw [r1, r1']
    refine ⟨⟨fun _ => ⟨_, rfl⟩, fun _ => ⟨_, rfl⟩⟩, ?_⟩
    rintro o o' ⟨⟩ ⟨⟩
    clear r1 r1' ha ha'
    induction hF generalizing outs outs' with
    | nil => cases r2; cases r2'; exact .nil
    | cons x _ ih =>
      cases r2 with
      | cons y t =>
        cases r2' with
        | cons y' t' => exact .cons (agree ec hp hp' hsu hstr hf.rows hcc y y' x) (ih _ t _ t')
  · have r1 : (ask w q (Obj.fresh w.u w.v)).1 = .error (.failed e) := hR
    have r1' : (ask w' q (Obj.fresh w'.u w'.v)).1 = .error (.failed e') := hR'
    rw [r1, r1']
    refine ⟨⟨?_, ?_⟩, ?_⟩
    · rintro ⟨o, ho⟩; cases ho
    · rintro ⟨o, ho⟩; cases ho
    · intro o o' ho; cases ho

/-- Turning a variable over along an axis and then transposing it gives a well-formed variable with the same data. -/
theorem turned_same {u : WArr ℝ Cell} (hu : Spec.Proper u) {n : String} {names : List String} (hpm : names.Perm u.dims) (hn : n ∈ u.dims)
    (ex : ∃ c ∈ u.coords, c.name = n) : Spec.Proper (transposeTo (reverse u n) names) ∧ Spec.SameData u (transposeTo (reverse u n) names) n true := by
  have hr := reverse_proper hu n
  have hL0 := lay_transposeTo hr.dims (lay hr) hpm
  have hu' : Spec.Proper (transposeTo (reverse u n) names) := by
    refine ⟨hpm.nodup_iff.mpr hu.dims, by rw [hL0.1]; simp [transposeTo], ?_, hr.names⟩
    intro c hc
    obtain ⟨q1, q2⟩ := hr.coords c hc
    have hm : c.name ∈ (transposeTo (reverse u n) names).dims := hpm.mem_iff.mpr q1
    refine ⟨hm, q2.trans ?_⟩
    have := size_of_lay (a := transposeTo (reverse u n) names) hL0 hm
    exact this.symm
  have hsz : ∀ d ∈ u.dims, Spec.size (transposeTo (reverse u n) names) d = Spec.size u d := by
    intro d hd
    exact size_of_lay (a := transposeTo (reverse u n) names) hL0 (hpm.mem_iff.mpr hd)
  refine ⟨hu', hpm, hsz, ?_, ?_⟩
  · intro d hd c c' h1 h2
    rw [carries_iff hu.names] at h1
    rw [carries_iff hu'.names] at h2
    rw [h1, h2, coordOf_transpose hr hpm hd, coordOf_reverse hu]
    by_cases e : d = n
    · rw [if_pos ⟨e, ex⟩, if_pos ⟨e, rfl⟩]; exact ⟨rfl, rfl, rfl⟩
    · rw [if_neg (fun h => e h.1), if_neg (fun h => e h.1)]; exact ⟨rfl, rfl, rfl⟩
  · intro f hpt
    have hL := lay_transposeTo (a := reverse u n) hu.dims (lay_reverse hu.dims (lay hu) hn) hpm
    have := hL.2 (Spec.mirror u n true f) (fun d hd => mirror_point hpt d (hpm.mem_iff.mp hd))
    refine this.trans ?_
    have hlt := hpt n hn
    beta_reduce
    congr 1
    funext d
    unfold Spec.mirror
    by_cases e : d = n
    · subst e; rw [if_pos rfl, if_pos ⟨rfl, rfl⟩]; omega
    · rw [if_neg e, if_neg (fun h => e h.1)]

/-- Two variables with the same data hold numbers together. -/
theorem same_numbers {u u' : WArr ℝ Cell} {n : String} {fl : Bool} (hsame : Spec.SameData u u' n fl) (hu : Spec.AllNumbers u) : Spec.AllNumbers u' := by
  intro f hpt
  have hpu : Spec.Point u f := fun d hd => by rw [← hsame.size d hd]; exact hpt d (hsame.perm.mem_iff.mpr hd)
  have := hsame.value _ (mirror_point (lat := n) (flip := fl) hpu)
  have hmm : Spec.at u' (Spec.mirror u n fl (Spec.mirror u n fl f)) = Spec.at u' f := by
    unfold Spec.at
    congr 1
    apply List.map_congr_left
    intro d hd
    have := hpu d (hsame.perm.mem_iff.mp hd)
    unfold Spec.mirror
    by_cases e : d = n ∧ fl = true
    · obtain ⟨rfl, rfl⟩ := e
      rw [if_pos ⟨rfl, rfl⟩, if_pos ⟨rfl, rfl⟩]; omega
    · rw [if_neg e, if_neg e]
  rw [hmm] at this
  obtain ⟨r, hr⟩ := hu _ (mirror_point (lat := n) (flip := fl) hpu)
  exact ⟨r, this.trans hr⟩

/-- The hypotheses of C239 can be met: a wind on latitudes south to north, and the same wind transposed with its latitudes turned over. -/
example : ∃ (lib : Grid → Leg → ℕ → ℕ → ℚ → Inst) (u u' : WArr ℝ Cell) (w w' : WObj ℝ) (c c' : Coord ℝ), Spec.Lib lib ∧ Spec.Proper u ∧ Spec.Proper u' ∧
    construct lib (fun _ => none) u u 1 "stored" (some "regular") = .ok w ∧ construct lib (fun _ => none) u' u' 1 "stored" (some "regular") = .ok w' ∧
    Spec.Frame u "lat" "lon" c ∧ Spec.Strict c.vals ∧ c ∈ u.coords ∧ c' ∈ u'.coords ∧ c'.name = "lat" ∧ Spec.SameData u u' "lat" true ∧
    Good w.inst (Spec.extra u "lat" "lon" ++ [2]) ∧ u.dims = ["lon", "lat"] ∧ u'.dims = ["lat", "lon"] ∧ Spec.at u (fun _ => 0) = .num (-1) ∧
    Spec.at u' (fun _ => 0) = .num 1 := by
  obtain ⟨I, i1, i2, i3, i4, i5, i6, hE⟩ := inst3
  obtain ⟨w, hw, hwi⟩ := made_construct i1 i2 i3 i4 i5 (fun _ => none) (fun φ _ => Real.sin φ) (fun φ _ => Real.sin φ)
  set u := made lats0 lons0 fun φ _ => Real.sin φ with hu0
  have hu : Spec.Proper u := made_proper rfl rfl _
  have hf : Spec.Frame u "lat" "lon" ⟨"lat", lats0, none, none⟩ := made_frame rfl rfl _
  set u' := transposeTo (reverse u "lat") ["lat", "lon"] with hu0'
  have hpm : (["lat", "lon"] : List String).Perm u.dims := List.Perm.swap _ _ _
  have hmem : "lat" ∈ u.dims := by simp [hu0, made]
  have hmem' : "lon" ∈ u.dims := by simp [hu0, made]
  have ex : ∃ c ∈ u.coords, c.name = "lat" := ⟨⟨"lat", lats0, none, none⟩, by simp [hu0, made], rfl⟩
  obtain ⟨hu', hsame⟩ := turned_same hu hpm hmem ex
  rw [← hu0'] at hu' hsame
  have hsz := hsame.size
  have hf' := same_frame hu' hf hsame
  have hnum : Spec.AllNumbers u' := same_numbers hsame (made_numbers _)
  have z1 : Spec.size u' "lat" = 3 := by rw [hsz _ hmem]; exact (made_size _).1
  have z2 : Spec.size u' "lon" = 4 := by rw [hsz _ hmem']; exact (made_size _).2
  obtain ⟨w', hw'⟩ := (C241_accept_partial (libOf I) (fun _ => none) hu' hu' 1 "stored" (some "regular") (by
      intro lat lon c h
      obtain ⟨rfl, rfl, rfl⟩ := frame_only hu' hf' h
      rw [z1, z2]; norm_num)).1.mpr
    ⟨rfl, fun _ _ => rfl, fun d hd c c' h1 h2 => by rw [carries_unique hu'.names h1 h2], hnum, hnum, by norm_num, Or.inl rfl, "lat", "lon", _, .regular, hf',
      by rw [z1], by rw [z2], Or.inl ⟨lower_regular, rfl⟩, by rintro ⟨h, -⟩; cases h⟩
  refine ⟨libOf I, u, u', w, w', _, ⟨"lat", lats0.reverse, none, none⟩, libOf_lib I, hu, hu', hw, hw', hf, Or.inl ?_, by simp [hu0, made], ?_, rfl, hsame, ?_, rfl, rfl, ?_, ?_⟩
  · norm_num [lats0]
  · simp [hu0', hu0, made, transposeTo, reverse]
  · rw [hwi, hu0, made_extra]; exact good3 i1 i2 i3
  · have : Spec.at u (fun _ => 0) = .num (Real.sin (Spec.rad (-90))) := rfl
    rw [this, rad_n90, Real.sin_neg, Real.sin_pi_div_two]
  · have h0 := hsame.value (fun d => if d = "lat" then 2 else 0) (by
      intro d hd
      have hd' : d = "lon" ∨ d = "lat" := by simpa [hu0, made] using hd
      beta_reduce
      rcases hd' with rfl | rfl
      · rw [if_neg (by decide), (made_size _).2]; norm_num
      · rw [if_pos rfl, (made_size _).1]; norm_num)
    have hs3 : Spec.size u "lat" = 3 := (made_size _).1
    have : Spec.mirror u "lat" true (fun d => if d = "lat" then 2 else 0) = fun _ => 0 := by
      funext d
      unfold Spec.mirror
      by_cases e : d = "lat"
      · rw [if_pos ⟨e, rfl⟩]; beta_reduce; rw [if_pos e, hs3]
      · rw [if_neg (fun h => e h.1)]; beta_reduce; rw [if_neg e]
    rw [this] at h0
    rw [h0]
    have : Spec.at u (fun d => if d = "lat" then 2 else 0) = .num (Real.sin (Spec.rad 90)) := rfl
    rw [this, rad_90, Real.sin_pi_div_two]

end Skyborn.WindXr
