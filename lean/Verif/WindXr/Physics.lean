/-
C240: what the answers on labelled arrays mean.
-/
import Verif.WindXr.Fields

namespace Skyborn.WindXr

open Skyborn Windspharm Sphere

/-- Degrees to radians. -/
noncomputable def Spec.rad (x : ℝ) : ℝ := x * (Real.pi / 180)

/-- The array holds, at every point, the value of the field `F` at the latitude and longitude (degrees) its labels give; `F` may depend on the
position along the other dimensions. `val` reads a cell. -/
def Spec.SampledAt {α : Type} (val : α → Option ℝ) (a : WArr ℝ α) (lat lon : String) (F : List ℕ → ℝ → ℝ → ℝ) : Prop :=
  ∀ c c', Spec.Carries a lat c → Spec.Carries a lon c' → ∀ f, Spec.Point a f →
    val (Spec.at a f) = some (F ((Spec.rest a.dims lat lon).map f) (Spec.rad (c.vals.getD (f lat) 0)) (Spec.rad (c'.vals.getD (f lon) 0)))

/-- Read a cell of the input. -/
def Spec.cell : Cell → Option ℝ
  | .num r => some r
  | _ => none

/-- The labels are those of the grid: the latitudes, turned north to south, are the rows of the transform, and the longitudes
go eastwards from 0 in equal steps. -/
def Spec.OnGrid {α : Type} (I : Inst) (a : WArr ℝ α) (lat lon : String) : Prop :=
  ∀ c c', Spec.Carries a lat c → Spec.Carries a lon c' →
    (∀ k < Spec.size a lat, Spec.rad (c.vals.getD k 0) = I.lat (Spec.turn c.vals k)) ∧
    (∀ j < Spec.size a lon, c'.vals.getD j 0 = 360 * j / Spec.size a lon)

theorem frame_unique {a : WArr ℝ Cell} (h : Spec.Proper a) {lat lon lat' lon' : String} {c c' : Coord ℝ} (h1 : Spec.Frame a lat lon c)
    (h2 : Spec.Frame a lat' lon' c') : lat' = lat ∧ lon' = lon ∧ c' = c := by
  obtain ⟨p1, rfl, ⟨d, p2, rfl⟩, -⟩ := frame_parts h h1
  obtain ⟨q1, rfl, ⟨d', q2, rfl⟩, -⟩ := frame_parts h h2
  rw [p1] at q1
  rw [p2] at q2
  injection q1 with q1
  injection q2 with q2
  rw [q1, q2]
  exact ⟨rfl, rfl, rfl⟩

/-- Any position in the order latitude, longitude, others is a point. -/
theorem point_of {α : Type} {a : WArr ℝ α} (h : Spec.Proper a) {lat lon : String} (h1 : lat ∈ a.dims) (h2 : lon ∈ a.dims) (hne : lat ≠ lon)
    {i j : ℕ} {e : List ℕ} (hi : i < Spec.size a lat) (hj : j < Spec.size a lon) (he : InB (Spec.extra a lat lon) e) :
    ∃ f, Spec.Point a f ∧ f lat = i ∧ f lon = j ∧ (Spec.rest a.dims lat lon).map f = e := by
  have hp := (apiNames_ok h.dims h1 h2 hne).2
  have hnd := hp.nodup_iff.mpr h.dims
  have hel : e.length = (Spec.rest a.dims lat lon).length := by have := (inB_iff.mp he).1; simpa [Spec.extra] using this
  have ex := exists_assign hnd (idx := i :: j :: e) (by simp [hel])
  set f : String → ℕ := fun d => (i :: j :: e).getD ((lat :: lon :: Spec.rest a.dims lat lon).idxOf d) 0 with hf
  simp only [List.map_cons, List.cons.injEq] at ex
  obtain ⟨e1, e2, e3⟩ := ex
  refine ⟨f, ?_, e1, e2, e3⟩
  have hb : InB ((Spec.rest a.dims lat lon).map (Spec.size a)) ((Spec.rest a.dims lat lon).map f) := by rw [e3]; exact he
  intro d hd
  rcases List.mem_cons.mp (hp.mem_iff.mpr hd) with rfl | hd
  · rw [e1]; exact hi
  · rcases List.mem_cons.mp hd with rfl | hd
    · rw [e2]; exact hj
    · exact inB_map.mp hb d hd

theorem rest_inB {α : Type} {a : WArr ℝ α} {lat lon : String} {f : String → ℕ} (hp : Spec.Point a f) :
    InB (Spec.extra a lat lon) ((Spec.rest a.dims lat lon).map f) :=
  inB_map.mpr fun d hd => hp d (List.mem_filter.mp hd).1

/-- A labelled sample, arranged, samples the grid of the transform. -/
theorem samples_in {I : Inst} {a : WArr ℝ Cell} (h : Spec.Proper a) {lat lon : String} {c : Coord ℝ} (hf : Spec.Frame a lat lon c)
    (hg : Spec.OnGrid I a lat lon) (hn : I.nlat = Spec.size a lat) (hm : I.nlon = Spec.size a lon) {F : List ℕ → ℝ → ℝ → ℝ}
    (hF : Spec.SampledAt Spec.cell a lat lon F) {x : NDArr ℝ} (hx : Spec.Arranges a lat lon c.vals x) : Spec.Samples I (Spec.extra a lat lon) x F := by
  have hp := placed h hf
  obtain ⟨c', hc'⟩ := hf.isLon
  obtain ⟨g1, g2⟩ := hg c c' hf.isLat.2.1 hc'.2.1
  refine ⟨by rw [hx.shape, hn, hm]; rfl, fun e he i j hi hj => ?_⟩
  rw [hn] at hi
  rw [hm] at hj
  obtain ⟨f, k1, k2, k3, k4⟩ := point_of h hp.memLat hp.memLon hp.ne (turn_lt hp.len hi) hj he
  have e1 := hx.value f k1
  have e2 := hF c c' hf.isLat.2.1 hc'.2.1 f k1
  rw [e1, k4, k2, k3, turn_turn hp.len hi] at e2
  simp only [Spec.cell, Option.some.injEq] at e2
  rw [e2, g1 _ (turn_lt hp.len hi), turn_turn hp.len hi]
  congr 1
  rw [g2 j hj, Spec.rad, Inst.lon, hm]
  ring

/-- A sample of the grid of the transform, labelled. -/
theorem samples_out {I : Inst} {a : WArr ℝ Cell} (h : Spec.Proper a) {lat lon : String} {c : Coord ℝ} (hf : Spec.Frame a lat lon c)
    (hg : Spec.OnGrid I a lat lon) (hn : I.nlat = Spec.size a lat) (hm : I.nlon = Spec.size a lon) {F : List ℕ → ℝ → ℝ → ℝ} {r : NDArr ℝ}
    (hr : Spec.Samples I (Spec.extra a lat lon) r F) {out : WArr ℝ ℝ} (hl : Spec.Labels a lat lon c.vals out r) :
    Spec.SampledAt some out lat lon F := by
  have hp := placed h hf
  obtain ⟨c', hc'⟩ := hf.isLon
  obtain ⟨g1, g2⟩ := hg c c' hf.isLat.2.1 hc'.2.1
  intro d d' hd hd' f hpt
  have hpa : Spec.Point a f := fun n hn => by rw [← hl.size n hn]; exact hpt n (by rw [hl.dims]; exact hn)
  have b1 := hpa lat hp.memLat
  have b2 := hpa lon hp.memLon
  obtain ⟨q, q1, -, -, q4⟩ := hl.coord lat hp.memLat c hf.isLat.2.1
  obtain ⟨q', q1', -, -, q4'⟩ := hl.coord lon hp.memLon c' hc'.2.1
  have ed := carries_unique hl.proper.names hd q1
  have ed' := carries_unique hl.proper.names hd' q1'
  subst ed ed'
  have v := hl.value _ (move_point hp hpa)
  have back : (out.dims.map fun d => Spec.move lat c.vals d (Spec.move lat c.vals d (f d))) = out.dims.map f :=
    List.map_congr_left fun n hn => move_move hp hpa (hl.dims ▸ hn)
  have lhs : Spec.at out (fun d => Spec.move lat c.vals d (Spec.move lat c.vals d (f d))) = Spec.at out f := by
    unfold Spec.at; rw [back]
  rw [lhs] at v
  have m1 : Spec.move lat c.vals lat (f lat) = Spec.turn c.vals (f lat) := if_pos rfl
  have m2 : Spec.move lat c.vals lon (f lon) = f lon := if_neg (Ne.symm hp.ne)
  have m3 : ((Spec.rest a.dims lat lon).map fun d => Spec.move lat c.vals d (f d)) = (Spec.rest a.dims lat lon).map f :=
    rest_congr fun d hd => if_neg hd
  rw [m1, m2, m3, turn_turn hp.len b1, hr.2 _ (rest_inB hpa) _ _ (hn ▸ b1) (hm ▸ b2)] at v
  rw [v, hl.dims]
  beta_reduce
  congr 2
  · have := q4 _ (turn_lt hp.len b1)
    rw [show Spec.move lat c.vals lat (Spec.turn c.vals (f lat)) = f lat by rw [← m1]; exact move_move hp hpa hp.memLat] at this
    have e : d.vals.getD (f lat) 0 = c.vals.getD (Spec.turn c.vals (f lat)) 0 := by
      rw [List.getD_eq_getElem?_getD, List.getD_eq_getElem?_getD, this]
    rw [e, g1 _ (turn_lt hp.len b1), turn_turn hp.len b1]
  · have := q4' _ b2
    rw [m2] at this
    have e : d'.vals.getD (f lon) 0 = c'.vals.getD (f lon) 0 := by
      rw [List.getD_eq_getElem?_getD, List.getD_eq_getElem?_getD, this]
    rw [e, g2 _ b2, Spec.rad, Inst.lon, hm]
    ring

/-- C240: for winds that sample, at their labels, a band-limited wind, whatever was asked before, `vrtdiv` gives its vorticity and divergence
at the labels of each result, and `helmholtz` its irrotational and non-divergent parts, which add up to it. (When the labels are those of the grid of the
transform, whose analyses are exact.) -/
theorem C240_exact_partial {lib : Grid → Leg → ℕ → ℕ → ℚ → Inst} (hlib : Spec.Lib lib) {gauss : ℕ → Option (ℕ → ℝ)} {u v : WArr ℝ Cell}
    (hu : Spec.Proper u) (hv : Spec.Proper v) {rsphere : ℚ} {legfunc : String} {gridtype : Option String} {w : WObj ℝ}
    (h : construct lib gauss u v rsphere legfunc gridtype = .ok w) {lat lon : String} {c : Coord ℝ} (hf : Spec.Frame u lat lon c)
    (hc : c ∈ u.coords) (hg : Spec.OnGrid w.inst u lat lon) {K : ℕ} (hE : Spec.Exact w.inst K) (hG : Good w.inst (Spec.extra u lat lon ++ [2]))
    {U V : List ℕ → ℝ → ℝ → ℝ} (hU : Spec.SampledAt Spec.cell u lat lon U) (hV : Spec.SampledAt Spec.cell v lat lon V)
    {T T' : ℕ} {t : Option ℤ} (hW : ∀ e, Spec.BandWind rsphere T (U e) (V e)) (h1 : T + 2 ≤ Spec.size u lat) (h2 : 2 * T < Spec.size u lon)
    (ht : Spec.Truncation (Spec.size u lat) t T') (hTT : T ≤ T') :
    ∃ Z D Uc Vc Up Vp : List ℕ → ℝ → ℝ → ℝ,
      (∀ e, InB (Spec.extra u lat lon) e → ∀ φ l, U e φ l = Uc e φ l + Up e φ l ∧ V e φ l = Vc e φ l + Vp e φ l ∧
        (Real.cos φ ≠ 0 →
          Spec.HasVorticity rsphere (U e) (V e) φ l (Z e φ l) ∧ Spec.HasDivergence rsphere (U e) (V e) φ l (D e φ l) ∧
          Spec.HasVorticity rsphere (Uc e) (Vc e) φ l 0 ∧ Spec.HasDivergence rsphere (Up e) (Vp e) φ l 0)) ∧
      ∀ (qs : List (XQuery ℝ)) (k : ℕ),
        (qs[k]? = some (.vrtdiv t) → ∃ z d, (run w qs)[k]? = some (.ok [z, d]) ∧ Spec.SampledAt some z lat lon Z ∧ Spec.SampledAt some d lat lon D) ∧
        (qs[k]? = some (.helmholtz t) → ∃ uc vc up vp, (run w qs)[k]? = some (.ok [uc, vc, up, vp]) ∧ Spec.SampledAt some uc lat lon Uc ∧
          Spec.SampledAt some vc lat lon Vc ∧ Spec.SampledAt some up lat lon Up ∧ Spec.SampledAt some vp lat lon Vp) := by
  obtain ⟨lat0, lon0, c0, hf0, hd, hcoord, n1, n2, n3, hau, hav, hall⟩ := C238_labels_partial hlib hu hv h
  obtain ⟨rfl, rfl, rfl⟩ := frame_unique hu hf hf0
  have hp := placed hu hf
  obtain ⟨c', hc'⟩ := hf.isLon
  have hsz : ∀ d ∈ u.dims, Spec.size v d = Spec.size u d := by
    obtain ⟨_, _, _, hh, -⟩ := holds hu hv h
    exact hh.sizes
  -- the second wind has the same frame of labels
  have hsv : Spec.Samples w.inst (Spec.extra u lat0 lon0) w.v V := by
    obtain ⟨g1, g2⟩ := hg c0 c' hf.isLat.2.1 hc'.2.1
    have hrest : (Spec.rest v.dims lat0 lon0).map (Spec.size v) = Spec.extra u lat0 lon0 := by
      unfold Spec.extra; rw [← hd]; exact List.map_congr_left fun d hd => hsz d (List.mem_filter.mp hd).1
    refine ⟨by rw [hav.shape, n1, n2, hsz _ hp.memLat, hsz _ hp.memLon, hrest], fun e he i j hi hj => ?_⟩
    rw [n1] at hi
    rw [n2] at hj
    obtain ⟨f, k1, k2, k3, k4⟩ := point_of hu hp.memLat hp.memLon hp.ne (turn_lt hp.len hi) hj he
    have kv : Spec.Point v f := fun d hdv => by rw [hsz d (hd ▸ hdv)]; exact k1 d (hd ▸ hdv)
    have x1 := carries_coordOf v lat0
    have x2 := carries_coordOf v lon0
    have e1 := hav.value f kv
    have e2 := hV _ _ x1 x2 f kv
    rw [hcoord _ hp.memLat _ _ hf.isLat.2.1 x1, hcoord _ hp.memLon _ _ hc'.2.1 x2] at e2
    rw [e1, ← hd, k4, k2, k3, turn_turn hp.len hi] at e2
    simp only [Spec.cell, Option.some.injEq] at e2
    rw [e2, g1 _ (turn_lt hp.len hi), turn_turn hp.len hi]
    congr 1
    rw [g2 j hj, Spec.rad, Inst.lon, n2]
    ring
  have hsu := samples_in hu hf hg n1 n2 hU hau
  obtain ⟨Z, D, Uc, Vc, Up, Vp, z, d, uc, vc, up, vp, -, -, -, -, ⟨e1, s1, s2⟩, ⟨e2, s3, s4, s5, s6⟩, -, hphys⟩ :=
    C154_exact_partial hG hE hsu hsv (by rw [n3]; exact hW) (by rw [n1]; exact h1) (by rw [n2]; exact h2) (by rw [n1]; exact ht) hTT
  refine ⟨Z, D, Uc, Vc, Up, Vp, by rw [n3] at hphys; exact hphys, fun qs k => ?_⟩
  have hF := hall hc hG qs
  have at_k : ∀ {q : XQuery ℝ}, qs[k]? = some q → ∃ res, (run w qs)[k]? = some res ∧
      ∀ ans, Spec.plain w.inst w.u w.v q = some ans → Spec.Reply u lat0 lon0 c0.vals q ans res := by
    intro q hq
    obtain ⟨hlen, hget⟩ := List.forall₂_iff_get.mp hF
    obtain ⟨hk, hk'⟩ := List.getElem?_eq_some_iff.mp hq
    refine ⟨(run w qs)[k], by rw [List.getElem?_eq_getElem (hlen ▸ hk)], ?_⟩
    have := hget k hk (hlen ▸ hk)
    simp only [List.get_eq_getElem, hk'] at this
    exact this
  constructor
  · intro hq
    obtain ⟨res, hres, hR⟩ := at_k hq
    have := hR _ rfl
    simp only [Spec.answer, e1] at this
    obtain ⟨outs, rfl, hL, -⟩ := this
    obtain ⟨o1, l1, L1, rest1, rfl⟩ := List.forall₂_cons_left_iff.mp hL
    obtain ⟨o2, l2, L2, rest2, rfl⟩ := List.forall₂_cons_left_iff.mp rest1
    have := List.forall₂_nil_left_iff.mp rest2
    subst this
    exact ⟨o1, o2, hres, samples_out hu hf hg n1 n2 s1 L1, samples_out hu hf hg n1 n2 s2 L2⟩
  · intro hq
    obtain ⟨res, hres, hR⟩ := at_k hq
    have := hR _ rfl
    simp only [Spec.answer, e2] at this
    obtain ⟨outs, rfl, hL, -⟩ := this
    obtain ⟨o1, l1, L1, rest1, rfl⟩ := List.forall₂_cons_left_iff.mp hL
    obtain ⟨o2, l2, L2, rest2, rfl⟩ := List.forall₂_cons_left_iff.mp rest1
    obtain ⟨o3, l3, L3, rest3, rfl⟩ := List.forall₂_cons_left_iff.mp rest2
    obtain ⟨o4, l4, L4, rest4, rfl⟩ := List.forall₂_cons_left_iff.mp rest3
    have := List.forall₂_nil_left_iff.mp rest4
    subst this
    exact ⟨o1, o2, o3, o4, hres, samples_out hu hf hg n1 n2 s3 L1, samples_out hu hf hg n1 n2 s4 L2, samples_out hu hf hg n1 n2 s5 L3,
      samples_out hu hf hg n1 n2 s6 L4⟩

end Skyborn.WindXr
