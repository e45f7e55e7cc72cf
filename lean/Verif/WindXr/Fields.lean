/-
C242: `gradient` and `truncate` of a labelled scalar field.
-/
import Verif.WindXr.Accept

namespace Skyborn.WindXr

open Skyborn Windspharm Sphere

variable {K α : Type} [Field K] [LinearOrder K]

/-- A sequence of calls on an object with valid caches answers each call as a new object does. -/
theorem session_map {w : WObj K} {extra : List ℕ} (su : w.u.shape = w.inst.nlat :: w.inst.nlon :: extra)
    (sv : w.v.shape = w.inst.nlat :: w.inst.nlon :: extra) : ∀ (qs : List (XQuery K)) {o : Obj}, Valid w.inst w.u w.v o →
    session w o qs = qs.map fun q => (ask w q (Obj.fresh w.u w.v)).1
  | [], _, _ => rfl
  | q :: qs, o, ho => by
    obtain ⟨e, h'⟩ := ask_valid su sv q ho
    rw [session, session_map su sv qs h', e]
    rfl

/-- The results `rs` of `standard.VectorWind` on the arranged field, labelled like the field itself: names `ns`, attributes `as`. -/
def Spec.FieldReply (a : WArr K Cell) (lat lon : String) (lats : List K) (ns : List (Option String)) (as : List (List (String × String)))
    (ans : Except Fail (List (NDArr ℝ))) (res : Except XErr (List (WArr K ℝ))) : Prop :=
  match ans with
  | .error e => res = .error (.failed e)
  | .ok rs => ∃ outs, res = .ok outs ∧ List.Forall₂ (fun r out => Spec.Labels a lat lon lats out r) rs outs ∧
      outs.map (fun o => o.name) = ns ∧ outs.map (fun o => o.attrs) = as

theorem numbers_arranges [IsStrictOrderedRing K] {a : WArr K Cell} (h : Spec.Proper a) {lat lon : String} {c : Coord K} (hf : Spec.Frame a lat lon c)
    (hn : Spec.AllNumbers a) :
    Spec.Arranges a lat lon c.vals (numbers (transposeTo (turned a lat (asc c)) (order a lat lon)).data) ∧
    ¬ hasNan (transposeTo (turned a lat (asc c)) (order a lat lon)).data ∧ ¬ hasInf (transposeTo (turned a lat (asc c)) (order a lat lon)).data := by
  have hp := placed h hf
  have hv : ∀ idx, InB (transposeTo (turned a lat (asc c)) (order a lat lon)).data.shape idx →
      ∃ r, (transposeTo (turned a lat (asc c)) (order a lat lon)).data.get idx = .num r :=
    (arranged_values h hp (asc := asc c) rfl fun x => ∃ r, x = .num r).mpr hn
  refine ⟨arranges h hp (asc := asc c) rfl rfl fun idx hi => ?_, ?_, ?_⟩
  · obtain ⟨r, e⟩ := hv idx hi
    have : (numbers (transposeTo (turned a lat (asc c)) (order a lat lon)).data).get idx = r := by
      show ((transposeTo (turned a lat (asc c)) (order a lat lon)).data.get idx).val = r
      rw [e]; rfl
    rw [this]; exact e
  · rintro ⟨idx, hi, e⟩
    obtain ⟨r, e'⟩ := hv idx hi
    rw [e] at e'; cases e'
  · rintro ⟨idx, hi, b, e⟩
    obtain ⟨r, e'⟩ := hv idx hi
    rw [e] at e'; cases e'

/-- C242: on an object made from labelled winds, whatever was asked before, `gradient` and `truncate` of a labelled field arrange it latitude (north to
south), longitude, others, reply what `standard.VectorWind` replies for it, and label each result like the field: its dimensions, sizes and
coordinates, latitudes turned north to south, each value at its own labels; `truncate` keeps name and attributes. A field with a NaN is refused.
(For fields with rows and columns as many as the wind, whose latitude dimension has a coordinate.) -/
theorem C242_fields_partial [IsStrictOrderedRing K] {lib : Grid → Leg → ℕ → ℕ → ℚ → Inst} (hlib : Spec.Lib lib) {gauss : ℕ → Option (ℕ → K)}
    {u v : WArr K Cell} (hu : Spec.Proper u) (hv : Spec.Proper v) {rsphere : ℚ} {legfunc : String} {gridtype : Option String} {w : WObj K}
    (h : construct lib gauss u v rsphere legfunc gridtype = .ok w) {x : WArr K Cell} (hx : Spec.Proper x) {lat lon : String} {c : Coord K}
    (hf : Spec.Frame x lat lon c) (hc : c ∈ x.coords) (t : Option ℤ) :
    ((∃ f, Spec.Point x f ∧ Spec.at x f = .nan) → ∀ (qs : List (XQuery K)) (k : ℕ), (qs[k]? = some (.gradient x t) ∨ qs[k]? = some (.truncate x t)) →
      (run w qs)[k]? = some (.error .valueError)) ∧
    (Spec.AllNumbers x → Spec.size x lat = w.inst.nlat → Spec.size x lon = w.inst.nlon → Good w.inst (Spec.extra x lat lon ++ [2]) →
      ∃ y, Spec.Arranges x lat lon c.vals y ∧ ∀ (qs : List (XQuery K)) (k : ℕ),
        (qs[k]? = some (.gradient x t) → ∃ res, (run w qs)[k]? = some res ∧
          Spec.FieldReply x lat lon c.vals [some ("zonal_gradient_of_" ++ (x.name.filter (· ≠ "")).getD "field"),
              some ("meridional_gradient_of_" ++ (x.name.filter (· ≠ "")).getD "field")]
            [[("long_name", "zonal_gradient_of_" ++ (x.name.filter (· ≠ "")).getD "field")],
              [("long_name", "meridional_gradient_of_" ++ (x.name.filter (· ≠ "")).getD "field")]]
            (Spec.answer w.inst w.u w.v (.gradient y t)) res) ∧
        (qs[k]? = some (.truncate x t) → ∃ res, (run w qs)[k]? = some res ∧
          Spec.FieldReply x lat lon c.vals [x.name] [x.attrs] (Spec.answer w.inst w.u w.v (.truncate y t)) res)) := by
  obtain ⟨la, lo, c0, hh, g, s, l, -, -, -, -, hi⟩ := holds hu hv h
  obtain ⟨i1, i2, i3, -, -⟩ := hlib g l (Spec.size u la) (Spec.size u lo) rsphere
  rw [← hi] at i1 i2 i3
  have sv : w.v.shape = w.inst.nlat :: w.inst.nlon :: Spec.extra u la lo := by
    rw [i1, i2, hh.hv.shape, ← hh.match'.1, hh.sizes la hh.frame.isLat.1, hh.sizes lo hh.frame.isLon.choose_spec.1]
    congr 2
    exact List.map_congr_left fun d hd => hh.sizes d (List.mem_filter.mp hd).1
  have su : w.u.shape = w.inst.nlat :: w.inst.nlon :: Spec.extra u la lo := by rw [i1, i2]; exact hh.hu.shape
  have hrun : ∀ qs, run w qs = qs.map fun q => (ask w q (Obj.fresh w.u w.v)).1 := fun qs => session_map su sv qs (valid_fresh _ _ _)
  have hp := placed hx hf
  have hprep := prepare_ok hx hf
  have hV := valid_fresh w.inst w.u w.v
  have at_k : ∀ {qs : List (XQuery K)} {k : ℕ} {q : XQuery K}, qs[k]? = some q → (run w qs)[k]? = some (ask w q (Obj.fresh w.u w.v)).1 := by
    intro qs k q hq
    rw [hrun, List.getElem?_map, hq]; rfl
  set cT := transposeTo (turned x lat (asc c)) (order x lat lon) with hcT
  constructor
  · rintro ⟨f, hpt, hnan⟩ qs k hk
    have hN : hasNan cT.data := by
      by_contra hno
      have := (arranged_values hx hp (asc := asc c) rfl fun z => z ≠ .nan).mp (fun idx hi e => hno ⟨idx, hi, e⟩)
      exact this f hpt hnan
    rcases hk with hk | hk
    · rw [at_k hk]
      have := (askField_valid su sv cT.data (fun z => .gradient z t) hV).1
      rw [if_pos hN] at this
      simp only [ask, hprep, this, bind, Except.bind]
    · rw [at_k hk]
      have := (askField_valid su sv cT.data (fun z => .truncate z t) hV).1
      rw [if_pos hN] at this
      simp only [ask, hprep, this, bind, Except.bind]
  · intro hnum s1 s2 hG
    obtain ⟨hA, hn1, hn2⟩ := numbers_arranges hx hf hnum
    rw [← hcT] at hA hn1 hn2
    have ys : (numbers cT.data).shape = w.inst.nlat :: w.inst.nlon :: Spec.extra x lat lon := by rw [hA.shape, ← s1, ← s2]; rfl
    have lab : ∀ (r : NDArr ℝ) (name : Option String) (attrs : List (String × String)), r.shape = (numbers cT.data).shape →
        ∃ out, labelled cT.data.shape (dimCoords cT) (turned x lat (asc c)).dims r name attrs = .ok out ∧
          Spec.Labels x lat lon c.vals out r ∧ out.name = name ∧ out.attrs = attrs :=
      fun r name attrs hr => labels hx hf (asc := asc c) rfl (fun _ => hc) (by rw [hr]; exact hA.shape) name attrs
    have hbase : baseName x.name = (x.name.filter (· ≠ "")).getD "field" := by
      unfold baseName
      cases x.name with
      | none => rfl
      | some n => by_cases e : n = "" <;> simp [e, Option.filter]
    refine ⟨_, hA, fun qs k => ⟨fun hk => ⟨_, at_k hk, ?_⟩, fun hk => ⟨_, at_k hk, ?_⟩⟩⟩
    · have e := (askField_valid su sv cT.data (fun z => .gradient z t) hV).1
      rw [if_neg hn1] at e
      have hans : Spec.answer w.inst w.u w.v (.gradient (numbers cT.data) t) = Spec.answer w.inst (numbers cT.data) (numbers cT.data) (.gradient (numbers cT.data) t) := rfl
      unfold Spec.FieldReply
      cases ha : Spec.answer w.inst w.u w.v (.gradient (numbers cT.data) t) with
      | error er =>
        rw [ha] at e
        simp only [ask, hprep, e, bind, Except.bind]
      | ok rs =>
        rw [ha] at e
        simp only [if_neg hn2] at e
        have hsh := ((C237_slices (.gradient (numbers cT.data) t) hG ys ys ys).2 rs (hans ▸ ha)).1
        have hlen : ∃ a b, rs = [a, b] := by
          have h2 := hans ▸ ha
          simp only [Spec.answer] at ha
          cases hg : gradient w.inst (numbers cT.data) t with
          | error er => rw [hg] at ha; cases ha
          | ok ab => rw [hg] at ha; injection ha with ha; exact ⟨_, _, ha.symm⟩
        obtain ⟨a, b, rfl⟩ := hlen
        obtain ⟨o1, p1, p2, p3, p4⟩ := lab a (some ("zonal_gradient_of_" ++ baseName x.name)) [("long_name", "zonal_gradient_of_" ++ baseName x.name)] (hsh a (by simp))
        obtain ⟨o2, q1, q2, q3, q4⟩ := lab b (some ("meridional_gradient_of_" ++ baseName x.name)) [("long_name", "meridional_gradient_of_" ++ baseName x.name)] (hsh b (by simp))
        refine ⟨[o1, o2], ?_, .cons p2 (.cons q2 .nil), by simp [p3, q3, hbase], by simp [p4, q4, hbase]⟩
        simp only [ask, hprep, e, bind, Except.bind, List.zip_cons_cons, List.zip_nil_right, List.mapM_cons, List.mapM_nil, p1, q1, pure, Except.pure]
    · have e := (askField_valid su sv cT.data (fun z => .truncate z t) hV).1
      rw [if_neg hn1] at e
      have hans : Spec.answer w.inst w.u w.v (.truncate (numbers cT.data) t) = Spec.answer w.inst (numbers cT.data) (numbers cT.data) (.truncate (numbers cT.data) t) := rfl
      unfold Spec.FieldReply
      cases ha : Spec.answer w.inst w.u w.v (.truncate (numbers cT.data) t) with
      | error er =>
        rw [ha] at e
        simp only [ask, hprep, e, bind, Except.bind]
      | ok rs =>
        rw [ha] at e
        simp only [if_neg hn2] at e
        have hsh := ((C237_slices (.truncate (numbers cT.data) t) hG ys ys ys).2 rs (hans ▸ ha)).1
        have hlen : ∃ a, rs = [a] := by
          simp only [Spec.answer] at ha
          cases hg : truncate w.inst (numbers cT.data) t with
          | error er => rw [hg] at ha; cases ha
          | ok ab => rw [hg] at ha; injection ha with ha; exact ⟨_, ha.symm⟩
        obtain ⟨a, rfl⟩ := hlen
        obtain ⟨o1, p1, p2, p3, p4⟩ := lab a x.name x.attrs (hsh a (by simp))
        refine ⟨[o1], ?_, .cons p2 .nil, by simp [p3], by simp [p4]⟩
        simp only [ask, hprep, e, bind, Except.bind, List.mapM_cons, List.mapM_nil, p1, pure, Except.pure]

end Skyborn.WindXr
