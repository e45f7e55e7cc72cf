/-
C238, C241, C242: labels of the answers, what the constructor accepts, scalar fields.
-/
import Verif.WindXr.Answers

namespace Skyborn.WindXr

open Skyborn Windspharm Sphere

variable {K α : Type} [Field K] [LinearOrder K]

/-- What the two winds themselves and the methods that take no field stand for: the answer of `standard.VectorWind` on the wind
`(x, y)` arranged latitude, longitude, others. -/
noncomputable def Spec.plain (I : Inst) (x y : NDArr ℝ) : XQuery K → Option (Except Fail (List (NDArr ℝ)))
  | .u => some (.ok [x])
  | .v => some (.ok [y])
  | .magnitude => some (Spec.answer I x y .magnitude)
  | .vrtdiv t => some (Spec.answer I x y (.vrtdiv t))
  | .vorticity t => some (Spec.answer I x y (.vorticity t))
  | .divergence t => some (Spec.answer I x y (.divergence t))
  | .planetary o => some (Spec.answer I x y (.planetary o))
  | .absolute o t => some (Spec.answer I x y (.absolute o t))
  | .sfvp t => some (Spec.answer I x y (.sfvp t))
  | .streamfunction t => some (Spec.answer I x y (.streamfunction t))
  | .velocitypotential t => some (Spec.answer I x y (.velocitypotential t))
  | .helmholtz t => some (Spec.answer I x y (.helmholtz t))
  | .irrotational t => some (Spec.answer I x y (.irrotational t))
  | .nondivergent t => some (Spec.answer I x y (.nondivergent t))
  | .rossby t o => some (Spec.answer I x y (.rossby t o))
  | .gradient _ _ | .truncate _ _ => none

/-- A reply with the labels of `a`: the error of `standard.VectorWind`, or its results, each labelled, with the documented names and units. -/
def Spec.Reply (a : WArr K Cell) (lat lon : String) (lats : List K) (q : XQuery K) (ans : Except Fail (List (NDArr ℝ)))
    (res : Except XErr (List (WArr K ℝ))) : Prop :=
  match ans with
  | .error e => res = .error (.failed e)
  | .ok rs => ∃ outs, res = .ok outs ∧ List.Forall₂ (fun r out => Spec.Labels a lat lon lats out r) rs outs ∧
      outs.map (fun o => (o.name, o.attrs.lookup "units")) = (Spec.titles q).map fun p => (some p.1, some p.2)

theorem titles_labels (q : XQuery K) : q.labels.map (fun p => (some p.1, p.2.lookup "units")) = (Spec.titles q).map fun p => (some p.1, some p.2) := by
  cases q <;> rfl

theorem answer_length {I : Inst} {x y : NDArr ℝ} {q : XQuery K} {s : Query} (hq : q.std = some s) {rs : List (NDArr ℝ)}
    (h : Spec.answer I x y s = .ok rs) : rs.length = q.labels.length := by
  have key : ∀ {A : Type} {e : Except Fail A} {f : A → List (NDArr ℝ)} {n : ℕ}, (∀ a, (f a).length = n) → e.map f = .ok rs → rs.length = n := by
    intro A e f n hf he
    cases e with
    | error _ => cases he
    | ok a => injection he with he; rw [← he]; exact hf a
  cases q <;> simp only [XQuery.std, Option.some.injEq, reduceCtorEq] at hq <;> subst hq
  case magnitude => injection h with h; rw [← h]; rfl
  case planetary => injection h with h; rw [← h]; rfl
  all_goals exact key (fun _ => rfl) h

theorem plain_std {I : Inst} {x y : NDArr ℝ} {q : XQuery K} {s : Query} (hq : q.std = some s) : Spec.plain I x y q = some (Spec.answer I x y s) := by
  cases q <;> simp only [XQuery.std, Option.some.injEq, reduceCtorEq] at hq <;> subst hq <;> rfl

/-- One call on a valid object. -/
theorem reply_ok {lib : Grid → Leg → ℕ → ℕ → ℚ → Inst} {u v : WArr K Cell} (hu : Spec.Proper u) {lat lon : String} {c : Coord K} {w : WObj K}
    (h : Holds lib u v lat lon c w) (hc : asc c = true → c ∈ u.coords) (h1 : w.inst.nlat = Spec.size u lat) (h2 : w.inst.nlon = Spec.size u lon)
    (hG : Good w.inst (Spec.extra u lat lon ++ [2])) (q : XQuery K) {ans : Except Fail (List (NDArr ℝ))} (ha : Spec.plain w.inst w.u w.v q = some ans)
    {o : Obj} (ho : Valid w.inst w.u w.v o) : Spec.Reply u lat lon c.vals q ans (ask w q o).1 := by
  have sv : w.v.shape = Spec.size u lat :: Spec.size u lon :: Spec.extra u lat lon := by
    rw [h.hv.shape, ← h.match'.1, h.sizes lat h.frame.isLat.1, h.sizes lon h.frame.isLon.choose_spec.1]
    congr 2
    exact List.map_congr_left fun d hd => h.sizes d (List.mem_filter.mp hd).1
  have hus : w.u.shape = w.inst.nlat :: w.inst.nlon :: Spec.extra u lat lon := by rw [h1, h2]; exact h.hu.shape
  have hvs : w.v.shape = w.inst.nlat :: w.inst.nlon :: Spec.extra u lat lon := by rw [h1, h2]; exact sv
  have wrap : ∀ rs : List (NDArr ℝ), rs.length = q.labels.length → (∀ r ∈ rs, r.shape = w.u.shape) →
      ∃ outs, labelAll w rs q.labels = .ok outs ∧ List.Forall₂ (fun r out => Spec.Labels u lat lon c.vals out r) rs outs ∧
        outs.map (fun o => (o.name, o.attrs.lookup "units")) = (Spec.titles q).map fun p => (some p.1, some p.2) := by
    intro rs hl hs
    obtain ⟨outs, e1, e2, e3⟩ := labelAll_ok hu h hc hl fun r hr => by rw [hs r hr]; exact h.hu.shape
    refine ⟨outs, e1, e2, ?_⟩
    rw [← titles_labels]
    have := congrArg (List.map fun p : Option String × List (String × String) => (p.1, p.2.lookup "units")) e3
    rw [List.map_map, List.map_map] at this
    exact this
  cases hq : q.std with
  | some s =>
    rw [plain_std hq] at ha
    injection ha with ha
    subst ha
    rw [(ask_std hus hvs hq ho).1]
    unfold Spec.Reply
    cases hans : Spec.answer w.inst w.u w.v s with
    | error e => rfl
    | ok rs =>
      refine wrap rs (answer_length hq hans) ?_
      have hfit : Spec.Fits w.inst (Spec.extra u lat lon) s := by
        cases q <;> simp only [XQuery.std, Option.some.injEq, reduceCtorEq] at hq <;> subst hq <;> trivial
      exact ((C237_slices s hG hus hvs hfit).2 rs hans).1
  | none =>
    cases q with
    | u =>
      injection ha with ha
      subst ha
      show ∃ outs, labelAll w [o.u] _ = _ ∧ _
      rw [ho.hu]
      exact wrap [w.u] rfl fun r hr => by rw [List.mem_singleton.mp hr]
    | v =>
      injection ha with ha
      subst ha
      show ∃ outs, labelAll w [o.v] _ = _ ∧ _
      rw [ho.hv]
      exact wrap [w.v] rfl fun r hr => by rw [List.mem_singleton.mp hr, hus, hvs]
    | gradient chi t => cases ha
    | truncate x t => cases ha
    | _ => cases hq

/-- C238: the object made from two labelled winds holds them arranged latitude (north to south), longitude, others, and both have the same
coordinate values. Whatever is asked before, every method replies with what `standard.VectorWind` replies for the arranged wind, and each result
has the dimensions, sizes and coordinates of the wind given, latitudes turned north to south, each value standing at its own labels, under
the documented names and units. (When the latitude dimension has a coordinate; the transforms accept the size.) -/
theorem C238_labels_partial {lib : Grid → Leg → ℕ → ℕ → ℚ → Inst} (hlib : Spec.Lib lib) {gauss : ℕ → Option (ℕ → K)} {u v : WArr K Cell}
    (hu : Spec.Proper u) (hv : Spec.Proper v) {rsphere : ℚ} {legfunc : String} {gridtype : Option String} {w : WObj K}
    (h : construct lib gauss u v rsphere legfunc gridtype = .ok w) :
    ∃ lat lon c, Spec.Frame u lat lon c ∧ u.dims = v.dims ∧
      (∀ d ∈ u.dims, ∀ c c', Spec.Carries u d c → Spec.Carries v d c' → c'.vals = c.vals) ∧
      w.inst.nlat = Spec.size u lat ∧ w.inst.nlon = Spec.size u lon ∧ w.inst.rsphere = rsphere ∧
      Spec.Arranges u lat lon c.vals w.u ∧ Spec.Arranges v lat lon c.vals w.v ∧
      (c ∈ u.coords → Good w.inst (Spec.extra u lat lon ++ [2]) → ∀ qs : List (XQuery K),
        List.Forall₂ (fun q res => ∀ ans, Spec.plain w.inst w.u w.v q = some ans → Spec.Reply u lat lon c.vals q ans res) qs (run w qs)) := by
  obtain ⟨lat, lon, c, hh, g, s, l, -, -, -, -, hi⟩ := holds hu hv h
  obtain ⟨i1, i2, i3, -, -⟩ := hlib g l (Spec.size u lat) (Spec.size u lon) rsphere
  rw [← hi] at i1 i2 i3
  refine ⟨lat, lon, c, hh.frame, hh.match'.1, ?_, i1, i2, i3, hh.hu, hh.hv, fun hc hG qs => ?_⟩
  · intro d hd c1 c2 q1 q2
    have hs := hh.match'.2 d hd c1 c2 q1 q2
    have l1 : c1.vals.length = Spec.size u d := by rw [(carries_iff hu.names).mp q1, coordOf_length hu]
    have l2 : c2.vals.length = Spec.size v d := by rw [(carries_iff hv.names).mp q2, coordOf_length hv]
    have ll : c1.vals.length = c2.vals.length := by rw [l1, l2, hh.sizes d hd]
    rcases hs with e | ⟨x, e, hx⟩ | ⟨y, e, hy⟩
    · exact e.symm
    · rw [e] at ll ⊢
      match hq : c2.vals, ll with
      | [z], _ => rw [hx z (by rw [hq]; simp)]
    · rw [e] at ll ⊢
      match hq : c1.vals, ll with
      | [z], _ => rw [hy z (by rw [hq]; simp)]
  · have sv : w.v.shape = w.inst.nlat :: w.inst.nlon :: Spec.extra u lat lon := by
      rw [i1, i2, hh.hv.shape, ← hh.match'.1, hh.sizes lat hh.frame.isLat.1, hh.sizes lon hh.frame.isLon.choose_spec.1]
      congr 2
      exact List.map_congr_left fun d hd => hh.sizes d (List.mem_filter.mp hd).1
    have su : w.u.shape = w.inst.nlat :: w.inst.nlon :: Spec.extra u lat lon := by rw [i1, i2]; exact hh.hu.shape
    unfold run
    have gen : ∀ o, Valid w.inst w.u w.v o → List.Forall₂ (fun q res => ∀ ans, Spec.plain w.inst w.u w.v q = some ans →
        Spec.Reply u lat lon c.vals q ans res) qs (session w o qs) := by
      induction qs with
      | nil => intro o _; exact .nil
      | cons q qs ih =>
        intro o ho
        exact .cons (fun ans ha => reply_ok hu hh (fun _ => hc) i1 i2 hG q ha ho) (ih _ (ask_valid su sv q ho).2)
    exact gen _ (valid_fresh _ _ _)

/-- Methods do not disturb each other: a sequence of calls gives what each call gives on a new object. -/
theorem C238_history {lib : Grid → Leg → ℕ → ℕ → ℚ → Inst} (hlib : Spec.Lib lib) {gauss : ℕ → Option (ℕ → K)} {u v : WArr K Cell}
    (hu : Spec.Proper u) (hv : Spec.Proper v) {rsphere : ℚ} {legfunc : String} {gridtype : Option String} {w : WObj K}
    (h : construct lib gauss u v rsphere legfunc gridtype = .ok w) (qs : List (XQuery K)) : run w qs = qs.flatMap fun q => run w [q] := by
  obtain ⟨lat, lon, c, hh, g, s, l, -, -, -, -, hi⟩ := holds hu hv h
  obtain ⟨i1, i2, i3, -, -⟩ := hlib g l (Spec.size u lat) (Spec.size u lon) rsphere
  rw [← hi] at i1 i2 i3
  have sv : w.v.shape = w.inst.nlat :: w.inst.nlon :: Spec.extra u lat lon := by
    rw [i1, i2, hh.hv.shape, ← hh.match'.1, hh.sizes lat hh.frame.isLat.1, hh.sizes lon hh.frame.isLon.choose_spec.1]
    congr 2
    exact List.map_congr_left fun d hd => hh.sizes d (List.mem_filter.mp hd).1
  have su : w.u.shape = w.inst.nlat :: w.inst.nlon :: Spec.extra u lat lon := by rw [i1, i2]; exact hh.hu.shape
  have gen : ∀ o, Valid w.inst w.u w.v o → session w o qs = qs.flatMap fun q => run w [q] := by
    induction qs with
    | nil => intro o _; rfl
    | cons q qs ih =>
      intro o ho
      obtain ⟨e, h'⟩ := ask_valid su sv q ho
      rw [session, ih _ h', List.flatMap_cons, e]
      rfl
  exact gen _ (valid_fresh _ _ _)

end Skyborn.WindXr
