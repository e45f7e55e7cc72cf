/-
The answers of `VectorWind` on labelled arrays carry the labels of the wind.
-/
import Verif.WindXr.Construct

namespace Skyborn.WindXr

open Skyborn Windspharm Sphere

variable {K α : Type} [Field K] [LinearOrder K]

/-- The transform object made for a grid has the size, radius and options asked for. -/
def Spec.Lib (lib : Grid → Leg → ℕ → ℕ → ℚ → Inst) : Prop := ∀ g l n m r, (lib g l n m r).nlat = n ∧ (lib g l n m r).nlon = m ∧
  (lib g l n m r).rsphere = r ∧ (lib g l n m r).grid = g ∧ (lib g l n m r).leg = l

/-- Sizes of the other dimensions. -/
def Spec.extra (a : WArr K α) (lat lon : String) : List ℕ := (Spec.rest a.dims lat lon).map (Spec.size a)

/-- Names and units of the results of each method, as documented. -/
def Spec.titles : XQuery K → List (String × String)
  | .u => [("u", "m s**-1")]
  | .v => [("v", "m s**-1")]
  | .magnitude => [("speed", "m s**-1")]
  | .vrtdiv _ => [("vorticity", "s**-1"), ("divergence", "s**-1")]
  | .vorticity _ => [("vorticity", "s**-1")]
  | .divergence _ => [("divergence", "s**-1")]
  | .planetary _ => [("coriolis", "s**-1")]
  | .absolute _ _ => [("absolute_vorticity", "s**-1")]
  | .sfvp _ => [("streamfunction", "m**2 s**-1"), ("velocity_potential", "m**2 s**-1")]
  | .streamfunction _ => [("streamfunction", "m**2 s**-1")]
  | .velocitypotential _ => [("velocity_potential", "m**2 s**-1")]
  | .helmholtz _ => [("u_chi", "m s**-1"), ("v_chi", "m s**-1"), ("u_psi", "m s**-1"), ("v_psi", "m s**-1")]
  | .irrotational _ => [("u_chi", "m s**-1"), ("v_chi", "m s**-1")]
  | .nondivergent _ => [("u_psi", "m s**-1"), ("v_psi", "m s**-1")]
  | .rossby _ _ => [("rossby_wave_source", "s**-2")]
  | _ => []

theorem accept_parts {u v : NDArr Cell} {g : String} {rs : ℚ} {l : String} {g' : Grid} {l' : Leg} {x y : NDArr ℝ}
    (h : accept u v g rs l = .ok (g', l', x, y)) :
    u.shape = v.shape ∧ x.shape = u.shape ∧ y.shape = v.shape ∧ (∀ idx, InB u.shape idx → u.get idx = .num (x.get idx)) ∧
      (∀ idx, InB v.shape idx → v.get idx = .num (y.get idx)) ∧ gridOf g = some g' ∧ legOf l = some l' ∧ 0 < rs ∧
      3 ≤ u.shape.getD 0 0 ∧ 4 ≤ u.shape.getD 1 0 := by
  unfold accept at h
  simp only at h
  split at h
  · split at h <;> cases h
  next hb =>
  push Not at hb
  split at h
  · cases h
  next hs =>
  push Not at hs
  split at h
  · next nlat nlon rest hsh =>
    split at h
    · cases h
    next hz =>
    split at h
    · cases h
    next gg hg =>
    split at h
    · cases h
    next hr =>
    split at h
    · cases h
    next ll hl =>
    split at h
    · cases h
    injection h with h
    simp only [Prod.mk.injEq] at h
    obtain ⟨rfl, rfl, rfl, rfl⟩ := h
    refine ⟨hs, hsh ▸ rfl, rfl, fun idx hi => ?_, fun idx hi => ?_, hg, hl, not_le.mp hr, ?_, ?_⟩
    · obtain ⟨r, hr⟩ := hb.1 idx hi
      show _ = Cell.num (u.get idx).val
      rw [hr]; rfl
    · obtain ⟨r, hr⟩ := hb.2 idx hi
      show _ = Cell.num (v.get idx).val
      rw [hr]; rfl
    · rw [hsh]; simp; omega
    · rw [hsh]; simp; omega
  · cases h

/-- What a constructed object holds. -/
structure Holds (lib : Grid → Leg → ℕ → ℕ → ℚ → Inst) (u v : WArr K Cell) (lat lon : String) (c : Coord K) (w : WObj K) : Prop where
  frame : Spec.Frame u lat lon c
  match' : Spec.Match u v
  sizes : ∀ d ∈ u.dims, Spec.size v d = Spec.size u d
  reorder : w.reorder = u.dims
  ishape : w.ishape = (transposeTo (turned u lat (asc c)) (order u lat lon)).data.shape
  coords : w.coords = dimCoords (transposeTo (turned u lat (asc c)) (order u lat lon))
  hu : Spec.Arranges u lat lon c.vals w.u
  hv : Spec.Arranges v lat lon c.vals w.v
  rows : 3 ≤ Spec.size u lat
  cols : 4 ≤ Spec.size u lon

theorem holds {lib : Grid → Leg → ℕ → ℕ → ℚ → Inst} {gauss : ℕ → Option (ℕ → K)} {u v : WArr K Cell} (hu : Spec.Proper u) (hv : Spec.Proper v)
    {rsphere : ℚ} {legfunc : String} {gridtype : Option String} {w : WObj K} (h : construct lib gauss u v rsphere legfunc gridtype = .ok w) :
    ∃ lat lon c, Holds lib u v lat lon c w ∧ ∃ g s l, gridName gauss (coordOf (turned u lat (asc c)) lat).vals gridtype = .ok s ∧
      gridOf s = some g ∧ legOf legfunc = some l ∧ 0 < rsphere ∧ w.inst = lib g l (Spec.size u lat) (Spec.size u lon) rsphere := by
  by_cases hm : Spec.Match u v
  swap
  · rw [construct_unmatched lib gauss hu hv hm] at h; cases h
  by_cases hf : ∃ lat lon c, Spec.Frame u lat lon c
  swap
  · rcases construct_unframed lib gauss hu hv hm hf rsphere legfunc gridtype with e | e <;> rw [e] at h <;> cases h
  obtain ⟨lat, lon, c, hf⟩ := hf
  rw [construct_eq lib gauss hu hv hm hf] at h
  cases hg : gridName gauss (coordOf (turned u lat (asc c)) lat).vals gridtype with
  | error e => rw [hg] at h; cases h
  | ok s =>
    rw [hg] at h
    simp only at h
    cases hacc : accept (transposeTo (turned u lat (asc c)) (order u lat lon)).data (transposeTo (turned v lat (asc c)) (order u lat lon)).data s
      rsphere legfunc with
    | error r => rw [hacc] at h; cases h
    | ok p =>
      obtain ⟨g, l, x, y⟩ := p
      rw [hacc] at h
      simp only at h
      injection h with h
      obtain ⟨a1, a2, a3, a4, a5, a6, a7, a8, a9, a10⟩ := accept_parts hacc
      have hpu := placed hu hf
      have hLu := lay_arranged hu hpu (asc := asc c) rfl
      have hperm := (apiNames_ok hu.dims hpu.memLat hpu.memLon hpu.ne).2
      -- the sizes of the two winds agree
      have hperm' : (order u lat lon).Perm (turned v lat (asc c)).dims := by rw [turned_dims, ← hm.1]; exact hperm
      have hvs := (lay_transposeTo (turned_proper hv lat (asc c)).dims (lay (turned_proper hv lat (asc c))) hperm').1
      have hsz : ∀ d ∈ u.dims, Spec.size v d = Spec.size u d := by
        intro d hd
        have e := a1
        have e2 : (transposeTo (turned u lat (asc c)) (order u lat lon)).data.shape = (order u lat lon).map (Spec.size u) := hLu.1
        rw [e2, hvs] at e
        have := List.map_inj_left.mp e d (hperm.mem_iff.mpr hd)
        rw [this, turned_size]
      have hpv : Placed v lat lon c.vals := ⟨hm.1 ▸ hpu.memLat, hm.1 ▸ hpu.memLon, hpu.ne, by rw [hpu.len, hsz lat hpu.memLat]⟩
      have hord : order u lat lon = lat :: lon :: Spec.rest v.dims lat lon := by unfold order; rw [hm.1]
      have e2 : (transposeTo (turned u lat (asc c)) (order u lat lon)).data.shape = (order u lat lon).map (Spec.size u) := hLu.1
      refine ⟨lat, lon, c, ⟨hf, hm, hsz, by rw [← h], by rw [← h], by rw [← h], ?_, ?_, ?_, ?_⟩, g, s, l, hg, a6, a7, a8, by rw [← h]⟩
      · rw [← h]
        exact arranges hu hpu (asc := asc c) rfl a2 (fun idx hi => a4 idx (a2 ▸ hi))
      · rw [← h]
        rw [hord] at a3 a5
        exact arranges hv hpv (asc := asc c) rfl a3 (fun idx hi => a5 idx (a3 ▸ hi))
      · rw [e2] at a9; simpa [order] using a9
      · rw [e2] at a10; simpa [order] using a10

theorem mapM_ok {A B E : Type} {f : A → Except E B} {R : A → B → Prop} : ∀ {l : List A}, (∀ p ∈ l, ∃ o, f p = .ok o ∧ R p o) →
    ∃ os, l.mapM f = .ok os ∧ List.Forall₂ R l os := by
  intro l
  induction l with
  | nil => intro _; exact ⟨[], rfl, .nil⟩
  | cons a t ih =>
    intro h
    obtain ⟨o, e, r⟩ := h a (by simp)
    obtain ⟨os, e', r'⟩ := ih fun p hp => h p (by simp [hp])
    refine ⟨o :: os, ?_, .cons r r'⟩
    rw [List.mapM_cons, e, e']
    rfl

theorem forall₂_zip {A B C : Type} {R : A × B → C → Prop} : ∀ {l : List A} {m : List B} {os : List C}, l.length = m.length →
    List.Forall₂ R (l.zip m) os → List.Forall₂ (fun a o => ∃ b ∈ m, R (a, b) o) l os := by
  intro l
  induction l with
  | nil => intro m os _ h; cases h; exact .nil
  | cons a t ih =>
    intro m os hl h
    cases m with
    | nil => simp at hl
    | cons b m =>
      cases h with
      | cons h1 h2 =>
        refine .cons ⟨b, by simp, h1⟩ ((ih (by simpa using hl) h2).imp ?_)
        rintro a o ⟨b', hb', hr⟩
        exact ⟨b', by simp [hb'], hr⟩

/-- Labels on several results. -/
theorem labelAll_ok {lib : Grid → Leg → ℕ → ℕ → ℚ → Inst} {u v : WArr K Cell} (hu : Spec.Proper u) {lat lon : String} {c : Coord K} {w : WObj K}
    (h : Holds lib u v lat lon c w) (hc : asc c = true → c ∈ u.coords) {rs : List (NDArr ℝ)} {ls : List (String × List (String × String))}
    (hl : rs.length = ls.length) (hs : ∀ r ∈ rs, r.shape = Spec.size u lat :: Spec.size u lon :: Spec.extra u lat lon) :
    ∃ outs, labelAll w rs ls = .ok outs ∧ List.Forall₂ (fun r out => Spec.Labels u lat lon c.vals out r) rs outs ∧
      outs.map (fun o => (o.name, o.attrs)) = ls.map fun p => (some p.1, p.2) := by
  unfold labelAll
  obtain ⟨outs, e, hR⟩ := mapM_ok (l := rs.zip ls) (f := fun p => labelled w.ishape w.coords w.reorder p.1 (some p.2.1) p.2.2)
    (R := fun p out => Spec.Labels u lat lon c.vals out p.1 ∧ out.name = some p.2.1 ∧ out.attrs = p.2.2) (by
      intro p hp
      have hp1 := (List.of_mem_zip hp).1
      have := labels hu h.frame (asc := asc c) rfl hc (hs p.1 hp1) (some p.2.1) p.2.2
      rw [h.ishape, h.coords, h.reorder, ← turned_dims u lat (asc c)]
      exact this)
  refine ⟨outs, e, ?_, ?_⟩
  · refine (forall₂_zip hl hR).imp ?_
    rintro a o ⟨b, -, hr, -⟩
    exact hr
  · clear e hs
    induction rs generalizing ls outs with
    | nil =>
      cases ls with
      | nil => cases hR; rfl
      | cons _ _ => simp at hl
    | cons a t ih =>
      cases ls with
      | nil => simp at hl
      | cons b m =>
        cases hR with
        | cons h1 h2 =>
          simp only [List.map_cons]
          rw [ih (by simpa using hl) _ h2, h1.2.1, h1.2.2]

theorem valid_fresh (I : Inst) (u v : NDArr ℝ) : Valid I u v (Obj.fresh u v) := by
  refine ⟨rfl, rfl, ?_, ?_, ?_, ?_⟩
  · rintro f ⟨⟩
  · rintro w f ⟨⟩
  · rintro w T s ⟨⟩
  · rintro l ⟨⟩

/-- A method that takes no field. -/
theorem ask_std {w : WObj K} {extra : List ℕ} (hu : w.u.shape = w.inst.nlat :: w.inst.nlon :: extra)
    (hv : w.v.shape = w.inst.nlat :: w.inst.nlon :: extra) {q : XQuery K} {s : Query} (hq : q.std = some s) {o : Obj} (ho : Valid w.inst w.u w.v o) :
    (ask w q o).1 = (match Spec.answer w.inst w.u w.v s with | .error e => .error (.failed e) | .ok rs => labelAll w rs q.labels) ∧
      Valid w.inst w.u w.v (ask w q o).2 := by
  obtain ⟨o', e, h⟩ := gives_perform hu hv s o ho
  have e' : ask w q o = (match ((perform w.inst s).run.run o).1 with | .error e => .error (.failed e) | .ok rs => labelAll w rs q.labels,
      ((perform w.inst s).run.run o).2) := by
    cases q <;> simp only [XQuery.std, Option.some.injEq, reduceCtorEq] at hq <;> subst hq <;> rfl
  rw [e', e]
  exact ⟨rfl, h⟩

open Classical in
theorem askField_valid {w : WObj K} {extra : List ℕ} (hu : w.u.shape = w.inst.nlat :: w.inst.nlon :: extra)
    (hv : w.v.shape = w.inst.nlat :: w.inst.nlon :: extra) (x : NDArr Cell) (q : NDArr ℝ → Query) {o : Obj} (ho : Valid w.inst w.u w.v o) :
    (askField w.inst x q o).1 = (if hasNan x then .error .valueError else match Spec.answer w.inst w.u w.v (q (numbers x)) with
      | .error e => .error (.failed e)
      | .ok rs => if hasInf x then .error (.failed .undefined) else .ok rs) ∧ Valid w.inst w.u w.v (askField w.inst x q o).2 := by
  obtain ⟨o', e, h⟩ := gives_perform hu hv (q (numbers x)) o ho
  unfold askField
  by_cases hn : hasNan x
  · rw [if_pos hn, if_pos hn]; exact ⟨rfl, ho⟩
  · rw [if_neg hn, if_neg hn]
    simp only [e]
    cases Spec.answer w.inst w.u w.v (q (numbers x)) with
    | error e => exact ⟨rfl, h⟩
    | ok rs =>
      simp only
      split <;> exact ⟨rfl, h⟩

/-- Every call leaves the object valid, and answers as on a new object. -/
theorem ask_valid {w : WObj K} {extra : List ℕ} (hu : w.u.shape = w.inst.nlat :: w.inst.nlon :: extra)
    (hv : w.v.shape = w.inst.nlat :: w.inst.nlon :: extra) (q : XQuery K) {o : Obj} (ho : Valid w.inst w.u w.v o) :
    (ask w q o).1 = (ask w q (Obj.fresh w.u w.v)).1 ∧ Valid w.inst w.u w.v (ask w q o).2 := by
  have hf := valid_fresh w.inst w.u w.v
  cases hq : q.std with
  | some s =>
    obtain ⟨h1, h2⟩ := ask_std hu hv hq ho
    obtain ⟨h3, -⟩ := ask_std hu hv hq hf
    exact ⟨h1.trans h3.symm, h2⟩
  | none =>
    cases q with
    | u =>
      refine ⟨?_, ho⟩
      show labelAll w [o.u] _ = labelAll w [w.u] _
      rw [ho.hu]
    | v =>
      refine ⟨?_, ho⟩
      show labelAll w [o.v] _ = labelAll w [w.v] _
      rw [ho.hv]
    | gradient chi t =>
      cases hp : prepare chi with
      | error e => simp only [ask, hp]; exact ⟨trivial, ho⟩
      | ok p =>
        obtain ⟨cT, coords, re⟩ := p
        obtain ⟨h1, h2⟩ := askField_valid hu hv cT.data (fun x => .gradient x t) ho
        obtain ⟨h3, -⟩ := askField_valid hu hv cT.data (fun x => .gradient x t) hf
        simp only [ask, hp, h1, h3]
        exact ⟨trivial, h2⟩
    | truncate x t =>
      cases hp : prepare x with
      | error e => simp only [ask, hp]; exact ⟨trivial, ho⟩
      | ok p =>
        obtain ⟨cT, coords, re⟩ := p
        obtain ⟨h1, h2⟩ := askField_valid hu hv cT.data (fun x => .truncate x t) ho
        obtain ⟨h3, -⟩ := askField_valid hu hv cT.data (fun x => .truncate x t) hf
        simp only [ask, hp, h1, h3]
        exact ⟨trivial, h2⟩
    | _ => cases hq

end Skyborn.WindXr
