/-
Results of a `VectorWind` object do not depend on the calls made before.
-/
import Verif.Sphere.Session

namespace Skyborn.Sphere

open Skyborn Skyborn.Spectral

variable {I : Inst} {extra : List ℕ}

/-- What a call documents to return: a function of the wind and the arguments alone. -/
noncomputable def Spec.answer (I : Inst) (u v : NDArr ℝ) : Query → Except Fail (List (NDArr ℝ))
  | .magnitude => .ok [speed u v]
  | .vrtdiv t => (vrtdiv I u v t).map fun p => [p.1, p.2]
  | .vorticity t => (vorticity I u v t).map fun p => [p]
  | .divergence t => (divergence I u v t).map fun p => [p]
  | .planetary w => .ok [planetaryvorticity I u w]
  | .absolute w t => (absolutevorticity I u v w t).map fun p => [p]
  | .sfvp t => (sfvp I u v t).map fun p => [p.1, p.2]
  | .streamfunction t => (streamfunction I u v t).map fun p => [p]
  | .velocitypotential t => (velocitypotential I u v t).map fun p => [p]
  | .helmholtz t => (helmholtz I u v t).map fun p => [p.1, p.2.1, p.2.2.1, p.2.2.2]
  | .irrotational t => (irrotational I u v t).map fun p => [p.1, p.2]
  | .nondivergent t => (nondivergent I u v t).map fun p => [p.1, p.2]
  | .gradient chi t => (gradient I chi t).map fun p => [p.1, p.2]
  | .truncate x t => (truncate I x t).map fun p => [p]
  | .rossby t w => (rossbywavesource I u v t w).map fun p => [p]

/-- The caches hold what would be computed now. -/
structure Valid (I : Inst) (u v : NDArr ℝ) (o : Obj) : Prop where
  hu : o.u = u
  hv : o.v = v
  lat : ∀ f, o.lat = some f → f = latitude I
  cor : ∀ w f, look w o.cor = some f → f = coriolis I w
  fspec : ∀ w T s, look (w, T) o.fspec = some s →
    grdtospec I (broadcastRows [I.nlat, I.nlon] (coriolis I w)) (some (T : ℤ)) = .ok s
  layout : ∀ l, o.layout = some l → l = layoutOf u v

/-- Started on valid caches, `x` gives `r` and leaves valid caches. -/
def Gives (I : Inst) (u v : NDArr ℝ) {α : Type} (x : Method α) (r : Except Fail α) : Prop :=
  ∀ o, Valid I u v o → ∃ o', x.run.run o = (r, o') ∧ Valid I u v o'

variable {u v : NDArr ℝ} {α β : Type}

theorem Gives.pureM (x : Except Fail α) : Gives I u v (pureM x) x := fun o h => ⟨o, rfl, h⟩

theorem Gives.ret (a : α) : Gives I u v (pure a) (.ok a) := fun o h => ⟨o, rfl, h⟩

theorem Gives.bind {x : Method α} {r : Except Fail α} {f : α → Method β} {g : α → Except Fail β}
    (hx : Gives I u v x r) (hf : ∀ a, r = .ok a → Gives I u v (f a) (g a)) : Gives I u v (x >>= f) (r >>= g) := by
  intro o ho
  obtain ⟨o1, e1, h1⟩ := hx o ho
  cases r with
  | error e =>
    refine ⟨o1, ?_, h1⟩
    show (ExceptT.run (x >>= f)).run o = _
    simp only [ExceptT.run_bind, StateT.run_bind, e1]
    rfl
  | ok a =>
    obtain ⟨o2, e2, h2⟩ := hf a rfl o1 h1
    refine ⟨o2, ?_, h2⟩
    show (ExceptT.run (x >>= f)).run o = _
    simp only [ExceptT.run_bind, StateT.run_bind, e1]
    exact e2

theorem look_cons {κ : Type} [DecidableEq κ] (k k' : κ) (x : α) (d : List (κ × α)) :
    look k ((k', x) :: d) = if k' = k then some x else look k d := by
  unfold look
  rw [List.find?_cons]
  by_cases h : k' = k
  · simp [h]
  · simp [h]

theorem Gives.get {f : Obj → Method α} {r : Except Fail α}
    (h : ∀ o, Valid I u v o → ∃ o', (f o).run.run o = (r, o') ∧ Valid I u v o') :
    Gives I u v (MonadState.get >>= f) r := fun o ho => h o ho

theorem gives_lat : Gives I u v (latM I) (.ok (latitude I)) := by
  refine Gives.get fun o ho => ?_
  cases hl : o.lat with
  | some f =>
    refine ⟨o, ?_, ho⟩
    rw [← ho.lat f hl]
    rfl
  | none =>
    refine ⟨{ o with lat := some (latitude I) }, rfl, ⟨ho.hu, ho.hv, ?_, ho.cor, ho.fspec, ho.layout⟩⟩
    rintro f ⟨⟩; rfl

theorem run_ok {x : Method α} {f : α → Method β} {a : α} {o o1 : Obj} (h : x.run.run o = (.ok a, o1)) :
    (x >>= f).run.run o = (f a).run.run o1 := by
  simp only [ExceptT.run_bind, StateT.run_bind, h]
  rfl

theorem run_err {x : Method α} {f : α → Method β} {e : Fail} {o o1 : Obj} (h : x.run.run o = (.error e, o1)) :
    (x >>= f).run.run o = (.error e, o1) := by
  simp only [ExceptT.run_bind, StateT.run_bind, h]
  rfl

open Classical in
theorem gives_cor (w : Option ℝ) : Gives I u v (corM I w) (.ok (coriolis I (omegaOf w))) := by
  refine Gives.get fun o ho => ?_
  cases hl : look (omegaOf w) o.cor with
  | some f =>
    refine ⟨o, ?_, ho⟩
    rw [← ho.cor _ f hl]
    rfl
  | none =>
    obtain ⟨o1, e1, h1⟩ := gives_lat o ho
    refine ⟨{ o1 with cor := (omegaOf w, coriolis I (omegaOf w)) :: o1.cor }, ?_, ⟨h1.hu, h1.hv, h1.lat, ?_, h1.fspec, h1.layout⟩⟩
    · show (ExceptT.run (latM I >>= _)).run o = _
      simp only [ExceptT.run_bind, StateT.run_bind, e1]
      rfl
    · intro w' f
      simp only [look_cons]
      split_ifs with hw
      · rintro ⟨⟩; rw [hw]
      · exact h1.cor w' f

theorem gives_planetary (w : Option ℝ) : Gives I u v (planetaryM I w) (.ok (planetaryvorticity I u w)) := by
  refine (gives_cor w).bind (g := fun f => .ok (broadcastRows u.shape f)) fun f _ => ?_
  refine Gives.get fun o ho => ⟨o, ?_, ho⟩
  rw [ho.hu]
  rfl

open Classical in
theorem gives_fspec (t : Option ℤ) (w : Option ℝ) : Gives I u v (fspecM I t w) (planetarySpec I (omegaOf w) t) := by
  refine (Gives.pureM _).bind fun T _ => ?_
  refine Gives.get fun o ho => ?_
  cases hl : look (omegaOf w, T) o.fspec with
  | some s =>
    refine ⟨o, ?_, ho⟩
    rw [ho.fspec _ _ _ hl]
    rfl
  | none =>
    obtain ⟨o1, e1, h1⟩ := gives_cor (I := I) (u := u) (v := v) (some (omegaOf w)) o ho
    have e2 : omegaOf (some (omegaOf w)) = omegaOf w := rfl
    rw [e2] at e1
    cases hg : grdtospec I (broadcastRows [I.nlat, I.nlon] (coriolis I (omegaOf w))) (some (T : ℤ)) with
    | error er =>
      refine ⟨o1, ?_, h1⟩
      refine (run_ok e1).trans ?_
      refine run_err (show ((pureM (grdtospec I (broadcastRows [I.nlat, I.nlon] (coriolis I (omegaOf w))) (some (T : ℤ)))).run.run o1) = _ from ?_)
      rw [hg]; rfl
    | ok s =>
      refine ⟨{ o1 with fspec := ((omegaOf w, T), s) :: o1.fspec }, ?_, ⟨h1.hu, h1.hv, h1.lat, h1.cor, ?_, h1.layout⟩⟩
      · refine (run_ok e1).trans ?_
        refine (run_ok (a := s) (o1 := o1) (show ((pureM (grdtospec I (broadcastRows [I.nlat, I.nlon] (coriolis I (omegaOf w))) (some (T : ℤ)))).run.run o1) = _ from ?_)).trans rfl
        rw [hg]; rfl
      · intro w' T' s'
        simp only [look_cons]
        split_ifs with hw
        · rintro ⟨⟩
          simp only [Prod.mk.injEq] at hw
          rw [← hw.1, ← hw.2]; exact hg
        · exact h1.fspec w' T' s'

theorem gives_layout : Gives I u v layoutM (.ok (layoutOf u v)) := by
  refine Gives.get fun o ho => ?_
  cases hl : o.layout with
  | some f =>
    refine ⟨o, ?_, ho⟩
    rw [← ho.layout f hl]
    rfl
  | none =>
    refine ⟨{ o with layout := some (layoutOf u v) }, ?_, ⟨ho.hu, ho.hv, ho.lat, ho.cor, ho.fspec, ?_⟩⟩
    · rw [← ho.hu, ← ho.hv]; rfl
    · rintro f ⟨⟩; rfl

/-- The flattening is the one `Spharmt` makes. -/
theorem layout_valid (hu : u.shape = I.nlat :: I.nlon :: extra) (hv : v.shape = I.nlat :: I.nlon :: extra) :
    validateWind I u v = .ok (layoutOf u v) := by
  have hr : ∀ x : NDArr ℝ, x.shape = I.nlat :: I.nlon :: extra → ∃ y, x.reshape [I.nlat, I.nlon, extra.prod] = some y ∧
      validateGrid I x = .ok (extra, y) := by
    intro x hx
    obtain ⟨y, e, _⟩ := validateGrid_ok (I := I) hx
    have e' := e
    unfold validateGrid at e
    rw [hx] at e
    simp only [ne_eq, not_true_eq_false, or_self, if_false] at e
    cases hq : x.reshape [I.nlat, I.nlon, extra.prod] with
    | none => rw [hq] at e; cases e
    | some y' => 
      rw [hq] at e
      simp only [Except.ok.injEq, Prod.mk.injEq, true_and] at e
      rw [← e] at e'
      exact ⟨y', rfl, e'⟩
  obtain ⟨y, r1, e1⟩ := hr u hu
  obtain ⟨z, r2, e2⟩ := hr v hv
  unfold validateWind layoutOf
  rw [if_neg (by rw [hu, hv]; simp)]
  simp only [bind, Except.bind, pure, Except.pure, e1, e2, ne_eq, not_true_eq_false, if_false, hu, hv, List.drop_succ_cons,
    List.drop_zero, List.getD_cons_zero, List.getD_cons_succ, r1, r2, Option.getD_some]

theorem flat_vrtdiv (hu : u.shape = I.nlat :: I.nlon :: extra) (hv : v.shape = I.nlat :: I.nlon :: extra) (t : Option ℤ) :
    flatVrtdiv I (layoutOf u v) t = getvrtdivspec I u v t := by
  unfold getvrtdivspec
  rw [layout_valid hu hv]
  rfl

theorem flat_vrt (hu : u.shape = I.nlat :: I.nlon :: extra) (hv : v.shape = I.nlat :: I.nlon :: extra) (t : Option ℤ) :
    flatVrt I (layoutOf u v) t = getvrtspec I u v t := by
  unfold getvrtspec
  rw [layout_valid hu hv]
  rfl

theorem flat_div (hu : u.shape = I.nlat :: I.nlon :: extra) (hv : v.shape = I.nlat :: I.nlon :: extra) (t : Option ℤ) :
    flatDiv I (layoutOf u v) t = getdivspec I u v t := by
  unfold getdivspec
  rw [layout_valid hu hv]
  rfl

theorem gives_both (hu : u.shape = I.nlat :: I.nlon :: extra) (hv : v.shape = I.nlat :: I.nlon :: extra) (t : Option ℤ) :
    Gives I u v (anaBothM I t) (getvrtdivspec I u v t) := by
  rw [← flat_vrtdiv hu hv]
  exact gives_layout.bind (g := fun l => flatVrtdiv I l t) fun l _ => Gives.pureM _

theorem gives_vrt (hu : u.shape = I.nlat :: I.nlon :: extra) (hv : v.shape = I.nlat :: I.nlon :: extra) (t : Option ℤ) :
    Gives I u v (anaVrtM I t) (getvrtspec I u v t) := by
  rw [← flat_vrt hu hv]
  exact gives_layout.bind (g := fun l => flatVrt I l t) fun l _ => Gives.pureM _

theorem gives_div (hu : u.shape = I.nlat :: I.nlon :: extra) (hv : v.shape = I.nlat :: I.nlon :: extra) (t : Option ℤ) :
    Gives I u v (anaDivM I t) (getdivspec I u v t) := by
  rw [← flat_div hu hv]
  exact gives_layout.bind (g := fun l => flatDiv I l t) fun l _ => Gives.pureM _

theorem Gives.of_eq {x : Method α} {r r' : Except Fail α} (h : Gives I u v x r) (e : r = r') : Gives I u v x r' := e ▸ h

theorem gives_perform (hu : u.shape = I.nlat :: I.nlon :: extra) (hv : v.shape = I.nlat :: I.nlon :: extra) (q : Query) :
    Gives I u v (perform I q) (Spec.answer I u v q) := by
  have map_bind : ∀ {α β γ : Type} (x : Except Fail α) (f : α → Except Fail β) (g : β → γ),
      (x >>= f).map g = x >>= fun a => (f a).map g := by
    intro α β γ x f g; cases x <;> rfl
  have P : ∀ {α β : Type} (x : Except Fail α) (f : α → Method β) (g : α → Except Fail β),
      (∀ a, Gives I u v (f a) (g a)) → Gives I u v (pureM x >>= f) (x >>= g) :=
    fun x f g h => (Gives.pureM x).bind fun a _ => h a
  cases q with
  | magnitude =>
    refine Gives.get fun o ho => ⟨o, ?_, ho⟩
    unfold Spec.answer
    rw [← ho.hu, ← ho.hv]; rfl
  | vrtdiv t =>
    unfold Spec.answer vrtdiv
    simp only [map_bind]
    refine (gives_both hu hv t).bind fun p _ => ?_
    refine (P _ _ (fun p : NDArr ℝ × NDArr ℝ => .ok [p.1, p.2]) fun p => Gives.ret _).of_eq ?_
    cases spectogrdPair I p.1 p.2 <;> rfl
  | vorticity t =>
    unfold Spec.answer vorticity
    simp only [map_bind]
    refine (gives_vrt hu hv t).bind fun p _ => ?_
    refine (P _ _ (fun p => .ok [p]) fun p => Gives.ret _).of_eq ?_
    cases spectogrd I p <;> rfl
  | divergence t =>
    unfold Spec.answer divergence
    simp only [map_bind]
    refine (gives_div hu hv t).bind fun p _ => ?_
    refine (P _ _ (fun p => .ok [p]) fun p => Gives.ret _).of_eq ?_
    cases spectogrd I p <;> rfl
  | planetary w => exact (gives_planetary w).bind (g := fun f => .ok [f]) fun f _ => Gives.ret _
  | absolute w t =>
    unfold Spec.answer absolutevorticity
    simp only [map_bind]
    refine (gives_vrt hu hv t).bind fun p _ => ?_
    refine P _ _ _ fun a => ?_
    exact (gives_planetary w).bind (g := fun f => .ok [addG a f]) fun f _ => Gives.ret _
  | sfvp t =>
    unfold Spec.answer sfvp
    simp only [map_bind]
    refine (gives_both hu hv t).bind fun p _ => ?_
    refine P _ _ _ fun a => P _ _ _ fun b => ?_
    refine (P _ _ (fun p : NDArr ℝ × NDArr ℝ => .ok [p.1, p.2]) fun p => Gives.ret _).of_eq ?_
    cases spectogrdPair I a b <;> rfl
  | streamfunction t =>
    unfold Spec.answer streamfunction
    simp only [map_bind]
    refine (gives_vrt hu hv t).bind fun p _ => ?_
    refine P _ _ _ fun a => ?_
    refine (P _ _ (fun p => .ok [p]) fun p => Gives.ret _).of_eq ?_
    cases spectogrd I a <;> rfl
  | velocitypotential t =>
    unfold Spec.answer velocitypotential
    simp only [map_bind]
    refine (gives_div hu hv t).bind fun p _ => ?_
    refine P _ _ _ fun a => ?_
    refine (P _ _ (fun p => .ok [p]) fun p => Gives.ret _).of_eq ?_
    cases spectogrd I a <;> rfl
  | helmholtz t =>
    unfold Spec.answer helmholtz
    simp only [map_bind]
    refine (gives_both hu hv t).bind fun p _ => ?_
    refine P _ _ _ fun a => P _ _ _ fun b => P _ _ _ fun c => P _ _ _ fun d => Gives.ret _
  | irrotational t =>
    unfold Spec.answer irrotational
    simp only [map_bind]
    refine (gives_div hu hv t).bind fun p _ => ?_
    refine P _ _ _ fun a => ?_
    refine (P _ _ (fun p : NDArr ℝ × NDArr ℝ => .ok [p.1, p.2]) fun p => Gives.ret _).of_eq ?_
    cases getgrad I a <;> rfl
  | nondivergent t =>
    unfold Spec.answer nondivergent
    simp only [map_bind]
    refine (gives_vrt hu hv t).bind fun p _ => ?_
    exact P _ _ _ fun a => P _ _ _ fun p => Gives.ret _
  | gradient chi t =>
    refine (P _ _ (fun p : NDArr ℝ × NDArr ℝ => .ok [p.1, p.2]) fun p => Gives.ret _).of_eq ?_
    show _ = (gradient I chi t).map _
    cases gradient I chi t <;> rfl
  | truncate x t =>
    refine (P _ _ (fun p => .ok [p]) fun p => Gives.ret _).of_eq ?_
    show _ = (truncate I x t).map _
    cases truncate I x t <;> rfl
  | rossby t w =>
    unfold Spec.answer rossbywavesource
    simp only [map_bind]
    refine (gives_both hu hv t).bind fun p _ => ?_
    refine P _ _ _ fun a => ?_
    refine ((gives_planetary w).bind (g := fun f => (invlapspec I p.2 >>= fun chi => getgrad I chi >>= fun c =>
      planetarySpec I (omegaOf w) t >>= fun fs => getgrad I (addRows p.1 fs) >>= fun e =>
      .ok [rwsOf (addG a.1 f) a.2 c.1 e.1 c.2 e.2])) fun f _ => ?_).of_eq rfl
    refine P _ _ _ fun chi => P _ _ _ fun c => (gives_fspec t w).bind fun fs _ => ?_
    exact P _ _ _ fun e => Gives.ret _

/-- The results of a program that only calls methods are those each call would give on a new object: they do not depend on
which methods were called before, in which order, or on which of them raised. -/
theorem C160_history_partial (hu : u.shape = I.nlat :: I.nlon :: extra) (hv : v.shape = I.nlat :: I.nlon :: extra)
    (qs : List Query) : history I (Obj.fresh u v) (qs.map Event.ask) = qs.map (Spec.answer I u v) := by
  have gen : ∀ o, Valid I u v o → history I o (qs.map Event.ask) = qs.map (Spec.answer I u v) := by
    induction qs with
    | nil => intro o _; rfl
    | cons q qs ih =>
      intro o ho
      obtain ⟨o', e, h⟩ := gives_perform hu hv q o ho
      rw [List.map_cons, List.map_cons, history, e, ih o' h]
  refine gen _ ⟨rfl, rfl, ?_, ?_, ?_, ?_⟩
  · rintro f ⟨⟩
  · rintro w f ⟨⟩
  · rintro w T s ⟨⟩
  · rintro l ⟨⟩

end Skyborn.Sphere
