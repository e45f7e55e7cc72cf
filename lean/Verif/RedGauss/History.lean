/-
`ReducedGaussianSpharmt`: objects created and used in any order.
-/
import Verif.RedGauss.PyWinds

namespace Skyborn.RedGauss

open Skyborn Sphere

/-- A call of a method of an object, with its arguments (reduced_gaussian.py:695-900). -/
inductive Call
  | grdtospec (x : NDArr ℝ) (ntrunc : Option ℤ)
  | spectogrd (s : NDArr ℂ)
  | spectogrdPair (s t : NDArr ℂ)
  | getvrtdivspec (u v : NDArr ℝ) (ntrunc : Option ℤ)
  | getvrtspec (u v : NDArr ℝ) (ntrunc : Option ℤ)
  | getdivspec (u v : NDArr ℝ) (ntrunc : Option ℤ)
  | getuv (vrt div : NDArr ℂ)
  | getgrad (s : NDArr ℂ)
  | getgradPair (s t : NDArr ℂ)
  | invlapspec (s : NDArr ℂ)
  | specsmooth (x smooth : NDArr ℝ)

/-- State after a call, whatever it returned or raised. -/
noncomputable def Call.after (E E' : Env) (lib : Lib) (c : Cfg) (st : World × Caches) : Call → World × Caches
  | .grdtospec x t => (exec (grdtospecM E lib c x t) st).2
  | .spectogrd s => (exec (spectogrdM E lib c s) st).2
  | .spectogrdPair s t => (exec (spectogrdPairM E E' lib c s t) st).2
  | .getvrtdivspec u v t => (exec (getvrtdivspecM E lib c u v t) st).2
  | .getvrtspec u v t => (exec (getcomponentM E lib c u v t 1) st).2
  | .getdivspec u v t => (exec (getcomponentM E lib c u v t 2) st).2
  | .getuv a b => (exec (getuvM E lib c a b) st).2
  | .getgrad s => (exec (getgradM E lib c s) st).2
  | .getgradPair s t => (exec (getgradPairM E lib c s t) st).2
  | .invlapspec s => (exec (invlapspecM c s) st).2
  | .specsmooth x f => (exec (specsmoothM E E' lib c x f) st).2

/-- What a program can have done so far: the module's state and the objects alive (attributes and dictionaries). The
schedules and the contents of uninitialised memory may differ from call to call. -/
inductive Reach (lib : Lib) : World → List (Cfg × Caches) → Prop
  | start : Reach lib World.fresh []
  | create {W W' : World} {objs : List (Cfg × Caches)} {pl : NDArr ℤ} {r : ℝ} {legfunc precision : String} {c : Cfg} :
      Reach lib W objs → construct lib W pl r legfunc precision = .ok (c, W') → Reach lib W' (objs ++ [(c, Caches.fresh)])
  | call {W : World} {pre post : List (Cfg × Caches)} {c : Cfg} {C : Caches} (E E' : Env) (k : Call) :
      E.ok → E'.ok → Reach lib W (pre ++ (c, C) :: post) →
      Reach lib (k.after E E' lib c (W, C)).1 (pre ++ (c, (k.after E E' lib c (W, C)).2) :: post)
  | drop {W : World} {pre post : List (Cfg × Caches)} {o : Cfg × Caches} : Reach lib W (pre ++ o :: post) → Reach lib W (pre ++ post)

variable {lib : Lib} {c : Cfg} {E E' : Env}

theorem Call.after_good (hE : E.ok) (hE' : E'.ok) (hl : lib.Sound) (hc : c.Valid lib) {st : World × Caches} (hs : Good lib c.nlat st) (k : Call) :
    Good lib c.nlat (k.after E E' lib c st) := by
  cases k with
  | grdtospec x t => exact (grdtospecM_tri hE hl hc x t).keeps hs
  | spectogrd s => exact (spectogrdM_tri hE hl hc s).keeps hs
  | spectogrdPair s t => exact (spectogrdPairM_tri hE hE' hl hc s t).keeps hs
  | getvrtdivspec u v t => exact (getvrtdivspecM_tri hE hl hc u v t).keeps hs
  | getvrtspec u v t => exact (getcomponentM_tri (.inl rfl) hE hl hc u v t).keeps hs
  | getdivspec u v t => exact (getcomponentM_tri (.inr rfl) hE hl hc u v t).keeps hs
  | getuv a b => exact (getuvM_tri hE hl hc a b).keeps hs
  | getgrad s => exact (getgradM_tri hE hl hc s).keeps hs
  | getgradPair s t => exact (getgradPairM_tri hE hl hc s t).keeps hs
  | invlapspec s => show Good lib c.nlat (exec (invlapspecM c s) st).2; rw [invlapspecM_keeps]; exact hs
  | specsmooth x f => exact (specsmoothM_tri hE hE' hl hc x f).keeps hs

theorem Reach.good (hl : lib.Sound) {W : World} {objs : List (Cfg × Caches)} (h : Reach lib W objs) :
    WorldGood lib W ∧ ∀ o ∈ objs, o.1.Valid lib ∧ CachesGood lib o.1.nlat o.2 := by
  induction h with
  | start => exact ⟨worldGood_fresh lib, by simp⟩
  | create _ hcon ih =>
    obtain ⟨h1, h2⟩ := construct_good ih.1 hcon
    refine ⟨h2, fun o ho => ?_⟩
    rcases List.mem_append.mp ho with ho | ho
    · exact ih.2 o ho
    · simp at ho; subst ho; exact ⟨h1, cachesGood_fresh _ _⟩
  | @call W pre post c C E E' k hE hE' _ ih =>
    have ho := ih.2 (c, C) (by simp)
    have := Call.after_good hE hE' hl ho.1 (st := (W, C)) ⟨ih.1, ho.2⟩ k
    refine ⟨this.1, fun o h => ?_⟩
    simp only [List.mem_append, List.mem_cons] at h
    rcases h with h | rfl | h
    · exact ih.2 o (by simp [h])
    · exact ⟨ho.1, this.2⟩
    · exact ih.2 o (by simp [h])
  | drop _ ih =>
    refine ⟨ih.1, fun o h => ih.2 o ?_⟩
    simp only [List.mem_append, List.mem_cons] at h ⊢
    rcases h with h | h
    · exact .inl h
    · exact .inr (.inr h)

/-- A state in which a method of the object with attributes `c` can be called. -/
def Live (lib : Lib) (c : Cfg) (st : World × Caches) : Prop := ∃ objs, Reach lib st.1 objs ∧ (c, st.2) ∈ objs

theorem Live.good (hl : lib.Sound) {st : World × Caches} (h : Live lib c st) : c.Valid lib ∧ Good lib c.nlat st := by
  obtain ⟨objs, hr, ho⟩ := h
  have := hr.good hl
  exact ⟨(this.2 _ ho).1, this.1, (this.2 _ ho).2⟩

/-- A call that the refusals exclude succeeds. -/
theorem Live.run {α : Type} {x : M α} {φ : α → Prop} {ε : Fail → Prop} (hl : lib.Sound) {st : World × Caches} (h : Live lib c st)
    (ht : Tri (Good lib c.nlat) x φ ε) (hε : ∀ e, ¬ ε e) : ∃ r st', exec x st = (.ok r, st') ∧ φ r := by
  obtain ⟨a, s', h1, _, h3⟩ := Tri.ok (ht.mono (fun _ h => h) fun e he => hε e he) (h.good hl).2
  exact ⟨a, s', h1, h3⟩

end Skyborn.RedGauss
