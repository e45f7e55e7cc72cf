/-
`ReducedVectorWind`: objects created and used in any order, with transform objects in between.
-/
import Verif.RedWind.Methods
import Verif.RedGauss.History

namespace Skyborn.RedWind

open Skyborn RedGauss

/-- A call of a method of a wind object, with its arguments (reduced.py:372-494), or of a method of its transform `w.s`. -/
inductive WCall
  | magnitude
  | vrtdiv (t : Option ℤ)
  | vorticity (t : Option ℤ)
  | divergence (t : Option ℤ)
  | planetaryvorticity (omega : Option ℝ)
  | absolutevorticity (omega : Option ℝ) (t : Option ℤ)
  | sfvp (t : Option ℤ)
  | streamfunction (t : Option ℤ)
  | velocitypotential (t : Option ℤ)
  | helmholtz (t : Option ℤ)
  | irrotationalcomponent (t : Option ℤ)
  | nondivergentcomponent (t : Option ℤ)
  | gradient (x : NDArr (Option ℝ)) (t : Option ℤ)
  | truncate (x : NDArr (Option ℝ)) (t : Option ℤ)
  | rossbywavesource (t : Option ℤ) (omega : Option ℝ)
  | transform (k : Call)

/-- State after a call, whatever it returned or raised. -/
noncomputable def WCall.after (Es : ℕ → Env) (lib : Lib) (w : WCfg) (st : St) : WCall → St
  | .magnitude => st
  | .vrtdiv t => (run (RedWind.vrtdiv Es lib w t) st).2
  | .vorticity t => (run (RedWind.vorticity Es lib w t) st).2
  | .divergence t => (run (RedWind.divergence Es lib w t) st).2
  | .planetaryvorticity o => (run (RedWind.planetaryvorticity lib w o) st).2
  | .absolutevorticity o t => (run (RedWind.absolutevorticity Es lib w o t) st).2
  | .sfvp t => (run (RedWind.sfvp Es lib w t) st).2
  | .streamfunction t => (run (RedWind.streamfunction Es lib w t) st).2
  | .velocitypotential t => (run (RedWind.velocitypotential Es lib w t) st).2
  | .helmholtz t => (run (RedWind.helmholtz Es lib w t) st).2
  | .irrotationalcomponent t => (run (irrotational Es lib w t) st).2
  | .nondivergentcomponent t => (run (nondivergent Es lib w t) st).2
  | .gradient x t => (run (RedWind.gradient Es lib w x t) st).2
  | .truncate x t => (run (RedWind.truncate Es lib w x t) st).2
  | .rossbywavesource t o => (run (RedWind.rossbywavesource Es lib w t o) st).2
  | .transform k => (k.after (Es 0) (Es 1) lib w.cfg st.1, st.2)

/-- What a program can have done so far: the module's state, the transform objects and the wind objects alive (attributes
and dictionaries). The schedules and the contents of uninitialised memory may differ from call to call. -/
inductive ReachW (lib : Lib) : World → List (Cfg × Caches) → List (WCfg × Caches × WCaches) → Prop
  | start : ReachW lib World.fresh [] []
  | createTransform {W W' : World} {objs : List (Cfg × Caches)} {winds : List (WCfg × Caches × WCaches)} {pl : NDArr ℤ} {r : ℝ} {legfunc precision : String} {c : Cfg} :
      ReachW lib W objs winds → RedGauss.construct lib W pl r legfunc precision = .ok (c, W') → ReachW lib W' (objs ++ [(c, Caches.fresh)]) winds
  | callTransform {W : World} {pre post : List (Cfg × Caches)} {c : Cfg} {C : Caches} {winds : List (WCfg × Caches × WCaches)} (E E' : Env) (k : Call) :
      E.ok → E'.ok → ReachW lib W (pre ++ (c, C) :: post) winds →
      ReachW lib (k.after E E' lib c (W, C)).1 (pre ++ (c, (k.after E E' lib c (W, C)).2) :: post) winds
  | dropTransform {W : World} {pre post : List (Cfg × Caches)} {o : Cfg × Caches} {winds : List (WCfg × Caches × WCaches)} :
      ReachW lib W (pre ++ o :: post) winds → ReachW lib W (pre ++ post) winds
  | create {W W' : World} {objs : List (Cfg × Caches)} {winds : List (WCfg × Caches × WCaches)} {u v : NDArr (Option ℝ)} {du dv : NPType} {pl : NDArr ℤ} {r : ℝ}
      {legfunc precision : String} {w : WCfg} :
      ReachW lib W objs winds → construct lib W u v du dv pl r legfunc precision = .ok (w, W') → ReachW lib W' objs (winds ++ [(w, Caches.fresh, WCaches.fresh)])
  | call {W : World} {objs : List (Cfg × Caches)} {pre post : List (WCfg × Caches × WCaches)} {w : WCfg} {C : Caches} {D : WCaches} (Es : ℕ → Env) (k : WCall) :
      (∀ i, (Es i).ok) → ReachW lib W objs (pre ++ (w, C, D) :: post) →
      ReachW lib (k.after Es lib w ((W, C), D)).1.1 objs (pre ++ (w, (k.after Es lib w ((W, C), D)).1.2, (k.after Es lib w ((W, C), D)).2) :: post)
  | drop {W : World} {objs : List (Cfg × Caches)} {pre post : List (WCfg × Caches × WCaches)} {o : WCfg × Caches × WCaches} :
      ReachW lib W objs (pre ++ o :: post) → ReachW lib W objs (pre ++ post)

variable {lib : Lib} {w : WCfg} {Es : ℕ → Env}

theorem WCall.after_good (hEs : ∀ i, (Es i).ok) (hl : lib.Sound) (hw : w.Valid lib) {st : St} (hs : GoodSt lib w st) (k : WCall) :
    GoodSt lib w (k.after Es lib w st) := by
  cases k with
  | magnitude => exact hs
  | vrtdiv t => exact (vrtdiv_tri hEs hl hw t).keeps hs
  | vorticity t => exact (vorticity_tri hEs hl hw t).keeps hs
  | divergence t => exact (divergence_tri hEs hl hw t).keeps hs
  | planetaryvorticity o => exact (planetary_tri hw o true).keeps hs
  | absolutevorticity o t => exact (absolutevorticity_tri hEs hl hw t o).keeps hs
  | sfvp t => exact (sfvp_tri hEs hl hw t).keeps hs
  | streamfunction t => exact (streamfunction_tri hEs hl hw t).keeps hs
  | velocitypotential t => exact (velocitypotential_tri hEs hl hw t).keeps hs
  | helmholtz t => exact (helmholtz_tri hEs hl hw t).keeps hs
  | irrotationalcomponent t => exact (irrotational_tri hEs hl hw t).keeps hs
  | nondivergentcomponent t => exact (nondivergent_tri hEs hl hw t).keeps hs
  | gradient x t => exact (gradient_tri hEs hl hw x t).keeps hs
  | truncate x t => exact (truncate_tri hEs hl hw x t).keeps hs
  | rossbywavesource t o => exact (rossby_tri hEs hl hw t o).keeps hs
  | transform k => exact ⟨Call.after_good (hEs 0) (hEs 1) hl hw.hc hs.1 k, hs.2⟩

/-- What a construction that succeeds has checked and stored. -/
theorem construct_parts {W W' : World} {u v : NDArr (Option ℝ)} {du dv : NPType} {pl : NDArr ℤ} {r : ℝ} {lf p : String}
    (h : construct lib W u v du dv pl r lf p = .ok (w, W')) :
    RedGauss.construct lib W pl r lf p = .ok (w.cfg, W') ∧ u.shape = v.shape ∧ finite u ∧ finite v ∧
      (∃ n, pl.shape = [n] ∧ u.shape = ((List.range n).map fun j => (pl.get [j]).toNat).sum :: w.extra) ∧
      w.outType = inferType [du, dv] ∧ w.u = values u ∧ w.v = values v ∧ (values u).reshape [u.shape.headD 0, w.extra.prod] = some w.ub ∧
      (values v).reshape [u.shape.headD 0, w.extra.prod] = some w.vb := by
  unfold construct at h
  split at h
  · rename_i n hn
    by_cases h1 : n < 3
    · rw [if_pos h1] at h; cases h
    rw [if_neg h1] at h
    split at h
    · cases h
    cases hp : validatePrecision p with
    | error e => rw [hp] at h; cases h
    | ok q =>
      rw [hp] at h
      dsimp only at h
      by_cases h3 : u.shape = v.shape
      swap
      · rw [if_pos h3] at h; cases h
      rw [if_neg (not_not.mpr h3)] at h
      cases hp : u.shape with
      | nil => rw [hp] at h; cases h
      | cons m extra =>
        rw [hp] at h
        dsimp only at h
        by_cases h4 : m = ((List.range n).map fun j => (pl.get [j]).toNat).sum
        swap
        · rw [if_pos h4] at h; cases h
        rw [if_neg (not_not.mpr h4)] at h
        by_cases h5 : ¬ finite u ∨ ¬ finite v
        · rw [if_pos h5] at h; cases h
        rw [if_neg h5] at h
        push Not at h5
        cases hub : (values u).reshape [m, extra.prod] with
        | none => rw [hub] at h; cases h
        | some ub =>
          cases hvb : (values v).reshape [m, extra.prod] with
          | none => rw [hub, hvb] at h; cases h
          | some vb =>
            rw [hub, hvb] at h
            dsimp only at h
            cases hc : RedGauss.construct lib W pl r lf p with
            | error e => rw [hc] at h; cases h
            | ok x =>
              rw [hc] at h
              simp only [Except.ok.injEq, Prod.mk.injEq] at h
              obtain ⟨rfl, rfl⟩ := h
              exact ⟨rfl, hp ▸ h3, h5.1, h5.2, ⟨n, hn, by rw [h4]⟩, rfl, rfl, rfl, hub, hvb⟩
  · cases h

theorem npoints_of_construct {W W' : World} {pl : NDArr ℤ} {r : ℝ} {lf p : String} {c : Cfg} {n : ℕ} (hn : pl.shape = [n])
    (h : RedGauss.construct lib W pl r lf p = .ok (c, W')) : c.pl = (List.range n).map fun j => (pl.get [j]).toNat := by
  unfold RedGauss.construct at h
  simp only [hn] at h
  split_ifs at h with h1 h2 h3 h4
  · split at h <;> cases h
  split at h
  · cases h
  · simp only [Except.ok.injEq, Prod.mk.injEq] at h
    obtain ⟨rfl, _⟩ := h
    rfl

theorem construct_valid {W W' : World} (hW : WorldGood lib W) {u v : NDArr (Option ℝ)} {du dv : NPType} {pl : NDArr ℤ} {r : ℝ} {lf p : String}
    (h : construct lib W u v du dv pl r lf p = .ok (w, W')) : w.Valid lib ∧ WorldGood lib W' := by
  obtain ⟨h1, h2, _, _, ⟨n, hn, hsh⟩, _, hu, hv, hub, hvb⟩ := construct_parts h
  obtain ⟨hc, hW'⟩ := RedGauss.construct_good hW h1
  have hpl := npoints_of_construct hn h1
  have hnp : u.shape = w.cfg.npoints :: w.extra := by rw [hsh, ← hpl]; rfl
  have hus : (values u).shape = w.cfg.npoints :: w.extra := hnp
  have hvs : (values v).shape = w.cfg.npoints :: w.extra := by rw [← hnp, h2]; rfl
  have hd : u.shape.headD 0 = w.cfg.npoints := by rw [hnp]; rfl
  rw [hd] at hub hvb
  obtain ⟨y, y1, y2, y3⟩ := reshape_values hus
  obtain ⟨z, z1, z2, z3⟩ := reshape_values hvs
  rw [y1] at hub; rw [z1] at hvb
  obtain rfl := Option.some.inj hub
  obtain rfl := Option.some.inj hvb
  refine ⟨⟨hc, by rw [hu, hus], by rw [hv, hvs], y2, ?_, ?_⟩, hW'⟩
  · rw [hu]; exact y3
  · rw [hv]; exact z3

theorem ReachW.good (hl : lib.Sound) {W : World} {objs : List (Cfg × Caches)} {winds : List (WCfg × Caches × WCaches)} (h : ReachW lib W objs winds) :
    WorldGood lib W ∧ (∀ o ∈ objs, o.1.Valid lib ∧ CachesGood lib o.1.nlat o.2) ∧
      ∀ o ∈ winds, o.1.Valid lib ∧ CachesGood lib o.1.cfg.nlat o.2.1 ∧ WGood lib o.1 o.2.2 := by
  induction h with
  | start => exact ⟨worldGood_fresh lib, by simp, by simp⟩
  | createTransform _ hcon ih =>
    obtain ⟨h1, h2⟩ := RedGauss.construct_good ih.1 hcon
    refine ⟨h2, fun o ho => ?_, ih.2.2⟩
    rcases List.mem_append.mp ho with ho | ho
    · exact ih.2.1 o ho
    · simp at ho; subst ho; exact ⟨h1, cachesGood_fresh _ _⟩
  | @callTransform W pre post c C winds E E' k hE hE' _ ih =>
    have ho := ih.2.1 (c, C) (by simp)
    have := Call.after_good hE hE' hl ho.1 (st := (W, C)) ⟨ih.1, ho.2⟩ k
    refine ⟨this.1, fun o h => ?_, ih.2.2⟩
    simp only [List.mem_append, List.mem_cons] at h
    rcases h with h | rfl | h
    · exact ih.2.1 o (by simp [h])
    · exact ⟨ho.1, this.2⟩
    · exact ih.2.1 o (by simp [h])
  | dropTransform _ ih =>
    refine ⟨ih.1, fun o h => ih.2.1 o ?_, ih.2.2⟩
    simp only [List.mem_append, List.mem_cons] at h ⊢
    tauto
  | create _ hcon ih =>
    obtain ⟨h1, h2⟩ := construct_valid ih.1 hcon
    refine ⟨h2, ih.2.1, fun o ho => ?_⟩
    rcases List.mem_append.mp ho with ho | ho
    · exact ih.2.2 o ho
    · simp at ho; subst ho; exact ⟨h1, cachesGood_fresh _ _, wGood_fresh _ _⟩
  | @call W objs pre post w C D Es k hEs _ ih =>
    have ho := ih.2.2 (w, C, D) (by simp)
    have := WCall.after_good hEs hl ho.1 (st := ((W, C), D)) ⟨⟨ih.1, ho.2.1⟩, ho.2.2⟩ k
    refine ⟨this.1.1, ih.2.1, fun o h => ?_⟩
    simp only [List.mem_append, List.mem_cons] at h
    rcases h with h | rfl | h
    · exact ih.2.2 o (by simp [h])
    · exact ⟨ho.1, this.1.2, this.2⟩
    · exact ih.2.2 o (by simp [h])
  | drop _ ih =>
    refine ⟨ih.1, ih.2.1, fun o h => ih.2.2 o ?_⟩
    simp only [List.mem_append, List.mem_cons] at h ⊢
    tauto

/-- A state in which a method of the wind object with attributes `w` can be called: some program can have led to it. -/
def LiveW (lib : Lib) (w : WCfg) (st : St) : Prop := ∃ objs winds, ReachW lib st.1.1 objs winds ∧ (w, st.1.2, st.2) ∈ winds

theorem LiveW.good (hl : lib.Sound) {st : St} (h : LiveW lib w st) : w.Valid lib ∧ GoodSt lib w st := by
  obtain ⟨objs, winds, hr, ho⟩ := h
  have := hr.good hl
  exact ⟨(this.2.2 _ ho).1, ⟨this.1, (this.2.2 _ ho).2.1⟩, (this.2.2 _ ho).2.2⟩

/-- A call that the refusals exclude succeeds. -/
theorem LiveW.run {α : Type} {x : MW α} {φ : α → Prop} {ε : Fail → Prop} (hl : lib.Sound) {st : St} (h : LiveW lib w st)
    (ht : TriW (GoodSt lib w) x φ ε) (hε : ∀ e, ¬ ε e) : ∃ r st', RedWind.run x st = (.ok r, st') ∧ φ r := by
  obtain ⟨a, s', h1, _, h3⟩ := TriW.ok (ht.mono (fun _ h => h) fun e he => hε e he) (h.good hl).2
  exact ⟨a, s', h1, h3⟩

/-- After a call the object is still there. -/
theorem LiveW.step {st : St} (h : LiveW lib w st) (hEs : ∀ i, (Es i).ok) (k : WCall) : LiveW lib w (k.after Es lib w st) := by
  obtain ⟨objs, winds, hr, ho⟩ := h
  obtain ⟨pre, post, rfl⟩ := List.append_of_mem ho
  obtain ⟨⟨W, C⟩, D⟩ := st
  exact ⟨_, _, .call Es k hEs hr, by simp⟩

end Skyborn.RedWind
