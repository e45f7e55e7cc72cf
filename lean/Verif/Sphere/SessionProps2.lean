/-
Assigning the public arrays of a `VectorWind` object after its first analysis.
-/
import Verif.Sphere.SessionProps

namespace Skyborn.Sphere

open Skyborn Skyborn.Spectral

variable {I : Inst} {extra : List ℕ} {u v : NDArr ℝ}

theorem vrtdiv_kept {o : Obj} {l : Layout} (h : o.layout = some l) (t : Option ℤ) :
    (perform I (.vrtdiv t)).run.run o
      = ((flatVrtdiv I l t >>= fun p => spectogrdPair I p.1 p.2).map fun p => [p.1, p.2], o) := by
  have e1 : layoutM.run.run o = (.ok l, o) := by
    show ((match o.layout with | some l => _ | none => _) : Method Layout).run.run o = _
    rw [h]; rfl
  have e2 : (anaBothM I t).run.run o = (flatVrtdiv I l t, o) := (run_ok e1).trans rfl
  cases hf : flatVrtdiv I l t with
  | error er => rw [hf] at e2; exact run_err e2
  | ok p =>
    rw [hf] at e2
    refine (run_ok e2).trans ?_
    show (pureM (spectogrdPair I p.1 p.2) >>= _ : Method _).run.run o = ((spectogrdPair I p.1 p.2).map _, o)
    cases hp : spectogrdPair I p.1 p.2 with
    | error er => rfl
    | ok q => rfl

theorem vrtdiv_first {o : Obj} (h : o.layout = none) (t : Option ℤ) :
    (perform I (.vrtdiv t)).run.run o
      = ((flatVrtdiv I (layoutOf o.u o.v) t >>= fun p => spectogrdPair I p.1 p.2).map fun p => [p.1, p.2],
        { o with layout := some (layoutOf o.u o.v) }) := by
  have e1 : layoutM.run.run o = (.ok (layoutOf o.u o.v), { o with layout := some (layoutOf o.u o.v) }) := by
    show ((match o.layout with | some l => _ | none => _) : Method Layout).run.run o = _
    rw [h]; rfl
  have e2 : (anaBothM I t).run.run o = (flatVrtdiv I (layoutOf o.u o.v) t, { o with layout := some (layoutOf o.u o.v) }) :=
    (run_ok e1).trans rfl
  cases hf : flatVrtdiv I (layoutOf o.u o.v) t with
  | error er => rw [hf] at e2; exact run_err e2
  | ok p =>
    rw [hf] at e2
    refine (run_ok e2).trans ?_
    show (pureM (spectogrdPair I p.1 p.2) >>= _ : Method _).run.run _ = ((spectogrdPair I p.1 p.2).map _, _)
    cases hp : spectogrdPair I p.1 p.2 with
    | error er => rfl
    | ok q => rfl

/-- Once a diagnostic has been computed, assigning `vw.u` and `vw.v` changes the wind speed but not the vorticity and
divergence: these stay those of the wind given to the constructor. -/
theorem stale (hu : u.shape = I.nlat :: I.nlon :: extra) (hv : v.shape = I.nlat :: I.nlon :: extra) (u' v' : NDArr ℝ)
    (t : Option ℤ) :
    history I (Obj.fresh u v) [.ask (.vrtdiv t), .write u' v', .ask (.vrtdiv t), .ask .magnitude]
      = [Spec.answer I u v (.vrtdiv t), Spec.answer I u v (.vrtdiv t), Spec.answer I u' v' .magnitude] := by
  have key : (flatVrtdiv I (layoutOf u v) t >>= fun p => spectogrdPair I p.1 p.2) = vrtdiv I u v t := by
    rw [flat_vrtdiv hu hv]; rfl
  rw [history, vrtdiv_first (I := I) (o := Obj.fresh u v) rfl t, history, history, vrtdiv_kept (l := layoutOf u v) rfl t]
  simp only [history]
  have : layoutOf (Obj.fresh u v).u (Obj.fresh u v).v = layoutOf u v := rfl
  rw [this, key]
  rfl

/-- C160 fails for programs that assign the public arrays: `vrtdiv` of the wind assigned is not what the object returns,
while `magnitude` is. -/
theorem C160_write_false : ∃ (I : Inst) (u v u' v' : NDArr ℝ), Good I ([] ++ [2]) ∧ Spec.Regular I ∧ Spec.Exact I 3 ∧
    u.shape = [I.nlat, I.nlon] ∧ v.shape = [I.nlat, I.nlon] ∧ u'.shape = [I.nlat, I.nlon] ∧ v'.shape = [I.nlat, I.nlon] ∧
    ∃ a b c, history I (Obj.fresh u v) [.ask (.vrtdiv none), .write u' v', .ask (.vrtdiv none), .ask .magnitude] = [.ok a, .ok b, .ok c] ∧
      Spec.answer I u' v' (.vrtdiv none) ≠ .ok b ∧ Spec.answer I u' v' .magnitude = .ok c := by
  set J : Inst := ⟨5, 8, 1, .regular, .stored, fun i => Real.pi / 2 - i * (Real.pi / (((5 : ℕ) : ℝ) - 1)), fun _ _ _ => 0, fun _ _ _ _ => 0,
    fun _ _ _ _ => 0, fun _ _ _ _ => 0⟩ with hJ
  have hreg : Spec.Regular J := ⟨rfl, fun _ _ => rfl⟩
  have hrows := hreg.rows (by rw [hJ]; norm_num)
  have hc := card_interior hrows
  obtain ⟨I, h1, h2, h3, h4, h5, h6, hE⟩ := exact_exists J hrows (by rw [hJ]; norm_num) (by rw [hJ]; norm_num) (K := 3)
    (by rw [hJ]; norm_num) (by simp only [hJ] at hc ⊢; omega)
  have n1 : I.nlat = 5 := h1
  have n2 : I.nlon = 8 := h2
  have n3 : I.rsphere = 1 := h3
  have hG : Good I ([] ++ [2]) := ⟨by rw [n1]; norm_num, by rw [n2]; norm_num, by rw [n3]; norm_num, by norm_num, by rw [n1, n2]; norm_num⟩
  have hG1 := hG.of_pair
  -- the winds with a given vorticity
  set U : (ℕ → ℕ → ℂ) → NDArr ℝ := fun x => ⟨[I.nlat, I.nlon], fun idx =>
    uOn I.rsphere (vModes I.nlat I.nlon) x (fun _ _ => 0) (I.lat (idx.getD 0 0)) (I.lon (idx.getD 1 0))⟩ with hU
  set V : (ℕ → ℕ → ℂ) → NDArr ℝ := fun x => ⟨[I.nlat, I.nlon], fun idx =>
    vOn I.rsphere (vModes I.nlat I.nlon) x (fun _ _ => 0) (I.lat (idx.getD 0 0)) (I.lon (idx.getD 1 0))⟩ with hV
  have hsU : ∀ x, Spec.Samples I [] (U x) fun _ => uOn I.rsphere (vModes I.nlat I.nlon) x (fun _ _ => 0) := fun x =>
    ⟨rfl, fun e he i j hi hj => rfl⟩
  have hsV : ∀ x, Spec.Samples I [] (V x) fun _ => vOn I.rsphere (vModes I.nlat I.nlon) x (fun _ _ => 0) := fun x =>
    ⟨rfl, fun e he i j hi hj => rfl⟩
  have val : ∀ x, Spec.OnVector I.nlat I.nlon x → Spec.RealMean x → ∃ z d, vrtdiv I (U x) (V x) none = .ok (z, d) ∧
      z.get [0, 0] = Spec.seriesOn (usedS I 4) x (I.lat 0) (I.lon 0) := by
    intro x hx hm
    have ht : Spec.Truncation I.nlat none 4 := Or.inl ⟨rfl, by rw [n1]⟩
    obtain ⟨zs, ds, e1, hz, hd⟩ := getvrtdivspec_ok hG1 (hsU x).1 (hsV x).1 ht
    obtain ⟨z, d, e2, sz, sd⟩ := spectogrdPair_ok hG hz hd (by rw [n1]; norm_num)
    refine ⟨z, d, ?_, ?_⟩
    · unfold vrtdiv
      rw [e1]
      simp only [bind, Except.bind, e2]
    · have := sz.2 [] trivial 0 0 (by rw [n1]; norm_num) (by rw [n2]; norm_num)
      rw [this]
      dsimp only
      rw [(exact_spectra hE hG.pos.ne' (hsU x) (hsV x) (e := []) trivial hx (fun m n _ => rfl) hm (fun _ => rfl) rfl rfl).1]
  have ho : Spec.OnVector I.nlat I.nlon (Spec.single 0 1 1) := by
    intro m n hmn
    unfold Spec.single
    rw [if_neg]
    rintro ⟨rfl, rfl⟩
    exact hmn (mem_vModes.mpr (by omega))
  obtain ⟨z, d, ez, vz⟩ := val (Spec.single 0 1 1) ho (fun n => by unfold Spec.single; split_ifs <;> simp)
  obtain ⟨z', d', ez', vz'⟩ := val (fun _ _ => 0) (fun m n _ => rfl) (fun n => rfl)
  have hst := stale (I := I) (extra := []) (hsU (Spec.single 0 1 1)).1 (hsV (Spec.single 0 1 1)).1 (U fun _ _ => 0) (V fun _ _ => 0) none
  have hlat : I.lat 0 = Real.pi / 2 := by rw [h6, hJ]; simp
  refine ⟨I, U (Spec.single 0 1 1), V (Spec.single 0 1 1), U fun _ _ => 0, V fun _ _ => 0, hG,
    ⟨by rw [h4, hJ], fun i _ => by rw [h6, h1, hJ]⟩, hE, rfl, rfl, rfl, rfl,
    [z, d], [z, d], [speed (U fun _ _ => 0) (V fun _ _ => 0)], ?_, ?_, rfl⟩
  · rw [hst]
    simp only [Spec.answer, ez]
    rfl
  · simp only [Spec.answer, ez']
    intro hcontra
    have e : z' = z := by
      have := Except.ok.inj hcontra
      simp only [List.cons.injEq] at this
      exact this.1
    rw [e, vz] at vz'
    have e1 : Spec.seriesOn (usedS I 4) (Spec.single 0 1 1) (I.lat 0) (I.lon 0) = Real.sqrt (3 / 2) := by
      rw [usedS_eq (by rw [n1]; norm_num) (by rw [n2])]
      have := series_single (T := 4) (m := 0) (n := 1) (by omega) (by omega) 1 (I.lat 0) (I.lon 0)
      unfold Spec.series at this
      rw [this, pbar_zero_one, hlat]
      simp
    have e2 : Spec.seriesOn (usedS I 4) (fun _ _ => 0) (I.lat 0) (I.lon 0) = 0 := by
      unfold Spec.seriesOn; simp
    rw [e1, e2] at vz'
    exact (Real.sqrt_pos.mpr (by norm_num : (0:ℝ) < 3 / 2)).ne' vz'

end Skyborn.Sphere
