/-
Objects and libraries that meet the hypotheses of the theorems about `ReducedGaussianSpharmt`, and C211 on grids whose
rows get shorter towards the equator.
-/
import Verif.RedGauss.Refuse

namespace Skyborn.RedGauss

open Skyborn Sphere

variable {lib : Lib} {c : Cfg} {E : Env}

/-! ### A library -/

/-- Three Gaussian rows, equally spaced rows otherwise; the normalised Legendre functions. -/
noncomputable def lib3 : Lib where
  theta n j := if n = 3 then theta3 j else Real.pi * j / (n + 1)
  weight n j := if n = 3 then weight3 j else 1
  leg n m k i := pbar m k (if n = 3 then theta3 i else Real.pi * i / (n + 1))

theorem lib3_sound : lib3.Sound := by
  refine ⟨fun n hn => ?_, fun n _ m k i _ _ _ _ => rfl⟩
  by_cases h : n = 3
  · subst h
    have e1 : lib3.theta 3 = theta3 := by funext j; simp [lib3]
    have e2 : lib3.weight 3 = weight3 := by funext j; simp [lib3]
    rw [e1, e2]; exact rows3
  · have hp := Real.pi_pos
    have hn0 : (0 : ℝ) < n + 1 := by positivity
    refine ⟨fun j h1 h2 => ?_, fun j h1 h2 => ?_, fun j h1 h2 => ?_⟩
    · simp only [lib3, if_neg h]
      have a : (1 : ℝ) ≤ j := by exact_mod_cast h1
      have b : (j : ℝ) ≤ n := by exact_mod_cast h2
      exact ⟨by positivity, by rw [div_lt_iff₀ hn0]; nlinarith⟩
    · simp only [lib3, if_neg h]
      rw [show ((n - j + 1 : ℕ) : ℝ) = n - j + 1 by rw [Nat.cast_add, Nat.cast_sub h2]; simp]
      field_simp; ring
    · simp only [lib3, if_neg h]

theorem lib3_gauss : Sphere.Spec.Gauss 3 (lib3.theta 3) (lib3.weight 3) := by
  have e1 : lib3.theta 3 = theta3 := by funext j; simp [lib3]
  have e2 : lib3.weight 3 = weight3 := by funext j; simp [lib3]
  rw [e1, e2]; exact gauss3

/-- Every grid can be made, and its methods can then be called. -/
theorem exists_live (lib : Lib) {pl : List ℕ} (h3 : 3 ≤ pl.length) (h4 : ∀ p ∈ pl, 4 ≤ p) {r : ℝ} (hr : 0 < r) :
    ∃ c st, Live lib c st ∧ c.pl = pl ∧ c.rsphere = r := by
  let a : NDArr ℤ := ⟨[pl.length], fun idx => match idx with | [j] => (pl.getD j 0 : ℤ) | _ => 0⟩
  have hpl : (List.range pl.length).map (fun j => (a.get [j]).toNat) = pl := by
    refine List.ext_getElem (by simp) fun j h1 h2 => ?_
    simp [a, List.getD_eq_getElem?_getD]
    simp at h1
    simp [h1]
  have hcon : construct lib World.fresh a r "stored" "auto" = .ok (⟨(List.range pl.length).map fun j => (a.get [j]).toNat, r, "stored", .auto,
      (geometry lib World.fresh pl.length).1.1, (geometry lib World.fresh pl.length).1.2⟩, (geometry lib World.fresh pl.length).2) := by
    unfold construct
    show (if pl.length < 3 then _ else _) = _
    rw [if_neg (by omega), if_neg, if_neg (by simp)]
    · have : validatePrecision "auto" = .ok .auto := by decide +kernel
      rw [this]
      dsimp only
      rw [if_neg (not_le.mpr hr)]
    · intro h
      obtain ⟨j, hj, h⟩ := List.any_eq_true.mp h
      have hj := List.mem_range.mp hj
      have := h4 pl[j] (List.getElem_mem hj)
      simp [a, List.getD_eq_getElem?_getD, hj] at h
      omega
  exact ⟨⟨(List.range pl.length).map fun j => (a.get [j]).toNat, r, "stored", .auto, (geometry lib World.fresh pl.length).1.1, (geometry lib World.fresh pl.length).1.2⟩,
    (_, Caches.fresh), ⟨_, .create .start hcon, by simp⟩, hpl, rfl⟩

/-- Loops in their written order, memory full of `x`. -/
noncomputable def plainEnv (x : ℝ) : Env := ⟨id, fun _ _ _ => x, fun _ _ _ _ => x, fun _ _ => x, fun _ _ _ _ => x⟩

theorem plainEnv_ok (x : ℝ) : (plainEnv x).ok := fun _ => .refl _

/-! ### Memory -/

theorem vecRow_short {E : Env} {j plan N T : ℕ} (xu xv : ℕ → ℝ) (c : VecC) {m : ℕ} (hm : N < 2 * m) : (vecRow E j plan N T xu xv c).at j m = c.at j m := by
  unfold vecRow
  dsimp only
  have hm0 : m ≠ 0 := by omega
  refine doLoop_inv (lo := 1) (hi := min T (N / 2)) (by omega) (fun _ s => VecC.at s j m = c.at j m) ?_ ?_
  · unfold VecC.at; simp [Function.update_of_ne hm0]
  · intro p w h1 h2 ih
    have hp : m ≠ p := by omega
    unfold VecC.at at ih ⊢
    simpa [Function.update_of_ne hp] using ih

theorem vecRows_short {E : Env} (hE : E.ok) {plan pl offs : ℕ → ℕ} {nlat T : ℕ} (u v : ℕ → ℝ) (c : VecC) {j m : ℕ} (hm : pl j < 2 * m) :
    (vecRows E plan pl offs nlat T u v c).at j m = c.at j m := by
  unfold vecRows
  refine parLoop_keep hE (fun d : VecC => d.at j m = c.at j m) rfl fun i s _ _ h => ?_
  by_cases hi : j = i
  · subst hi; rw [vecRow_short _ _ _ hm]; exact h
  · rw [VecC.at_of_row (vecRow_other _ _ _ hi), h]

theorem circleCoef_zero (N m : ℕ) : Spec.circleCoef N (fun _ => 0) m = 0 := by simp [Spec.circleCoef]

/-- The coefficient of order and degree 3 on a grid of 8, 4, 4 and 8 points is taken from memory when there is no wind. -/
theorem getvrtspec_memory {E : Env} (hE : E.ok) {fc : Option FftCache} (hfc : CacheGood fc) {u v : ℕ → ℕ → ℝ} {pl : ℕ → ℕ} {w sinTheta : ℕ → ℝ} {basis dbasis : ℕ → ℕ → ℝ} {r : ℝ}
    {ngptot : ℕ} (ha : VecArgs pl w basis dbasis sinTheta 4 3) (hr : 0 < r) (htot : Spec.rowStart pl (4 + 1) = ngptot)
    (h1 : pl 1 = 8) (h2 : pl 2 = 4) (h3 : pl 3 = 4) (h4 : pl 4 = 8)
    (hu : ∀ j i, 1 ≤ j → j ≤ 4 → 1 ≤ i → i ≤ pl j → u (Spec.rowStart pl j + i) 1 = 0) (hv : ∀ j i, 1 ≤ j → j ≤ 4 → 1 ≤ i → i ≤ pl j → v (Spec.rowStart pl j + i) 1 = 0) :
    ∃ out fc', getvecspecComponent E fc u v pl w basis dbasis sinTheta ngptot 4 3 1 r 1 = .ok (out, fc') ∧ CacheGood (some fc') ∧
      out (nmOf 3 3 3) 1 = (vecTerm (3 * (w 2 * (1 / r) / sinTheta 2) * basis 2 (nmOf 3 3 3)) (w 2 * (1 / r) * dbasis 2 (nmOf 3 3 3))
        ((E.vecC.at 2 3).add (E.vecC.at 3 3)) ((E.vecC.at 2 3).sub (E.vecC.at 3 3))).2 := by
  obtain ⟨offs, hs, ho⟩ := scanRows_ok (nlat := 4) (pl := pl) (good := fun j => decide (¬ sinTheta j ≤ 0))
    fun j h1 h2 => ⟨ha.hpl j h1 h2, by simpa using ha.hsin j h1 h2⟩
  obtain ⟨hplan, hcache⟩ := prepare_plan hfc 4 pl
  unfold getvecspecComponent
  rw [if_neg (by omega), if_neg (by omega), if_neg (by omega), if_neg (by linarith), if_neg (by omega), hs]
  dsimp only
  rw [if_neg (by simpa using htot)]
  refine ⟨_, _, rfl, hcache, ?_⟩
  simp only [selHom_eq]
  have hsym : symmetricPl 4 pl = true := symmetricPl_iff.mpr fun j j1 j2 => by
    have : j = 1 ∨ j = 2 := by omega
    rcases this with rfl | rfl
    · exact h1.trans h4.symm
    · exact h2.trans h3.symm
  rw [hsym]
  unfold vecSlices
  rw [show doLoop 1 1 = fun (s : (ℕ → ℕ → ℂ) × VecC) f => f 1 s from rfl]
  dsimp only
  have hrow := fun j m => @vecRows_eq E hE (prepare fc 4 pl).plan pl offs 4 3 hplan ha.hpl (fun p => u p 1) (fun p => v p 1) E.vecC j m
  have hshort := fun j m => @vecRows_short E hE (prepare fc 4 pl).plan pl offs 4 3 (fun p => u p 1) (fun p => v p 1) E.vecC j m
  generalize vecRows E (prepare fc 4 pl).plan pl offs 4 3 (fun p => u p 1) (fun p => v p 1) E.vecC = d at hrow hshort ⊢
  have hz : ∀ j, 1 ≤ j → j ≤ 4 → pl j = 8 → d.at j 3 = ⟨0, 0, 0, 0⟩ := by
    intro j j1 j2 hj
    obtain ⟨a1, a2, a3⟩ := hrow j 3 j1 j2 (by omega) (by omega)
    obtain ⟨a3, a4⟩ := a3 (by omega)
    have eu : Spec.circleCoef (pl j) (fun i => u (offs j + i) 1) 3 = 0 := by
      rw [ho j j1 (by omega), ← circleCoef_zero (pl j) 3]
      exact circleCoef_congr' fun i i1 i2 => hu j i j1 j2 i1 i2
    have ev : Spec.circleCoef (pl j) (fun i => v (offs j + i) 1) 3 = 0 := by
      rw [ho j j1 (by omega), ← circleCoef_zero (pl j) 3]
      exact circleCoef_congr' fun i i1 i2 => hv j i j1 j2 i1 i2
    beta_reduce at a1 a2 a3 a4
    rw [eu] at a1 a3
    rw [ev] at a2 a4
    simp at a1 a2 a3 a4
    unfold VecC.at at a1 a2 a3 a4 ⊢
    simp only at a1 a2 a3 a4
    rw [a1, a2, a3, a4]
  have hd1 := hz 1 (by omega) (by omega) h1
  have hd4 := hz 4 (by omega) (by omega) h4
  have hd2 := hshort 2 3 (by omega)
  have hd3 := hshort 3 3 (by omega)
  refine parLoop_post hE (j := 3) (fun o : ℕ → ℕ → ℂ => o (nmOf 3 3 3) 1 = _) (by omega) (by omega) ?_ ?_
  · intro o
    rw [(putOrder_eq (by omega) _ _).1 3 (by omega) (by omega)]
    unfold vecOrder
    dsimp only
    rw [if_pos rfl, if_neg (by omega), if_neg (by omega)]
    have hf : firstFrom 2 pl (2 * 3) 1 = 1 := by rw [firstFrom, if_neg (by omega)]
    rw [show (4 / 2 : ℕ) = 2 from rfl, hf, show ∀ (s : ℕ → ℂ) f, doLoop 1 2 s f = f 2 (f 1 s) from fun _ _ => rfl]
    rw [pairParity_eq (le_refl 3), pairParity_eq (le_refl 3)]
    unfold addDeg alt
    simp only [show (4 - 1 + 1 : ℕ) = 4 from rfl, show (4 - 2 + 1 : ℕ) = 3 from rfl, hd1, hd2, hd3, hd4]
    have e0 : ∀ pw dw : ℝ, vecTerm pw dw (Four.add ⟨0, 0, 0, 0⟩ ⟨0, 0, 0, 0⟩) (Four.sub ⟨0, 0, 0, 0⟩ ⟨0, 0, 0, 0⟩) = 0 := by
      intro pw dw; unfold vecTerm Four.add Four.sub
      refine Prod.ext ?_ ?_ <;> apply Complex.ext <;> simp
    simp [e0, ← selHom_eq]
  · intro m' o _ hm' hne ho
    rw [(putOrder_eq hm' _ _).2 _ _ ?_]
    · exact ho
    · rintro ⟨_, n', a1, a2, a3⟩
      exact hne (nmOf_inj (le_refl 3) (le_refl 3) a1 a2 a3).1.symm

theorem pbar_top_ne {m : ℕ} {θ : ℝ} (h : Real.sin θ ≠ 0) : pbar m m θ ≠ 0 := by
  unfold pbar
  rw [show m + m = m + m from rfl, rod_top]
  have hn : Sphere.norm m m ≠ 0 := by
    intro h
    have := norm_sq (le_refl m)
    rw [h] at this; simp at this
  simp only [Polynomial.eval_C]
  positivity

theorem analyzeComponent_memory {E : Env} (hE : E.ok) (hl : lib.Sound) (hc : c.Valid lib) (hpl : c.pl = [8, 4, 4, 8]) {u v : ℕ → ℕ → ℝ}
    (hu : ∀ j i, 1 ≤ j → j ≤ 4 → 1 ≤ i → i ≤ c.row j → u (Spec.rowStart c.row j + i) 1 = 0) (hv : ∀ j i, 1 ≤ j → j ≤ 4 → 1 ≤ i → i ≤ c.row j → v (Spec.rowStart c.row j + i) 1 = 0) :
    Tri (Good lib c.nlat) (analyzeComponent E lib c 1 u v (some ((3 : ℕ) : ℤ)) 1)
      (fun out => ∃ d : ℝ, out (Spec.pos 3 3 3) 1 = (vecTerm (3 * (lib.weight 4 2 * (1 / c.rsphere) / Real.sin (lib.theta 4 2)) * pbar 3 3 (lib.theta 4 2)) d
        ((E.vecC.at 2 3).add (E.vecC.at 3 3)) ((E.vecC.at 2 3).sub (E.vecC.at 3 3))).2) (fun _ => False) := by
  have hn : c.nlat = 4 := by unfold Cfg.nlat; rw [hpl]; rfl
  have hT : 3 ≤ c.nlat - 1 := by omega
  refine (Tri.lift_ok (φ := fun a => 3 = a) (ntrunc_some hT hc.h3) rfl).bind ?_
  rintro _ rfl
  refine ((basisTM_tri hl hc.h3 hT).mono (fun _ h => h) fun _ h => h.elim).bind fun b hb => ?_
  refine ((dbasisTM_tri hE hl hc.h3 hT).mono (fun _ h => h) fun _ h => h.elim).bind fun d hd => ?_
  refine withFft_tri fun e he => ?_
  have hargs := vecArgs hl hc hT hb hd
  have htot := rowStart_total c
  have hrow : ∀ j, c.row j = [8, 4, 4, 8].getD (j - 1) 0 := fun j => by unfold Cfg.row; rw [hpl]
  rw [hn] at hargs htot ⊢
  obtain ⟨out, e', h1, h2, h3⟩ := getvrtspec_memory hE he (u := u) (v := v) hargs hc.hr htot (hrow 1) (hrow 2) (hrow 3) (hrow 4) hu hv
  refine .inl ⟨out, e', h1, h2, c.weights 2 * (1 / c.rsphere) * d (nmOf 3 3 3) 2, ?_⟩
  refine h3.trans ?_
  have hbv := hb 2 3 3 (by omega) (by omega) le_rfl le_rfl
  rw [hc.hw, hc.hs 2, hn]
  rw [hn] at hbv
  exact congrArg (fun x => (vecTerm (3 * (lib.weight 4 2 * (1 / c.rsphere) / Real.sin (lib.theta 4 2)) * x) _ _ _).2) hbv

/-- C211 is not true of all grids: on rows of 8, 4, 4 and 8 points, `getvrtspec` of a calm is not zero when the memory it
allocates is not. -/
theorem C211_winds_false (hl : lib.Sound) (hw : lib.weight 4 2 ≠ 0) :
    ∃ c st, Live lib c st ∧ c.pl = [8, 4, 4, 8] ∧ ∃ E : Env, E.ok ∧ ∃ u v : NDArr ℝ, Spec.IsPacked c.pl [] u (fun _ _ _ => 0) ∧ Spec.IsPacked c.pl [] v (fun _ _ _ => 0) ∧
      ∃ r st', exec (getcomponentM E lib c u v (some 3) 1) st = (.ok r, st') ∧ r.get [Spectral.Spec.index 3 3 3] ≠ 0 := by
  obtain ⟨c, st, hst, hpl, hr⟩ := exists_live lib (pl := [8, 4, 4, 8]) (by simp) (by simp) (r := 1) one_pos
  obtain ⟨hc, hs⟩ := hst.good hl
  have hn : c.nlat = 4 := by unfold Cfg.nlat; rw [hpl]; rfl
  let z : NDArr ℝ := ⟨[c.pl.sum], fun _ => 0⟩
  refine ⟨c, st, hst, hpl, plainEnv 1, plainEnv_ok 1, z, z, ⟨rfl, fun _ _ _ _ _ _ _ _ => rfl⟩, ⟨rfl, fun _ _ _ _ _ _ _ _ => rfl⟩, ?_⟩
  have ht : validateNtrunc c (some 3) = .ok 3 := ntrunc_some (T := 3) (by omega) hc.h3
  have tri : Tri (Good lib c.nlat) (getcomponentM (plainEnv 1) lib c z z (some 3) 1) (fun r => r.get [Spectral.Spec.index 3 3 3] ≠ 0) (fun _ => False) := by
    unfold getcomponentM
    rcases validateWind_cases c z z with ⟨extra, y, y', hx, huv, hv, hy, hy'⟩ | ⟨hv, hx⟩
    · have hex : extra = [] := by
        have : [c.pl.sum] = c.npoints :: extra := hx
        simpa using (List.cons.inj this).2.symm
      subst hex
      refine Tri.step hv (Tri.step ht ?_)
      have hval : ∀ {a : NDArr ℝ}, (∀ e, InB [] e → ∀ p, p < c.npoints → toF a (p + 1) (ravel [] e + 1) = z.get (p :: e)) →
          ∀ j i, 1 ≤ j → j ≤ 4 → 1 ≤ i → i ≤ c.row j → toF a (Spec.rowStart c.row j + i) 1 = 0 := by
        intro a ha j i j1 j2 i1 i2
        rw [rowStart_row j1 (by omega) i1]
        exact ha [] trivial _ (packed_lt j1 (show j ≤ c.pl.length by rw [hpl]; exact j2) i1 i2)
      refine ((analyzeComponent_memory (plainEnv_ok 1) hl hc hpl (hval hy) (hval hy')).mono (fun _ h => h) fun _ h => h).bind ?_
      rintro out ⟨d, hd⟩
      obtain ⟨r, hr1, hR⟩ := restoreSpec 3 [] out
      refine Tri.lift_ok hr1 ?_
      rw [hR.2 [] trivial 3 3 le_rfl le_rfl]
      refine fun h0 => ?_
      have h1 := congrArg Complex.re (hd.symm.trans h0)
      have hsin := (Real.sin_pos_of_pos_of_lt_pi ((hl.rows 4 (by omega)).inside 2 (by omega) (by omega)).1 ((hl.rows 4 (by omega)).inside 2 (by omega) (by omega)).2).ne'
      have hp := pbar_top_ne (m := 3) hsin
      simp [vecTerm, Four.add, Four.sub, Env.vecC, VecC.at, plainEnv, hr] at h1
      rcases h1 with (h1 | h1) | h1
      · exact hw h1
      · exact hsin h1
      · exact hp h1
    · exfalso
      rcases hx with hx | hx
      · exact hx rfl
      · exact hx [] rfl
  obtain ⟨r, st', h1, h2⟩ := hst.run hl tri fun _ h => h
  exact ⟨r, st', h1, h2⟩

end Skyborn.RedGauss
