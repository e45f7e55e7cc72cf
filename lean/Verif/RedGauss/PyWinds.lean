/-
`ReducedGaussianSpharmt`: analysis of winds, inverse Laplacian and smoothing, for every input and from every state.
-/
import Verif.RedGauss.PyMethods

namespace Skyborn.RedGauss

open Skyborn Sphere

variable {lib : Lib} {c : Cfg} {E E' : Env}

/-- When and how the analyses of winds refuse. -/
def WindRefusal (c : Cfg) (u v : NDArr ℝ) (t : Option ℤ) (e : Fail) : Prop :=
  (e = .validation ∧ (u.shape ≠ v.shape ∨ (∀ extra, ¬ Spec.IsGridShape c.pl u extra) ∨ ∀ T, ¬ Spec.Truncation c.nlat t T)) ∨
  (e = .spherepack 3 ∧ (∃ extra, Spec.IsGridShape c.pl u extra ∧ v.shape = u.shape ∧ extra.prod = 0) ∧ ∃ T, Spec.Truncation c.nlat t T)

theorem validateWind_cases (c : Cfg) (u v : NDArr ℝ) :
    (∃ extra y z, u.shape = c.npoints :: extra ∧ v.shape = u.shape ∧ validateWind c u v = .ok (extra, y, z) ∧
      (∀ e, InB extra e → ∀ p, p < c.npoints → toF y (p + 1) (ravel extra e + 1) = u.get (p :: e)) ∧
      (∀ e, InB extra e → ∀ p, p < c.npoints → toF z (p + 1) (ravel extra e + 1) = v.get (p :: e))) ∨
    (validateWind c u v = .error .validation ∧ (u.shape ≠ v.shape ∨ ∀ extra, u.shape ≠ c.npoints :: extra)) := by
  unfold validateWind
  by_cases huv : u.shape = v.shape
  · rcases validateGrid_cases c u with ⟨extra, y, hx, hv, hy⟩ | ⟨hv, hx⟩
    · rcases validateGrid_cases c v with ⟨extra', z, hx', hv', hz⟩ | ⟨hv', hx'⟩
      · have : extra = extra' := by have := huv; rw [hx, hx'] at this; simpa using this
        subst this
        refine .inl ⟨extra, y, z, hx, huv.symm, ?_, hy, hz⟩
        rw [hv, hv']
        simp [huv, bind, Except.bind, pure, Except.pure]
      · exact absurd (huv ▸ hx) (hx' extra)
    · refine .inr ⟨?_, .inr hx⟩
      rw [hv]; simp [huv, bind, Except.bind]
  · refine .inr ⟨?_, .inl huv⟩
    simp [huv]; rfl

/-- Divergence and vorticity analysis of two packed arrays. -/
noncomputable def divOf (lib : Lib) (c : Cfg) (u v : NDArr ℝ) (e : List ℕ) : ℕ → ℕ → ℂ :=
  RedGauss.Spec.divergence c.nlat c.row (lib.theta c.nlat) (lib.weight c.nlat) c.rsphere (RedGauss.Spec.value c.pl u e) (RedGauss.Spec.value c.pl v e)

/-- Vorticity analysis. -/
noncomputable def vrtOf (lib : Lib) (c : Cfg) (u v : NDArr ℝ) (e : List ℕ) : ℕ → ℕ → ℂ :=
  RedGauss.Spec.vorticity c.nlat c.row (lib.theta c.nlat) (lib.weight c.nlat) c.rsphere (RedGauss.Spec.value c.pl u e) (RedGauss.Spec.value c.pl v e)

theorem getvrtdivspecM_tri (hE : E.ok) (hl : lib.Sound) (hc : c.Valid lib) (u v : NDArr ℝ) (t : Option ℤ) :
    Tri (Good lib c.nlat) (getvrtdivspecM E lib c u v t)
      (fun r => ∃ extra T, Spec.IsGridShape c.pl u extra ∧ v.shape = u.shape ∧ 1 ≤ extra.prod ∧ Spec.Truncation c.nlat t T ∧
        (RedGauss.Spec.Regular c.pl → Spec.IsSpectrum T extra r.1 (vrtOf lib c u v) ∧ Spec.IsSpectrum T extra r.2 (divOf lib c u v)))
      (WindRefusal c u v t) := by
  unfold getvrtdivspecM
  rcases validateWind_cases c u v with ⟨extra, y, z, hx, huv, hv, hy, hz⟩ | ⟨hv, hx⟩
  · refine Tri.step hv ?_
    rcases validateNtrunc_cases hc.h3 t with ⟨T, ht, hT, htr⟩ | ⟨ht, htr⟩
    · refine Tri.step ht ?_
      refine ((analyzeWind_tri hE hl hc hT (toF y) (toF z)).mono (fun _ h => h) fun e he => .inr ⟨he.2, ⟨extra, hx, huv, he.1⟩, T, htr⟩).bind fun a ha => ?_
      obtain ⟨r1, hr1, hR1⟩ := restoreSpec T extra fun p k => (a p k).2
      obtain ⟨r2, hr2, hR2⟩ := restoreSpec T extra fun p k => (a p k).1
      refine Tri.step hr1 (Tri.step hr2 (Tri.pure ⟨extra, T, hx, huv, ha.1, htr, fun hreg => ⟨hR1.congr fun e he m n hmn hn => ?_, hR2.congr fun e he m n hmn hn => ?_⟩⟩))
      · have hk := ravel_bounds he
        exact (congrArg Prod.snd (ha.2 hreg _ hk.1 hk.2 m n hmn hn)).trans
          (wind_congr (fun j i j1 j2 i1 i2 => rows_value he hy j1 j2 i1 i2) (fun j i j1 j2 i1 i2 => rows_value he hz j1 j2 i1 i2)).2
      · have hk := ravel_bounds he
        exact (congrArg Prod.fst (ha.2 hreg _ hk.1 hk.2 m n hmn hn)).trans
          (wind_congr (fun j i j1 j2 i1 i2 => rows_value he hy j1 j2 i1 i2) (fun j i j1 j2 i1 i2 => rows_value he hz j1 j2 i1 i2)).1
    · exact Tri.lift_error ht (.inl ⟨rfl, .inr (.inr htr)⟩)
  · refine Tri.lift_error hv (.inl ⟨rfl, ?_⟩)
    rcases hx with hx | hx
    · exact .inl hx
    · exact .inr (.inl hx)

theorem getcomponentM_tri {component : ℕ} (hcomp : component = 1 ∨ component = 2) (hE : E.ok) (hl : lib.Sound) (hc : c.Valid lib) (u v : NDArr ℝ) (t : Option ℤ) :
    Tri (Good lib c.nlat) (getcomponentM E lib c u v t component)
      (fun r => ∃ extra T, Spec.IsGridShape c.pl u extra ∧ v.shape = u.shape ∧ 1 ≤ extra.prod ∧ Spec.Truncation c.nlat t T ∧
        (RedGauss.Spec.Regular c.pl → Spec.IsSpectrum T extra r (if component = 1 then vrtOf lib c u v else divOf lib c u v)))
      (WindRefusal c u v t) := by
  unfold getcomponentM
  rcases validateWind_cases c u v with ⟨extra, y, z, hx, huv, hv, hy, hz⟩ | ⟨hv, hx⟩
  · refine Tri.step hv ?_
    rcases validateNtrunc_cases hc.h3 t with ⟨T, ht, hT, htr⟩ | ⟨ht, htr⟩
    · refine Tri.step ht ?_
      refine ((analyzeComponent_tri hcomp hE hl hc hT (toF y) (toF z)).mono (fun _ h => h) fun e he => .inr ⟨he.2, ⟨extra, hx, huv, he.1⟩, T, htr⟩).bind fun a ha => ?_
      obtain ⟨r, hr, hR⟩ := restoreSpec T extra a
      refine Tri.lift_ok hr ⟨extra, T, hx, huv, ha.1, htr, fun hreg => hR.congr fun e he m n hmn hn => ?_⟩
      have hk := ravel_bounds he
      refine (ha.2 hreg _ hk.1 hk.2 m n hmn hn).trans ?_
      have := wind_congr (m := m) (n := n) (θ := lib.theta c.nlat) (w := lib.weight c.nlat) (r := c.rsphere)
        (fun j i j1 j2 i1 i2 => rows_value (c := c) he hy j1 j2 i1 i2) (fun j i j1 j2 i1 i2 => rows_value (c := c) he hz j1 j2 i1 i2)
      split_ifs
      · exact this.2
      · exact this.1
    · exact Tri.lift_error ht (.inl ⟨rfl, .inr (.inr htr)⟩)
  · refine Tri.lift_error hv (.inl ⟨rfl, ?_⟩)
    rcases hx with hx | hx
    · exact .inl hx
    · exact .inr (.inl hx)

/-! ### Inverse Laplacian, smoothing -/

theorem invlapspecM_ok {s : NDArr ℂ} {T : ℕ} {extra : List ℕ} (hs : Spec.IsSpecShape c.nlat s T extra) (st : World × Caches) :
    ∃ r, exec (invlapspecM c s) st = (.ok r, st) ∧ Spec.IsSpectrum T extra r fun e => RedGauss.Spec.invlap c.rsphere (RedGauss.Spec.coef T s e) := by
  rcases validateSpec_cases c s with ⟨T', extra', y, hx, hT, hv, hy⟩ | ⟨_, hx⟩
  · have hh : (T + 1) * (T + 2) / 2 = (T' + 1) * (T' + 2) / 2 ∧ extra = extra' := by
      have := hs.1; rw [hx] at this; simp at this; exact ⟨this.1.symm, this.2.symm⟩
    have hTT : (T : ℤ) = T' := by rw [← Spectral.C44_truncation T, ← Spectral.C44_truncation T', hh.1]
    have hTT : T = T' := by exact_mod_cast hTT
    obtain ⟨_, rfl⟩ := hh
    subst hTT
    obtain ⟨r, hr, hR⟩ := restoreSpec T extra (invlapF c (nmDim T) extra.prod (toF y))
    refine ⟨r, ?_, hR.congr fun e he m n hmn hn => ?_⟩
    · unfold invlapspecM
      rw [hv, exec_bind_ok (exec_lift_ok _ _)]
      dsimp only
      rw [headLen_of hx]
      have hr' : restore (nmDim T) extra (ofF (nmDim T) extra.prod (invlapF c (nmDim T) extra.prod (toF y))) = .ok r := hr
      rw [hr']
      rfl
    · refine (invlapF_coefs (c := c) (toF y) (ravel_bounds he).1 (ravel_bounds he).2 hmn hn).trans ?_
      unfold RedGauss.Spec.invlap
      rw [coefs_coef he hy hmn hn]
  · exact absurd hs.1 (hx T extra hs.2)

theorem invlapspecM_keeps (s : NDArr ℂ) (st : World × Caches) : (exec (invlapspecM c s) st).2 = st := by
  unfold invlapspecM
  cases h : validateSpec c s with
  | error e => rw [exec_lift_fail rfl]
  | ok a =>
    rw [exec_bind_ok (exec_lift_ok _ _)]
    dsimp only
    cases restore (headLen s) a.2.1 (ofF (headLen s) a.2.1.prod (invlapF c (headLen s) a.2.1.prod (toF a.2.2))) <;> rfl

theorem smooth_coefs {T nlat nt k m n : ℕ} (hT : T < nlat) (s : ℕ → ℕ → ℂ) (f : ℕ → ℝ) (hk1 : 1 ≤ k) (hk2 : k ≤ nt) (hmn : m ≤ n) (hn : n ≤ T) :
    ((Spectral.multsmoothfact nlat (nmDim T) nt (fun q => s q.1 q.2) f fun _ => 0).getD fun _ => 0) (RedGauss.Spec.pos T m n, k) =
      (f (n + 1) : ℂ) * s (RedGauss.Spec.pos T m n) k := by
  have hw : Spectral.waves (nmDim T) = T + 1 := Spectral.waves_specLen T
  obtain ⟨y, h1, h2⟩ := Spectral.multsmoothfact_closed (nlat := nlat) (N := nmDim T) (nt := nt) (by rw [hw]; omega) (fun q => s q.1 q.2) f fun _ => 0
  rw [h1]
  have ht : ((k, m + 1, n + 1) : ℕ × ℕ × ℕ) ∈ Spectral.Tri nt (Spectral.waves (nmDim T)) := by rw [Spectral.mem_Tri, hw]; omega
  have := h2.1 _ ht
  have e : Spectral.adS (Spectral.waves (nmDim T)) (k, m + 1, n + 1) = (RedGauss.Spec.pos T m n, k) := by
    unfold Spectral.adS
    rw [hw]
    dsimp only
    rw [Spectral.pos_eq_index hmn hn, index_pos hmn hn]
  rw [e] at this
  show y _ = _
  rw [this]
  beta_reduce
  rw [e, mul_comm]

theorem specsmoothM_tri (hE : E.ok) (hE' : E'.ok) (hl : lib.Sound) (hc : c.Valid lib) (x smooth : NDArr ℝ) :
    Tri (Good lib c.nlat) (specsmoothM E E' lib c x smooth)
      (fun r => ∃ extra, Spec.IsGridShape c.pl x extra ∧ 1 ≤ extra.prod ∧ smooth.shape = [c.nlat] ∧
        Spec.IsPacked c.pl extra r fun e => synthField lib c (c.nlat - 1) fun m n =>
          (smooth.get [n] : ℂ) * RedGauss.Spec.analysis c.nlat c.row (lib.theta c.nlat) (lib.weight c.nlat) (RedGauss.Spec.value c.pl x e) m n)
      (fun e => (e = .validation ∧ (smooth.shape ≠ [c.nlat] ∨ ∀ extra, ¬ Spec.IsGridShape c.pl x extra)) ∨
        (e = .spherepack 3 ∧ smooth.shape = [c.nlat] ∧ ∃ extra, Spec.IsGridShape c.pl x extra ∧ extra.prod = 0)) := by
  unfold specsmoothM
  by_cases hsm : smooth.shape = [c.nlat]
  · have h3 := hc.h3
    simp only [hsm, ne_eq, not_true_eq_false, if_false]
    refine ((grdtospecM_tri hE hl hc x none).mono (fun _ h => h) ?_).bind ?_
    · rintro e (⟨rfl, h | h⟩ | h)
      · exact .inl ⟨rfl, .inr h⟩
      · exact absurd (.inl ⟨rfl, rfl⟩) (h (c.nlat - 1))
      · exact .inr ⟨h.1, trivial, h.2.1⟩
    rintro s ⟨extra, T, hx, hp, htr, hS⟩
    have hTe : T = c.nlat - 1 := by rcases htr with ⟨_, h⟩ | ⟨h, _⟩; exact h; simp at h
    subst hTe
    have hshape := hS.1
    rcases validateSpec_cases c s with ⟨T', extra', y, hx', hT, hv, hy⟩ | ⟨_, hx'⟩
    · have hh : (c.nlat - 1 + 1) * (c.nlat - 1 + 2) / 2 = (T' + 1) * (T' + 2) / 2 ∧ extra = extra' := by
        have := hshape; rw [hx'] at this; simp only [List.cons.injEq] at this; exact ⟨this.1.symm, this.2.symm⟩
      have hTT : ((c.nlat - 1 : ℕ) : ℤ) = T' := by rw [← Spectral.C44_truncation (c.nlat - 1), ← Spectral.C44_truncation T', hh.1]
      have hTT : c.nlat - 1 = T' := by exact_mod_cast hTT
      obtain ⟨_, rfl⟩ := hh
      subst hTT
      refine Tri.step hv ?_
      dsimp only
      rw [headLen_of hshape]
      obtain ⟨r, hr, hR⟩ := restoreSpec (c.nlat - 1) extra fun p k =>
        ((Spectral.multsmoothfact c.nlat (nmDim (c.nlat - 1)) extra.prod (fun q => toF y q.1 q.2) (fun n => smooth.get [n - 1]) fun _ => 0).getD fun _ => 0) (p, k)
      refine Tri.step hr ?_
      refine (spectogrdM_tri hE' hl hc r).mono ?_ ?_
      · rintro g ⟨T'', extra'', hsh, hpr, hG⟩
        have hh : (c.nlat - 1 + 1) * (c.nlat - 1 + 2) / 2 = (T'' + 1) * (T'' + 2) / 2 ∧ extra = extra'' := by
          have := hR.1; rw [hsh.1] at this; simp only [List.cons.injEq] at this; exact ⟨this.1.symm, this.2.symm⟩
        have hTT : ((c.nlat - 1 : ℕ) : ℤ) = T'' := by rw [← Spectral.C44_truncation (c.nlat - 1), ← Spectral.C44_truncation T'', hh.1]
        have hTT : c.nlat - 1 = T'' := by exact_mod_cast hTT
        obtain ⟨_, rfl⟩ := hh
        subst hTT
        refine ⟨extra, hx, hp, trivial, hG.congr fun e he j i j1 j2 i1 i2 => ?_⟩
        unfold synthField
        rw [order_congr fun m n hmn hn => ?_]
        refine (hR.2 e he m n hmn hn).trans ?_
        beta_reduce
        rw [smooth_coefs (by omega) (toF y) _ (ravel_bounds he).1 (ravel_bounds he).2 hmn hn]
        congr 1
        have := coefs_coef he hy hmn hn
        unfold coefsOf at this
        rw [this]
        exact hS.2 e he m n hmn hn
      · rintro e (⟨rfl, h⟩ | ⟨rfl, T'', extra'', h, h'⟩)
        · exact absurd ⟨hR.1, by omega⟩ (h (c.nlat - 1) extra)
        · have : extra = extra'' := by
            have := hR.1; rw [h.1] at this; simp only [List.cons.injEq] at this; exact this.2.symm
          subst this
          omega
    · exact absurd hshape (hx' (c.nlat - 1) extra (by omega))
  · intro st hst
    rw [if_pos hsm]
    exact ⟨hst, .inl ⟨rfl, .inl hsm⟩⟩

end Skyborn.RedGauss
