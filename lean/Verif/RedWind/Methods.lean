/-
`ReducedVectorWind`: the public methods, from every state.
-/
import Verif.RedWind.Spectra
import Verif.RedGauss.Results

namespace Skyborn.RedWind

open Skyborn RedGauss

variable {lib : Lib} {w : WCfg} {Es : ℕ → Env} {E E' : Env} {T : ℕ}

/-! ### Specification -/

/-- Vorticity spectrum of the wind of slice `e`. -/
noncomputable def Spec.zeta (lib : Lib) (w : WCfg) (e : List ℕ) : ℕ → ℕ → ℂ :=
  RedGauss.Spec.vorticity w.cfg.nlat (RedGauss.Spec.row w.cfg.pl) (lib.theta w.cfg.nlat) (lib.weight w.cfg.nlat) w.cfg.rsphere
    (RedGauss.Spec.value w.cfg.pl w.u e) (RedGauss.Spec.value w.cfg.pl w.v e)

/-- Divergence spectrum of the wind of slice `e`. -/
noncomputable def Spec.delta (lib : Lib) (w : WCfg) (e : List ℕ) : ℕ → ℕ → ℂ :=
  RedGauss.Spec.divergence w.cfg.nlat (RedGauss.Spec.row w.cfg.pl) (lib.theta w.cfg.nlat) (lib.weight w.cfg.nlat) w.cfg.rsphere
    (RedGauss.Spec.value w.cfg.pl w.u e) (RedGauss.Spec.value w.cfg.pl w.v e)

/-- The field with coefficients `a` at point `i` of row `j`: the spherical-harmonic series, as far as the row carries its
waves. -/
noncomputable def Spec.field (lib : Lib) (w : WCfg) (T : ℕ) (a : ℕ → ℕ → ℂ) (j i : ℕ) : ℝ :=
  RedGauss.Spec.fieldAt (RedGauss.Spec.row w.cfg.pl j) T a (lib.theta w.cfg.nlat j) (RedGauss.Spec.lon (RedGauss.Spec.row w.cfg.pl j) i)

/-- Its eastward derivative. -/
noncomputable def Spec.east (lib : Lib) (w : WCfg) (T : ℕ) (a : ℕ → ℕ → ℂ) (j i : ℕ) : ℝ :=
  RedGauss.Spec.east (RedGauss.Spec.row w.cfg.pl j) T w.cfg.rsphere a (lib.theta w.cfg.nlat j) (RedGauss.Spec.lon (RedGauss.Spec.row w.cfg.pl j) i)

/-- Its northward derivative. -/
noncomputable def Spec.north (lib : Lib) (w : WCfg) (T : ℕ) (a : ℕ → ℕ → ℂ) (j i : ℕ) : ℝ :=
  RedGauss.Spec.north (RedGauss.Spec.row w.cfg.pl j) T w.cfg.rsphere a (lib.theta w.cfg.nlat j) (RedGauss.Spec.lon (RedGauss.Spec.row w.cfg.pl j) i)

/-- Inverse Laplacian. -/
noncomputable def Spec.inv (w : WCfg) (a : ℕ → ℕ → ℂ) : ℕ → ℕ → ℂ := RedGauss.Spec.invlap w.cfg.rsphere a

/-- Spectrum of a packed field. -/
noncomputable def Spec.spectrum (lib : Lib) (w : WCfg) (f : ℕ → ℕ → ℝ) : ℕ → ℕ → ℂ :=
  RedGauss.Spec.analysis w.cfg.nlat (RedGauss.Spec.row w.cfg.pl) (lib.theta w.cfg.nlat) (lib.weight w.cfg.nlat) f

/-- Planetary vorticity `2 Ω sin φ` on row `j`, the latitude being the complement of the colatitude. -/
noncomputable def Spec.planetary (lib : Lib) (w : WCfg) (om : ℝ) (j : ℕ) : ℝ := 2 * om * Real.sin (Real.pi / 2 - lib.theta w.cfg.nlat j)

/-- The rotation rate asked for, by default 7.292e-5. -/
noncomputable def Spec.rotation (omega : Option ℝ) : ℝ := match omega with
  | none => 7.292e-5
  | some x => x

/-- A packed field in the shape of the wind with the given values (where `reg`). -/
def Spec.Is (w : WCfg) (reg : Prop) (r : NDArr ℝ) (F : List ℕ → ℕ → ℕ → ℝ) : Prop :=
  r.shape = w.u.shape ∧ (reg → RedGauss.Spec.IsPacked w.cfg.pl w.extra r F)

/-! ### Steps -/

theorem Spec.Is.congr {reg : Prop} {r : NDArr ℝ} {F G : List ℕ → ℕ → ℕ → ℝ} (h : Spec.Is w reg r F)
    (hFG : reg → ∀ e, InB w.extra e → ∀ j i, 1 ≤ j → j ≤ w.cfg.nlat → 1 ≤ i → i ≤ w.cfg.row j → F e j i = G e j i) : Spec.Is w reg r G :=
  ⟨h.1, fun hr => (h.2 hr).congr (hFG hr)⟩

theorem restoreGridW_tri (hw : w.Valid lib) (f : ℕ → ℕ → ℝ) {P : St → Prop} {ε : Fail → Prop} :
    TriW P (restoreGridW w f) (fun r => Spec.Is w True r fun e j i => rowsOf w.cfg f (ravel w.extra e + 1) j i) ε := by
  obtain ⟨r, h1, h2⟩ := restoreGrid w.cfg w.extra f
  refine TriW.lift_ok h1 ⟨?_, fun _ => h2⟩
  rw [hw.hu, h2.1]; rfl

theorem vrtCoef_zeta (hw : w.Valid lib) {e : List ℕ} (he : InB w.extra e) (m n : ℕ) : vrtCoef lib w (ravel w.extra e + 1) m n = Spec.zeta lib w e m n :=
  (wind_congr (fun _ _ a b c d => rows_value he hw.hub a b c d) fun _ _ a b c d => rows_value he hw.hvb a b c d).2

theorem divCoef_delta (hw : w.Valid lib) {e : List ℕ} (he : InB w.extra e) (m n : ℕ) : divCoef lib w (ravel w.extra e + 1) m n = Spec.delta lib w e m n :=
  (wind_congr (fun _ _ a b c d => rows_value he hw.hub a b c d) fun _ _ a b c d => rows_value he hw.hvb a b c d).1

/-- Both spectra, by slice. -/
structure Slices (lib : Lib) (w : WCfg) (reg : Prop) (T : ℕ) (s : Spect) (a : List ℕ → ℕ → ℕ → ℂ) : Prop where
  /-- length -/ len : s.len = nmDim T
  /-- slices -/ nt : 1 ≤ w.nt
  /-- coefficients -/ val : reg → ∀ e, InB w.extra e → ∀ m n, m ≤ n → n ≤ T → coefsOf T s.val (ravel w.extra e + 1) m n = a e m n

theorem IsSpect.slices {reg : Prop} {s : Spect} {b : ℕ → ℕ → ℕ → ℂ} {a : List ℕ → ℕ → ℕ → ℂ} (h : IsSpect w reg T s b)
    (hb : ∀ e, InB w.extra e → ∀ m n, b (ravel w.extra e + 1) m n = a e m n) : Slices lib w reg T s a :=
  ⟨h.1, h.2.1, fun hr e he m n a1 a2 => (h.2.2 hr _ (ravel_bounds he).1 (ravel_bounds he).2 m n a1 a2).trans (hb e he m n)⟩

theorem IsSpect.vrt {reg : Prop} {s : Spect} (hw : w.Valid lib) (h : IsSpect w reg T s (vrtCoef lib w)) : Slices lib w reg T s (Spec.zeta lib w) :=
  h.slices fun _ he m n => vrtCoef_zeta hw he m n

theorem IsSpect.dv {reg : Prop} {s : Spect} (hw : w.Valid lib) (h : IsSpect w reg T s (divCoef lib w)) : Slices lib w reg T s (Spec.delta lib w) :=
  h.slices fun _ he m n => divCoef_delta hw he m n

theorem IsSpect.psi {reg : Prop} {s : Spect} (hw : w.Valid lib) (h : IsSpect w reg T s (vrtCoef lib w)) :
    Slices lib w reg T (invlapW w s) fun e => Spec.inv w (Spec.zeta lib w e) :=
  (invlapW_spect h).slices fun _ he m n => by unfold Spec.inv RedGauss.Spec.invlap; rw [vrtCoef_zeta hw he]

theorem IsSpect.chi {reg : Prop} {s : Spect} (hw : w.Valid lib) (h : IsSpect w reg T s (divCoef lib w)) :
    Slices lib w reg T (invlapW w s) fun e => Spec.inv w (Spec.delta lib w e) :=
  (invlapW_spect h).slices fun _ he m n => by unfold Spec.inv RedGauss.Spec.invlap; rw [divCoef_delta hw he]

/-- What `IsSynth` means for a slice. -/
theorem synth_value {reg : Prop} {s : Spect} {a : List ℕ → ℕ → ℕ → ℂ} (hs : Slices lib w reg T s a) {out : ℕ → ℕ → ℝ} (ho : IsSynth lib w.cfg T w.nt s.val out) :
    reg → ∀ e, InB w.extra e → ∀ j i, 1 ≤ j → j ≤ w.cfg.nlat → 1 ≤ i → i ≤ w.cfg.row j → rowsOf w.cfg out (ravel w.extra e + 1) j i = Spec.field lib w T (a e) j i := by
  intro hr e he j i h1 h2 h3 h4
  rw [ho _ (ravel_bounds he).1 (ravel_bounds he).2 j i h1 h2 h3 h4, order_congr (hs.val hr e he)]
  rfl

theorem grad_value {reg : Prop} {s : Spect} {a : List ℕ → ℕ → ℕ → ℂ} (hs : Slices lib w reg T s a) {u v : ℕ → ℕ → ℝ} (ho : IsGrad lib w.cfg T w.nt s.val u v) :
    reg → ∀ e, InB w.extra e → ∀ j i, 1 ≤ j → j ≤ w.cfg.nlat → 1 ≤ i → i ≤ w.cfg.row j →
      rowsOf w.cfg u (ravel w.extra e + 1) j i = Spec.east lib w T (a e) j i ∧ rowsOf w.cfg v (ravel w.extra e + 1) j i = Spec.north lib w T (a e) j i := by
  intro hr e he j i h1 h2 h3 h4
  obtain ⟨x, y⟩ := ho _ (ravel_bounds he).1 (ravel_bounds he).2 j i h1 h2 h3 h4
  rw [x, y, (grad_congr (hs.val hr e he)).1, (grad_congr (hs.val hr e he)).2]
  exact ⟨rfl, rfl⟩

section
variable (hl : lib.Sound) (hw : w.Valid lib)
include hl hw

theorem ntrunc_again {t : Option ℤ} (hT : validateNtrunc w.cfg t = .ok T) (hT' : T ≤ w.cfg.nlat - 1) : validateNtrunc w.cfg t = validateNtrunc w.cfg (some (T : ℤ)) := by
  rw [hT, ntrunc_some hT' hw.hc.h3]

theorem synth_tri {reg : Prop} {s : Spect} {a : List ℕ → ℕ → ℕ → ℂ} {t : Option ℤ} (hE : E.ok) (hT : validateNtrunc w.cfg t = .ok T) (hT' : T ≤ w.cfg.nlat - 1)
    (hs : Slices lib w reg T s a) {ε : Fail → Prop} :
    TriW (GoodSt lib w) (synth lib w E s t) (fun r => Spec.Is w reg r fun e => Spec.field lib w T (a e)) ε := by
  refine TriW.step hT ?_
  rw [hs.len]
  refine (TriW.inner ((synthesizeScalar_tri hE hl hw.hc hT' _).mono (fun _ h => h) fun e he => ?_)).bind fun g hg => ?_
  · have := hs.nt; omega
  · refine (restoreGridW_tri hw g).mono (fun r hr => ?_) fun _ h => h
    exact ⟨hr.1, fun h => (hr.2 trivial).congr fun e he j i => synth_value hs hg.2 h e he j i⟩

theorem synthPair_tri {reg : Prop} {s s' : Spect} {a a' : List ℕ → ℕ → ℕ → ℂ} {t : Option ℤ} (hE : E.ok) (hE' : E'.ok) (hT : validateNtrunc w.cfg t = .ok T) (hT' : T ≤ w.cfg.nlat - 1)
    (hs : Slices lib w reg T s a) (hs' : Slices lib w reg T s' a') {ε : Fail → Prop} :
    TriW (GoodSt lib w) (synthPair lib w E E' s s' t)
      (fun r => (Spec.Is w reg r.1 fun e => Spec.field lib w T (a e)) ∧ Spec.Is w reg r.2 fun e => Spec.field lib w T (a' e)) ε := by
  refine TriW.step hT ?_
  rw [hs.len]
  refine (TriW.inner ((synthesizePair_tri hE hE' hl hw.hc hT' _ _).mono (fun _ h => h) fun e he => ?_)).bind fun g hg => ?_
  · have := hs.nt; omega
  · refine (restoreGridW_tri hw g.1).bind fun r hr => (restoreGridW_tri hw g.2).bind fun r' hr' => TriW.pure ?_
    exact ⟨⟨hr.1, fun h => (hr.2 trivial).congr fun e he j i => synth_value hs hg.2.1 h e he j i⟩,
      ⟨hr'.1, fun h => (hr'.2 trivial).congr fun e he j i => synth_value hs' hg.2.2 h e he j i⟩⟩

theorem gradStep {reg : Prop} {s : Spect} {a : List ℕ → ℕ → ℕ → ℂ} {t : Option ℤ} (hE : E.ok) (hT : validateNtrunc w.cfg t = .ok T) (hT' : T ≤ w.cfg.nlat - 1)
    (hs : Slices lib w reg T s a) {ε : Fail → Prop} :
    TriW (GoodSt lib w) (inner (synthesizeGrad E lib w.cfg s.len w.nt s.val t)) (fun g => reg → ∀ e, InB w.extra e → ∀ j i, 1 ≤ j → j ≤ w.cfg.nlat → 1 ≤ i → i ≤ w.cfg.row j →
      rowsOf w.cfg (g 1) (ravel w.extra e + 1) j i = Spec.east lib w T (a e) j i ∧ rowsOf w.cfg (g 2) (ravel w.extra e + 1) j i = Spec.north lib w T (a e) j i) ε := by
  have : synthesizeGrad E lib w.cfg s.len w.nt s.val t = synthesizeGrad E lib w.cfg (nmDim T) w.nt s.val (some (T : ℤ)) := by
    unfold synthesizeGrad; rw [ntrunc_again hl hw hT hT', hs.len]
  rw [this]
  refine TriW.inner ((synthesizeGrad_tri hE hl hw.hc hT' _).mono (fun g hg => grad_value hs hg.2) fun e he => ?_)
  have := hs.nt; omega

end

/-! ### Public methods -/

section
variable (hEs : ∀ i, (Es i).ok) (hl : lib.Sound) (hw : w.Valid lib) (t : Option ℤ)
include hEs hl hw

theorem vrtdiv_tri : TriW (GoodSt lib w) (vrtdiv Es lib w t)
    (fun r => ∃ T, Sphere.Spec.Truncation w.cfg.nlat t T ∧ 1 ≤ w.nt ∧ (Spec.Is w (Spec.Regular w.cfg.pl) r.1 fun e => Spec.field lib w T (Spec.zeta lib w e)) ∧
      Spec.Is w (Spec.Regular w.cfg.pl) r.2 fun e => Spec.field lib w T (Spec.delta lib w e)) (refusal w t) := by
  refine (windSpectra_tri (hEs 0) hl hw t).bind ?_
  rintro ⟨a, b⟩ ⟨T, h1, h2, h3, ha, hb⟩
  exact (synthPair_tri hl hw (hEs 1) (hEs 2) h1 h2 (ha.vrt hw) (hb.dv hw)).mono (fun r hr => ⟨T, h3, ha.2.1, hr⟩) fun _ h => h

theorem sfvp_tri : TriW (GoodSt lib w) (sfvp Es lib w t)
    (fun r => ∃ T, Sphere.Spec.Truncation w.cfg.nlat t T ∧ 1 ≤ w.nt ∧ (Spec.Is w (Spec.Regular w.cfg.pl) r.1 fun e => Spec.field lib w T (Spec.inv w (Spec.zeta lib w e))) ∧
      Spec.Is w (Spec.Regular w.cfg.pl) r.2 fun e => Spec.field lib w T (Spec.inv w (Spec.delta lib w e))) (refusal w t) := by
  refine (windSpectra_tri (hEs 0) hl hw t).bind ?_
  rintro ⟨a, b⟩ ⟨T, h1, h2, h3, ha, hb⟩
  exact (synthPair_tri hl hw (hEs 1) (hEs 2) h1 h2 (ha.psi hw) (hb.chi hw)).mono (fun r hr => ⟨T, h3, ha.2.1, hr⟩) fun _ h => h

theorem vorticity_tri : TriW (GoodSt lib w) (vorticity Es lib w t)
    (fun r => ∃ T, Sphere.Spec.Truncation w.cfg.nlat t T ∧ 1 ≤ w.nt ∧ Spec.Is w (Spec.Regular w.cfg.pl) r fun e => Spec.field lib w T (Spec.zeta lib w e)) (refusal w t) := by
  refine (vrtSpectrum_tri (hEs 0) hl hw t).bind ?_
  rintro a ⟨T, h1, h2, h3, ha⟩
  exact (synth_tri hl hw (hEs 1) h1 h2 (ha.vrt hw)).mono (fun r hr => ⟨T, h3, ha.2.1, hr⟩) fun _ h => h

theorem divergence_tri : TriW (GoodSt lib w) (divergence Es lib w t)
    (fun r => ∃ T, Sphere.Spec.Truncation w.cfg.nlat t T ∧ 1 ≤ w.nt ∧ Spec.Is w (Spec.Regular w.cfg.pl) r fun e => Spec.field lib w T (Spec.delta lib w e)) (refusal w t) := by
  refine (divSpectrum_tri (hEs 0) hl hw t).bind ?_
  rintro a ⟨T, h1, h2, h3, ha⟩
  exact (synth_tri hl hw (hEs 1) h1 h2 (ha.dv hw)).mono (fun r hr => ⟨T, h3, ha.2.1, hr⟩) fun _ h => h

theorem streamfunction_tri : TriW (GoodSt lib w) (streamfunction Es lib w t)
    (fun r => ∃ T, Sphere.Spec.Truncation w.cfg.nlat t T ∧ 1 ≤ w.nt ∧ Spec.Is w (Spec.Regular w.cfg.pl) r fun e => Spec.field lib w T (Spec.inv w (Spec.zeta lib w e))) (refusal w t) := by
  refine (vrtSpectrum_tri (hEs 0) hl hw t).bind ?_
  rintro a ⟨T, h1, h2, h3, ha⟩
  exact (synth_tri hl hw (hEs 1) h1 h2 (ha.psi hw)).mono (fun r hr => ⟨T, h3, ha.2.1, hr⟩) fun _ h => h

theorem velocitypotential_tri : TriW (GoodSt lib w) (velocitypotential Es lib w t)
    (fun r => ∃ T, Sphere.Spec.Truncation w.cfg.nlat t T ∧ 1 ≤ w.nt ∧ Spec.Is w (Spec.Regular w.cfg.pl) r fun e => Spec.field lib w T (Spec.inv w (Spec.delta lib w e))) (refusal w t) := by
  refine (divSpectrum_tri (hEs 0) hl hw t).bind ?_
  rintro a ⟨T, h1, h2, h3, ha⟩
  exact (synth_tri hl hw (hEs 1) h1 h2 (ha.chi hw)).mono (fun r hr => ⟨T, h3, ha.2.1, hr⟩) fun _ h => h

theorem irrotational_tri : TriW (GoodSt lib w) (irrotational Es lib w t)
    (fun r => ∃ T, Sphere.Spec.Truncation w.cfg.nlat t T ∧ 1 ≤ w.nt ∧ (Spec.Is w (Spec.Regular w.cfg.pl) r.1 fun e => Spec.east lib w T (Spec.inv w (Spec.delta lib w e))) ∧
      Spec.Is w (Spec.Regular w.cfg.pl) r.2 fun e => Spec.north lib w T (Spec.inv w (Spec.delta lib w e))) (refusal w t) := by
  refine (divSpectrum_tri (hEs 0) hl hw t).bind ?_
  rintro b ⟨T, h1, h2, h3, hb⟩
  refine (gradStep hl hw (hEs 1) h1 h2 (hb.chi hw)).bind fun g hg => ?_
  refine (restoreGridW_tri hw (g 1)).bind fun r hr => (restoreGridW_tri hw (g 2)).bind fun r' hr' => TriW.pure ⟨T, h3, hb.2.1, ?_, ?_⟩
  · exact ⟨hr.1, fun h => (hr.2 trivial).congr fun e he j i a b c d => (hg h e he j i a b c d).1⟩
  · exact ⟨hr'.1, fun h => (hr'.2 trivial).congr fun e he j i a b c d => (hg h e he j i a b c d).2⟩

theorem nondivergent_tri : TriW (GoodSt lib w) (nondivergent Es lib w t)
    (fun r => ∃ T, Sphere.Spec.Truncation w.cfg.nlat t T ∧ 1 ≤ w.nt ∧ (Spec.Is w (Spec.Regular w.cfg.pl) r.1 fun e j i => - Spec.north lib w T (Spec.inv w (Spec.zeta lib w e)) j i) ∧
      Spec.Is w (Spec.Regular w.cfg.pl) r.2 fun e => Spec.east lib w T (Spec.inv w (Spec.zeta lib w e))) (refusal w t) := by
  refine (vrtSpectrum_tri (hEs 0) hl hw t).bind ?_
  rintro b ⟨T, h1, h2, h3, hb⟩
  refine (gradStep hl hw (hEs 1) h1 h2 (hb.psi hw)).bind fun g hg => ?_
  refine (restoreGridW_tri hw _).bind fun r hr => (restoreGridW_tri hw (g 1)).bind fun r' hr' => TriW.pure ⟨T, h3, hb.2.1, ?_, ?_⟩
  · exact ⟨hr.1, fun h => (hr.2 trivial).congr fun e he j i a b c d => congrArg Neg.neg (hg h e he j i a b c d).2⟩
  · exact ⟨hr'.1, fun h => (hr'.2 trivial).congr fun e he j i a b c d => (hg h e he j i a b c d).1⟩

theorem helmholtz_tri : TriW (GoodSt lib w) (helmholtz Es lib w t)
    (fun r => ∃ T, Sphere.Spec.Truncation w.cfg.nlat t T ∧ 1 ≤ w.nt ∧
      ((Spec.Is w (Spec.Regular w.cfg.pl) r.1.1 fun e => Spec.east lib w T (Spec.inv w (Spec.delta lib w e))) ∧
        Spec.Is w (Spec.Regular w.cfg.pl) r.1.2 fun e => Spec.north lib w T (Spec.inv w (Spec.delta lib w e))) ∧
      (Spec.Is w (Spec.Regular w.cfg.pl) r.2.1 fun e j i => - Spec.north lib w T (Spec.inv w (Spec.zeta lib w e)) j i) ∧
        Spec.Is w (Spec.Regular w.cfg.pl) r.2.2 fun e => Spec.east lib w T (Spec.inv w (Spec.zeta lib w e))) (refusal w t) := by
  refine (windSpectra_tri (hEs 0) hl hw t).bind ?_
  rintro ⟨a, b⟩ ⟨T, h1, h2, h3, ha, hb⟩
  have hpsi := ha.psi hw
  have hchi := hb.chi hw
  dsimp only
  have : synthesizeGradPair (Es 1) lib w.cfg (invlapW w b).len w.nt (invlapW w b).val (invlapW w a).val t =
      synthesizeGradPair (Es 1) lib w.cfg (nmDim T) w.nt (invlapW w b).val (invlapW w a).val (some (T : ℤ)) := by
    unfold synthesizeGradPair; rw [ntrunc_again hl hw h1 h2, hchi.len]
  rw [this]
  refine (TriW.inner ((synthesizeGradPair_tri (hEs 1) hl hw.hc h2 _ _).mono (fun _ h => h) fun e he => ?_)).bind fun g hg => ?_
  · have := hchi.nt; omega
  have g1 := grad_value hchi hg.2.1
  have g2 := grad_value hpsi hg.2.2
  refine (restoreGridW_tri hw (g 1)).bind fun r1 hr1 => (restoreGridW_tri hw (g 2)).bind fun r2 hr2 => (restoreGridW_tri hw _).bind fun r3 hr3 =>
    (restoreGridW_tri hw (g 3)).bind fun r4 hr4 => TriW.pure ⟨T, h3, hchi.nt, ⟨?_, ?_⟩, ?_, ?_⟩
  · exact ⟨hr1.1, fun h => (hr1.2 trivial).congr fun e he j i a b c d => (g1 h e he j i a b c d).1⟩
  · exact ⟨hr2.1, fun h => (hr2.2 trivial).congr fun e he j i a b c d => (g1 h e he j i a b c d).2⟩
  · exact ⟨hr3.1, fun h => (hr3.2 trivial).congr fun e he j i a b c d => congrArg Neg.neg (g2 h e he j i a b c d).2⟩
  · exact ⟨hr4.1, fun h => (hr4.2 trivial).congr fun e he j i a b c d => (g2 h e he j i a b c d).1⟩

end

/-! ### Planetary and absolute vorticity -/

theorem fRow_planetary (om : ℝ) (j : ℕ) : fRow lib w om j = Spec.planetary lib w om j := by
  unfold fRow Spec.planetary; rw [Real.sin_pi_div_two_sub]

theorem omegaOf_rotation (omega : Option ℝ) : omegaOf omega = Spec.rotation omega := by
  cases omega <;> simp [omegaOf, Spec.rotation]; norm_num

theorem planetary_tri (hw : w.Valid lib) (omega : Option ℝ) (b : Bool) :
    TriW (GoodSt lib w) (planetary lib w omega b) (fun r => Spec.Is w True r fun _ j _ => Spec.planetary lib w (Spec.rotation omega) j) fun _ => False := by
  refine (pvValues_tri omega _ (by rw [hw.hu]; rfl)).mono (fun r hr => ⟨hr.1, fun _ => ⟨by rw [hr.1, hw.hu]; rfl, ?_⟩⟩) fun _ h => h
  intro e _ j i h1 h2 h3 h4
  beta_reduce
  rw [← fRow_planetary, ← omegaOf_rotation]
  exact hr.2 e j i h1 h2 h3 h4

theorem absolutevorticity_tri (hEs : ∀ i, (Es i).ok) (hl : lib.Sound) (hw : w.Valid lib) (t : Option ℤ) (omega : Option ℝ) :
    TriW (GoodSt lib w) (absolutevorticity Es lib w omega t)
      (fun r => ∃ T, Sphere.Spec.Truncation w.cfg.nlat t T ∧ 1 ≤ w.nt ∧
        Spec.Is w (Spec.Regular w.cfg.pl) r fun e j i => Spec.field lib w T (Spec.zeta lib w e) j i + Spec.planetary lib w (Spec.rotation omega) j) (refusal w t) := by
  refine (vorticity_tri hEs hl hw t).bind ?_
  rintro a ⟨T, h1, h2, h3⟩
  refine ((planetary_tri hw omega false).mono (fun _ h => h) fun _ h => h.elim).bind fun f hf => TriW.pure ⟨T, h1, h2, h3.1, fun hr => ?_⟩
  obtain ⟨s, hv⟩ := h3.2 hr
  refine ⟨s, fun e he j i a1 a2 a3 a4 => ?_⟩
  show a.get _ + f.get _ = _
  rw [hv e he j i a1 a2 a3 a4, (hf.2 trivial).2 e he j i a1 a2 a3 a4]

/-! ### Scalar fields -/

/-- A field that does not fit the wind or has missing values. -/
def badField (w : WCfg) (x : NDArr (Option ℝ)) : Prop := x.shape ≠ w.u.shape ∨ ¬ finite x

theorem reshape_values {x : NDArr ℝ} {n : ℕ} {extra : List ℕ} (h : x.shape = n :: extra) :
    ∃ y, x.reshape [n, extra.prod] = some y ∧ y.shape = [n, extra.prod] ∧ ∀ e, InB extra e → ∀ p, p < n → toF y (p + 1) (ravel extra e + 1) = x.get (p :: e) := by
  unfold NDArr.reshape
  rw [if_pos (by rw [h]; simp)]
  refine ⟨_, rfl, rfl, fun e he p hp => ?_⟩
  unfold toF
  dsimp only
  have : ravel [n, extra.prod] [p + 1 - 1, ravel extra e + 1 - 1] = ravel (n :: extra) (p :: e) := by simp [ravel]
  rw [this, h, unravel_ravel (s := n :: extra) (show InB (n :: extra) (p :: e) from ⟨hp, he⟩)]

theorem scalarField_tri (hw : w.Valid lib) (x : NDArr (Option ℝ)) {P : St → Prop} :
    TriW P (scalarField w x) (fun f => x.shape = w.u.shape ∧ finite x ∧ ∀ e, InB w.extra e → ∀ j i, 1 ≤ j → j ≤ w.cfg.nlat → 1 ≤ i → i ≤ w.cfg.row j →
      rowsOf w.cfg f (ravel w.extra e + 1) j i = RedGauss.Spec.value w.cfg.pl (values x) e j i) (fun e => badField w x ∧ e = .validation) := by
  classical
  unfold scalarField
  by_cases h1 : x.shape = w.u.shape
  · rw [if_neg (not_not.mpr h1)]
    by_cases h2 : finite x
    · rw [if_neg (not_not.mpr h2)]
      have hs : (values x).shape = w.cfg.npoints :: w.extra := by rw [← hw.hu, ← h1]; rfl
      obtain ⟨y, hy, _, hv⟩ := reshape_values hs
      rw [show w.u.shape.headD 0 = w.cfg.npoints by rw [hw.hu]; rfl, show w.nt = w.extra.prod from rfl, hy]
      exact TriW.pure ⟨h1, h2, fun e he j i a b c d => rows_value he hv a b c d⟩
    · rw [if_pos h2]; exact TriW.fail ⟨.inr h2, rfl⟩
  · rw [if_pos h1]; exact TriW.fail ⟨.inl h1, rfl⟩

/-- Outcomes of a refused call with a field. -/
def fieldRefusal (w : WCfg) (x : NDArr (Option ℝ)) (t : Option ℤ) (e : Fail) : Prop :=
  (badField w x ∧ e = .validation) ∨ (¬ badField w x ∧ refusal w t e)

theorem analyzeField_tri (hE : E.ok) (hl : lib.Sound) (hw : w.Valid lib) (x : NDArr (Option ℝ)) (t : Option ℤ) {β : Type} {ψ : β → Prop} {f : (ℕ → ℕ → ℂ) → ℕ → MW β}
    (h : ∀ T a, x.shape = w.u.shape → finite x → validateNtrunc w.cfg t = .ok T → T ≤ w.cfg.nlat - 1 → Sphere.Spec.Truncation w.cfg.nlat t T →
      Slices lib w True T ⟨specLen T, a⟩ (fun e => Spec.spectrum lib w (RedGauss.Spec.value w.cfg.pl (values x) e)) → TriW (GoodSt lib w) (f a T) ψ (fieldRefusal w x t)) :
    TriW (GoodSt lib w) (do
      let g ← scalarField w x
      let a ← inner (analyzeScalar E lib w.cfg w.nt g t)
      let T ← liftW (validateNtrunc w.cfg t)
      f a T) ψ (fieldRefusal w x t) := by
  refine ((scalarField_tri hw x).mono (fun _ h => h) fun e he => .inl he).bind ?_
  rintro g ⟨h1, h2, h3⟩
  have hgood : ¬ badField w x := fun hb => hb.elim (fun h => h h1) fun h => h h2
  rcases validateNtrunc_cases hw.hc.h3 t with ⟨T, t1, t2, t3⟩ | ⟨t1, t2⟩
  · have : analyzeScalar E lib w.cfg w.nt g t = analyzeScalar E lib w.cfg w.nt g (some (T : ℤ)) := by
      unfold analyzeScalar; rw [ntrunc_again hl hw t1 t2]
    rw [this]
    refine (TriW.inner ((analyzeScalar_tri hE hl hw.hc t2 g).mono (fun _ h => h) fun e he => .inr ⟨hgood, .inr ⟨⟨T, t3⟩, he⟩⟩)).bind fun a ha => ?_
    refine TriW.step t1 (h T a h1 h2 t1 t2 t3 ⟨rfl, ha.1, fun _ e he m n a1 a2 => ?_⟩)
    rw [show coefsOf T (Spect.mk (specLen T) a).val = coefsOf T a from rfl, ha.2 _ (ravel_bounds he).1 (ravel_bounds he).2 m n a1 a2]
    exact analysis_congr fun j i => h3 e he j i
  · intro s hs
    have : run (inner (analyzeScalar E lib w.cfg w.nt g t)) s = (.error .validation, s) := by
      rw [run_inner]
      have : exec (analyzeScalar E lib w.cfg w.nt g t) s.1 = (.error .validation, s.1) := by
        unfold analyzeScalar; exact exec_lift_fail t1 s.1
      rw [this]
    rw [run_bind_error this]
    exact ⟨hs, .inr ⟨hgood, .inl ⟨rfl, t2⟩⟩⟩

theorem gradient_tri (hEs : ∀ i, (Es i).ok) (hl : lib.Sound) (hw : w.Valid lib) (x : NDArr (Option ℝ)) (t : Option ℤ) :
    TriW (GoodSt lib w) (gradient Es lib w x t)
      (fun r => x.shape = w.u.shape ∧ finite x ∧ ∃ T, Sphere.Spec.Truncation w.cfg.nlat t T ∧ 1 ≤ w.nt ∧
        (Spec.Is w True r.1 fun e => Spec.east lib w T (Spec.spectrum lib w (RedGauss.Spec.value w.cfg.pl (values x) e))) ∧
        Spec.Is w True r.2 fun e => Spec.north lib w T (Spec.spectrum lib w (RedGauss.Spec.value w.cfg.pl (values x) e))) (fieldRefusal w x t) := by
  refine analyzeField_tri (hEs 0) hl hw x t fun T a h1 h2 t1 t2 t3 ha => ?_
  refine (gradStep hl hw (hEs 1) t1 t2 ha).bind fun g hg => ?_
  refine (restoreGridW_tri hw (g 1)).bind fun r hr => (restoreGridW_tri hw (g 2)).bind fun r' hr' => TriW.pure ⟨h1, h2, T, t3, ha.nt, ?_, ?_⟩
  · exact ⟨hr.1, fun h => (hr.2 trivial).congr fun e he j i a b c d => (hg h e he j i a b c d).1⟩
  · exact ⟨hr'.1, fun h => (hr'.2 trivial).congr fun e he j i a b c d => (hg h e he j i a b c d).2⟩

theorem truncate_tri (hEs : ∀ i, (Es i).ok) (hl : lib.Sound) (hw : w.Valid lib) (x : NDArr (Option ℝ)) (t : Option ℤ) :
    TriW (GoodSt lib w) (truncate Es lib w x t)
      (fun r => x.shape = w.u.shape ∧ finite x ∧ ∃ T, Sphere.Spec.Truncation w.cfg.nlat t T ∧ 1 ≤ w.nt ∧
        Spec.Is w True r fun e => Spec.field lib w T (Spec.spectrum lib w (RedGauss.Spec.value w.cfg.pl (values x) e))) (fieldRefusal w x t) := by
  refine analyzeField_tri (hEs 0) hl hw x t fun T a h1 h2 t1 t2 t3 ha => ?_
  exact (synth_tri hl hw (hEs 1) t1 t2 ha).mono (fun r hr => ⟨h1, h2, T, t3, ha.nt, hr⟩) fun _ h => h

/-! ### Rossby wave source -/

theorem pvCoef_spectrum (om : ℝ) : pvCoef lib w om = Spec.spectrum lib w fun j _ => Spec.planetary lib w om j := by
  unfold pvCoef
  simp only [fRow_planetary]
  rfl

theorem rossby_tri (hEs : ∀ i, (Es i).ok) (hl : lib.Sound) (hw : w.Valid lib) (t : Option ℤ) (omega : Option ℝ) :
    TriW (GoodSt lib w) (rossbywavesource Es lib w t omega)
      (fun r => ∃ T, Sphere.Spec.Truncation w.cfg.nlat t T ∧ 1 ≤ w.nt ∧ Spec.Is w (Spec.Regular w.cfg.pl) r fun e j i =>
        -(Spec.field lib w T (Spec.zeta lib w e) j i + Spec.planetary lib w (Spec.rotation omega) j) * Spec.field lib w T (Spec.delta lib w e) j i -
          (Spec.east lib w T (Spec.inv w (Spec.delta lib w e)) j i *
            Spec.east lib w T (fun m n => Spec.zeta lib w e m n + Spec.spectrum lib w (fun j _ => Spec.planetary lib w (Spec.rotation omega) j) m n) j i +
           Spec.north lib w T (Spec.inv w (Spec.delta lib w e)) j i *
            Spec.north lib w T (fun m n => Spec.zeta lib w e m n + Spec.spectrum lib w (fun j _ => Spec.planetary lib w (Spec.rotation omega) j) m n) j i)) (refusal w t) := by
  refine (windSpectra_tri (hEs 0) hl hw t).bind ?_
  rintro ⟨a, b⟩ ⟨T, h1, h2, h3, ha, hb⟩
  have hz := ha.vrt hw
  have hd := hb.dv hw
  have hchi := hb.chi hw
  dsimp only
  have : synthesizePair (Es 1) (Es 2) lib w.cfg a.len w.nt a.val b.val t = synthesizePair (Es 1) (Es 2) lib w.cfg (nmDim T) w.nt a.val b.val (some (T : ℤ)) := by
    unfold synthesizePair; rw [ntrunc_again hl hw h1 h2, hz.len]
  rw [this]
  refine (TriW.inner ((synthesizePair_tri (hEs 1) (hEs 2) hl hw.hc h2 _ _).mono (fun _ h => h) fun e he => ?_)).bind fun vd hvd => ?_
  · have := hchi.nt; omega
  refine ((pvGrid_tri hw omega).mono (fun _ h => h) fun _ h => h.elim).bind fun f hf => ?_
  refine (gradStep hl hw (hEs 3) h1 h2 hchi).bind fun g hg => ?_
  refine ((pvSpec_tri (hEs 4) hl hw t omega hchi.nt h1 h2).mono (fun _ h => h) fun _ h => h.elim).bind fun fs hfs => ?_
  have heta : Slices lib w (Spec.Regular w.cfg.pl) T ⟨a.len, fun p k => a.val p k + fs.val p k⟩
      (fun e m n => Spec.zeta lib w e m n + Spec.spectrum lib w (fun j _ => Spec.planetary lib w (Spec.rotation omega) j) m n) := by
    refine ⟨hz.len, hz.nt, fun hr e he m n a1 a2 => ?_⟩
    have e1 := hz.val hr e he m n a1 a2
    have e2 := hfs.2.2 trivial _ (ravel_bounds he).1 (ravel_bounds he).2 m n a1 a2
    rw [omegaOf_rotation, pvCoef_spectrum] at e2
    beta_reduce at e2
    show a.val _ _ + fs.val _ _ = _
    rw [← e1, ← e2]; rfl
  refine (gradStep hl hw (hEs 5) h1 h2 heta).bind fun h hh => ?_
  refine (restoreGridW_tri hw _).mono (fun r hr => ⟨T, h3, hchi.nt, hr.1, fun hreg => (hr.2 trivial).congr fun e he j i a1 a2 a3 a4 => ?_⟩) fun _ h => h
  have v1 := synth_value hz hvd.2.1 hreg e he j i a1 a2 a3 a4
  have v2 := synth_value hd hvd.2.2 hreg e he j i a1 a2 a3 a4
  have v3 := hf (ravel w.extra e + 1) j i a1 a2 a3 a4
  have v4 := hg hreg e he j i a1 a2 a3 a4
  have v5 := hh hreg e he j i a1 a2 a3 a4
  rw [fRow_planetary, omegaOf_rotation] at v3
  rw [← v1, ← v2, ← v3, ← v4.1, ← v4.2, ← v5.1, ← v5.2]
  rfl

end Skyborn.RedWind
