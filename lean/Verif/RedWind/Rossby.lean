/-
`ReducedVectorWind`: the Rossby wave source (C222), and winds that come from spectra (C223).
-/
import Verif.RedWind.Fields
import Verif.Sphere.WindProps4

namespace Skyborn.RedWind

open Skyborn RedGauss

variable {lib : Lib} {w : WCfg} {Es : ℕ → Env} {T : ℕ} {t : Option ℤ} {st : St}

/-! ### The planetary vorticity and its spectrum -/

/-- Coefficients of `2 Ω cos θ`. -/
noncomputable def pvTrue (om : ℝ) (m n : ℕ) : ℂ := if m = 0 ∧ n = 1 then ((2 * om / Real.sqrt (3 / 2) : ℝ) : ℂ) else 0

theorem pvTrue_order (om : ℝ) (hT : 1 ≤ T) (θ : ℝ) (m : ℕ) : RedGauss.Spec.order T (pvTrue om) θ m = if m = 0 then ((2 * om * Real.cos θ : ℝ) : ℂ) else 0 := by
  unfold RedGauss.Spec.order
  split_ifs with h
  · subst h
    rw [Finset.sum_eq_single 1]
    · rw [Sphere.pbar_zero_one]
      have : Real.sqrt (3 / 2) ≠ 0 := by positivity
      unfold pvTrue
      rw [if_pos ⟨rfl, rfl⟩, ← Complex.ofReal_mul]
      congr 1
      field_simp
    · intro n _ hn; unfold pvTrue; rw [if_neg (by tauto), zero_mul]
    · intro h; exact absurd (Finset.mem_Icc.mpr ⟨by omega, hT⟩) h
  · exact Finset.sum_eq_zero fun n _ => by unfold pvTrue; rw [if_neg (by tauto), zero_mul]

theorem rowField_zonal {N : ℕ} {A : ℕ → ℂ} (h : ∀ m, m ≠ 0 → A m = 0) (l : ℝ) : RedGauss.Spec.rowField N T A l = (A 0).re := by
  unfold RedGauss.Spec.rowField
  rw [Finset.sum_eq_single 0]
  · simp
  · intro m _ hm; rw [h m hm]; simp
  · intro h; exact absurd (by simp) h

theorem pvTrue_field (om : ℝ) (hT : 1 ≤ T) (N : ℕ) (θ l : ℝ) : RedGauss.Spec.fieldAt N T (pvTrue om) θ l = 2 * om * Real.sin (Real.pi / 2 - θ) := by
  unfold RedGauss.Spec.fieldAt
  rw [rowField_zonal fun m hm => by rw [pvTrue_order om hT, if_neg hm], pvTrue_order om hT, if_pos rfl, Complex.ofReal_re, Real.sin_pi_div_two_sub]

/-- On Gaussian rows the analysis of the planetary vorticity is exact, whatever the lengths of the rows. -/
theorem pv_spectrum (hG : Sphere.Spec.Gauss w.cfg.nlat (lib.theta w.cfg.nlat) (lib.weight w.cfg.nlat)) (hw : w.Valid lib) (hT1 : 1 ≤ T) (hT : T < w.cfg.nlat) (om : ℝ)
    {m n : ℕ} (hmn : m ≤ n) (hn : n ≤ T) : Spec.spectrum lib w (fun j _ => Spec.planetary lib w om j) m n = pvTrue om m n := by
  have hf : (fun (j i : ℕ) => Spec.planetary lib w om j) = fun j i => RedGauss.Spec.rowField (RedGauss.Spec.row w.cfg.pl j) T (RedGauss.Spec.order T (pvTrue om) (lib.theta w.cfg.nlat j))
      (RedGauss.Spec.lon (RedGauss.Spec.row w.cfg.pl j) i) := by
    funext j i
    exact (pvTrue_field om hT1 _ _ _).symm
  unfold Spec.spectrum
  rw [hf]
  have hpl := valid_pl hw.hc
  by_cases hm : m = 0
  · subst hm
    exact analysis_synthesis hG hT (pvTrue om) hmn hn hpl (fun j h1 h2 => by have : 1 ≤ RedGauss.Spec.row w.cfg.pl j := hpl j h1 h2; omega) fun k => by unfold pvTrue; split_ifs; exacts [Complex.ofReal_im _, Complex.zero_im]
  · rw [show pvTrue om m n = 0 by unfold pvTrue; rw [if_neg (by tauto)]]
    unfold RedGauss.Spec.analysis
    refine Finset.sum_eq_zero fun j hj => ?_
    rw [Finset.mem_filter, Finset.mem_Icc] at hj
    beta_reduce
    rw [circleCoef_rowField (show 1 ≤ RedGauss.Spec.row w.cfg.pl j from hpl j hj.1.1 hj.1.2) (by omega) hj.2, pvTrue_order om hT1, if_neg hm]
    simp

/-- C222: on Gaussian rows, with a truncation of at least 1, the Rossby wave source is minus the absolute vorticity times
the divergence minus the advection of the absolute vorticity by the irrotational wind (the gradient of the velocity
potential); the absolute vorticity is the relative one plus `2 Ω sin φ`, with its exact gradient. -/
theorem C222_rossby_partial (hl : lib.Sound) (hG : Sphere.Spec.Gauss w.cfg.nlat (lib.theta w.cfg.nlat) (lib.weight w.cfg.nlat))
    (hreg : RedGauss.Spec.Regular w.cfg.pl) (hst : LiveW lib w st) (hEs : ∀ i, (Es i).ok) (hT : Sphere.Spec.Truncation w.cfg.nlat t T) (hT1 : 1 ≤ T)
    (hne : 1 ≤ w.extra.prod) (omega : Option ℝ) :
    ∃ r st', run (rossbywavesource Es lib w t omega) st = (.ok r, st') ∧ r.shape = w.u.shape ∧
      ∀ e, InB w.extra e → ∃ u v x y : ℕ → ℕ → ℝ, Spec.Gradient lib w T (Spec.inv w (Spec.delta lib w e)) u v ∧
        ∀ j i, 1 ≤ j → j ≤ w.cfg.nlat → 1 ≤ i → i ≤ RedGauss.Spec.row w.cfg.pl j →
          HasDerivAt (fun l => RedGauss.Spec.fieldAt (RedGauss.Spec.row w.cfg.pl j) T (Spec.zeta lib w e) (lib.theta w.cfg.nlat j) l +
              2 * omega.getD 7.292e-5 * Real.sin (Real.pi / 2 - lib.theta w.cfg.nlat j))
            (w.cfg.rsphere * Real.sin (lib.theta w.cfg.nlat j) * x j i) (RedGauss.Spec.lon (RedGauss.Spec.row w.cfg.pl j) i) ∧
          HasDerivAt (fun θ => RedGauss.Spec.fieldAt (RedGauss.Spec.row w.cfg.pl j) T (Spec.zeta lib w e) θ (RedGauss.Spec.lon (RedGauss.Spec.row w.cfg.pl j) i) +
              2 * omega.getD 7.292e-5 * Real.sin (Real.pi / 2 - θ))
            (-(w.cfg.rsphere * y j i)) (lib.theta w.cfg.nlat j) ∧
          RedGauss.Spec.value w.cfg.pl r e j i =
            -((Spec.field lib w T (Spec.zeta lib w e) j i + 2 * omega.getD 7.292e-5 * Real.sin (Real.pi / 2 - lib.theta w.cfg.nlat j)) *
              Spec.field lib w T (Spec.delta lib w e) j i) - (u j i * x j i + v j i * y j i) := by
  obtain ⟨hw, _⟩ := hst.good hl
  have hTn : T < w.cfg.nlat := by
    rcases hT with ⟨_, h⟩ | ⟨_, h⟩
    · have := hw.hc.h3; omega
    · exact h
  obtain ⟨r, st', h, h'⟩ := hst.get hl (rossby_tri hEs hl hw t omega) hT hne
  have hom : Spec.rotation omega = omega.getD 7.292e-5 := by unfold Spec.rotation; cases omega <;> rfl
  rw [hom] at h'
  set om := omega.getD 7.292e-5
  refine ⟨r, st', h, h'.1, fun e he => ⟨_, _, Spec.east lib w T fun m n => Spec.zeta lib w e m n + pvTrue om m n, Spec.north lib w T fun m n => Spec.zeta lib w e m n + pvTrue om m n,
    gradient_of hl hw fun j i _ _ _ _ => ⟨rfl, rfl⟩, fun j i j1 j2 i1 i2 => ?_⟩⟩
  have hsum : ∀ N θ l, RedGauss.Spec.fieldAt N T (fun m n => Spec.zeta lib w e m n + pvTrue om m n) θ l = RedGauss.Spec.fieldAt N T (Spec.zeta lib w e) θ l +
      2 * om * Real.sin (Real.pi / 2 - θ) := by
    intro N θ l
    rw [← pvTrue_field om hT1 N θ l]
    unfold RedGauss.Spec.fieldAt
    rw [← rowField_add]
    congr 1
    funext m
    unfold RedGauss.Spec.order
    rw [← Finset.sum_add_distrib]
    exact Finset.sum_congr rfl fun n _ => by ring
  have hsin : 0 < Real.sin (lib.theta w.cfg.nlat j) := by rw [← hw.hc.hs j]; exact valid_sin hl hw.hc j j1 j2
  have d1 := east_deriv (RedGauss.Spec.row w.cfg.pl j) T hw.hc.hr hsin (fun m n => Spec.zeta lib w e m n + pvTrue om m n) (RedGauss.Spec.lon (RedGauss.Spec.row w.cfg.pl j) i)
  have d2 := north_deriv (RedGauss.Spec.row w.cfg.pl j) T hw.hc.hr (fun m n => Spec.zeta lib w e m n + pvTrue om m n) (lib.theta w.cfg.nlat j) (RedGauss.Spec.lon (RedGauss.Spec.row w.cfg.pl j) i)
  refine ⟨?_, ?_, ?_⟩
  · simp only [← hsum]; exact d1
  · simp only [← hsum]; exact d2
  · have hv := (h'.2 hreg).2 e he j i j1 j2 i1 i2
    beta_reduce at hv
    have hc : ∀ m n, m ≤ n → n ≤ T → Spec.zeta lib w e m n + Spec.spectrum lib w (fun j _ => Spec.planetary lib w om j) m n = Spec.zeta lib w e m n + pvTrue om m n :=
      fun m n a b => by rw [pv_spectrum hG hw hT1 hTn om a b]
    have g := grad_congr (N := RedGauss.Spec.row w.cfg.pl j) (r := w.cfg.rsphere) (θ := lib.theta w.cfg.nlat j) (l := RedGauss.Spec.lon (RedGauss.Spec.row w.cfg.pl j) i) hc
    have g1 : Spec.east lib w T (fun m n => Spec.zeta lib w e m n + Spec.spectrum lib w (fun j _ => Spec.planetary lib w om j) m n) j i =
        Spec.east lib w T (fun m n => Spec.zeta lib w e m n + pvTrue om m n) j i := g.1
    have g2 : Spec.north lib w T (fun m n => Spec.zeta lib w e m n + Spec.spectrum lib w (fun j _ => Spec.planetary lib w om j) m n) j i =
        Spec.north lib w T (fun m n => Spec.zeta lib w e m n + pvTrue om m n) j i := g.2
    rw [g1, g2] at hv
    refine hv.trans ?_
    unfold Spec.planetary
    ring

/-! ### Winds that come from spectra -/

/-- The wind given is the wind of a streamfunction and a velocity potential with the coefficients `ψ`, `χ`. -/
def Spec.WindOf (lib : Lib) (w : WCfg) (T : ℕ) (ψ χ : List ℕ → ℕ → ℕ → ℂ) : Prop :=
  ∀ e, InB w.extra e → ∀ j i, 1 ≤ j → j ≤ w.cfg.nlat → 1 ≤ i → i ≤ RedGauss.Spec.row w.cfg.pl j →
    RedGauss.Spec.value w.cfg.pl w.u e j i = Spec.east lib w T (χ e) j i - Spec.north lib w T (ψ e) j i ∧
    RedGauss.Spec.value w.cfg.pl w.v e j i = Spec.north lib w T (χ e) j i + Spec.east lib w T (ψ e) j i

theorem zeta_delta (hl : lib.Sound) (hw : w.Valid lib) (hG : Sphere.Spec.Gauss w.cfg.nlat (lib.theta w.cfg.nlat) (lib.weight w.cfg.nlat)) {ψ χ : List ℕ → ℕ → ℕ → ℂ}
    (h : Spec.WindOf lib w T ψ χ) (hT : T < w.cfg.nlat) {e : List ℕ} (he : InB w.extra e) (h0 : RedGauss.Spec.RealField (ψ e) ∧ RedGauss.Spec.RealField (χ e)) {m n : ℕ} (hmn : m ≤ n) (hn : n ≤ T)
    (hm : RedGauss.Spec.Carries w.cfg.pl m) :
    Spec.zeta lib w e m n = ((-((n : ℝ) * (n + 1)) / w.cfg.rsphere ^ 2 : ℝ) : ℂ) * ψ e m n ∧
      Spec.delta lib w e m n = ((-((n : ℝ) * (n + 1)) / w.cfg.rsphere ^ 2 : ℝ) : ℂ) * χ e m n := by
  have hsin : ∀ j, 1 ≤ j → j ≤ w.cfg.nlat → Real.sin (lib.theta w.cfg.nlat j) ≠ 0 := fun j j1 j2 => by rw [← hw.hc.hs j]; exact (valid_sin hl hw.hc j j1 j2).ne'
  have key := wind_analysis (n := n) (m := m) (pl := RedGauss.Spec.row w.cfg.pl) (ψ := ψ e) (χ := χ e) hG hsin hw.hc.hr.ne' hT hmn hn (valid_pl hw.hc) hm fun k => ⟨h0.1 k, h0.2 k⟩
  have cg := wind_congr (nlat := w.cfg.nlat) (pl := RedGauss.Spec.row w.cfg.pl) (θ := lib.theta w.cfg.nlat) (w := lib.weight w.cfg.nlat) (r := w.cfg.rsphere) (m := m) (n := n)
    (f := RedGauss.Spec.value w.cfg.pl w.u e) (f' := RedGauss.Spec.value w.cfg.pl w.v e)
    (g := fun j i => RedGauss.Spec.windU (RedGauss.Spec.row w.cfg.pl j) T w.cfg.rsphere (ψ e) (χ e) (lib.theta w.cfg.nlat j) (RedGauss.Spec.lon (RedGauss.Spec.row w.cfg.pl j) i))
    (g' := fun j i => RedGauss.Spec.windV (RedGauss.Spec.row w.cfg.pl j) T w.cfg.rsphere (ψ e) (χ e) (lib.theta w.cfg.nlat j) (RedGauss.Spec.lon (RedGauss.Spec.row w.cfg.pl j) i))
    (fun j i j1 j2 i1 i2 => (h e he j i j1 j2 i1 i2).1) (fun j i j1 j2 i1 i2 => (h e he j i j1 j2 i1 i2).2)
  exact ⟨cg.2.trans key.2, cg.1.trans key.1⟩

theorem inv_lap {r : ℝ} (hr : 0 < r) {a b : ℕ → ℕ → ℂ} {m n : ℕ} (h : a m n = ((-((n : ℝ) * (n + 1)) / r ^ 2 : ℝ) : ℂ) * b m n) :
    RedGauss.Spec.invlap r a m n = if n = 0 then 0 else b m n := by
  unfold RedGauss.Spec.invlap
  split_ifs with h0
  · rfl
  · rw [h, ← mul_assoc, ← Complex.ofReal_mul]
    have hn0 : (n : ℝ) ≠ 0 := by exact_mod_cast h0
    have hn1 : (n : ℝ) + 1 ≠ 0 := by positivity
    rw [show -(r ^ 2) / ((n : ℝ) * (n + 1)) * (-((n : ℝ) * (n + 1)) / r ^ 2) = 1 by field_simp]
    simp

/-- The mean of a field has no gradient. -/
theorem grad_mean {N : ℕ} {r θ l : ℝ} {a b : ℕ → ℕ → ℂ} (h : ∀ m n, m ≤ n → n ≤ T → n ≠ 0 → a m n = b m n) :
    RedGauss.Spec.east N T r a θ l = RedGauss.Spec.east N T r b θ l ∧ RedGauss.Spec.north N T r a θ l = RedGauss.Spec.north N T r b θ l := by
  constructor
  · unfold RedGauss.Spec.east
    congr 1
    funext m
    by_cases hm : m = 0
    · subst hm; simp
    · congr 1
      unfold RedGauss.Spec.order
      refine Finset.sum_congr rfl fun n hn => ?_
      rw [Finset.mem_Icc] at hn
      rw [h m n hn.1 hn.2 (by omega)]
  · unfold RedGauss.Spec.north
    congr 1
    funext m
    congr 1
    unfold RedGauss.Spec.dorder
    refine Finset.sum_congr rfl fun n hn => ?_
    rw [Finset.mem_Icc] at hn
    by_cases h0 : n = 0
    · subst h0
      have hm : m = 0 := by omega
      subst hm
      have : Sphere.dpbar 0 0 θ = 0 := by unfold Sphere.dpbar Sphere.rod; simp
      rw [this]; simp
    · rw [h m n hn.1 hn.2 h0]

theorem Carries.le {pl : List ℕ} {m m' : ℕ} (h : RedGauss.Spec.Carries pl m') (hm : m ≤ m') : RedGauss.Spec.Carries pl m :=
  fun j h1 h2 => by have := h j h1 h2; omega

theorem field_congr {a b : ℕ → ℕ → ℂ} (h : ∀ m n, m ≤ n → n ≤ T → a m n = b m n) (j i : ℕ) : Spec.field lib w T a j i = Spec.field lib w T b j i := by
  unfold Spec.field RedGauss.Spec.fieldAt
  rw [order_congr h]

/-- C223: with Gaussian rows that all carry the truncation, a wind that comes from a streamfunction `ψ` and a velocity
potential `χ` of that truncation is taken apart without loss: `streamfunction` and `velocitypotential` are `ψ` and `χ`
without their means, `vorticity` and `divergence` their Laplacians, and the parts of `helmholtz` add up to the wind. -/
theorem C223_round_partial (hl : lib.Sound) (hG : Sphere.Spec.Gauss w.cfg.nlat (lib.theta w.cfg.nlat) (lib.weight w.cfg.nlat))
    (hreg : RedGauss.Spec.Regular w.cfg.pl) (hst : LiveW lib w st) (hEs : ∀ i, (Es i).ok) (hT : Sphere.Spec.Truncation w.cfg.nlat t T) (hcar : RedGauss.Spec.Carries w.cfg.pl T)
    (hne : 1 ≤ w.extra.prod) {ψ χ : List ℕ → ℕ → ℕ → ℂ} (hwind : Spec.WindOf lib w T ψ χ)
    (h0 : ∀ e, InB w.extra e → RedGauss.Spec.RealField (ψ e) ∧ RedGauss.Spec.RealField (χ e)) :
    (∃ r st', run (streamfunction Es lib w t) st = (.ok r, st') ∧ Spec.Field w r fun e => Spec.field lib w T fun m n => if n = 0 then 0 else ψ e m n) ∧
    (∃ r st', run (velocitypotential Es lib w t) st = (.ok r, st') ∧ Spec.Field w r fun e => Spec.field lib w T fun m n => if n = 0 then 0 else χ e m n) ∧
    (∃ r st', run (vorticity Es lib w t) st = (.ok r, st') ∧
      Spec.Field w r fun e => Spec.field lib w T fun m n => ((-((n : ℝ) * (n + 1)) / w.cfg.rsphere ^ 2 : ℝ) : ℂ) * ψ e m n) ∧
    (∃ r st', run (divergence Es lib w t) st = (.ok r, st') ∧
      Spec.Field w r fun e => Spec.field lib w T fun m n => ((-((n : ℝ) * (n + 1)) / w.cfg.rsphere ^ 2 : ℝ) : ℂ) * χ e m n) ∧
    ∃ x y x' y' st', run (helmholtz Es lib w t) st = (.ok ((x, y), (x', y')), st') ∧
      ∀ e, InB w.extra e → ∀ j i, 1 ≤ j → j ≤ w.cfg.nlat → 1 ≤ i → i ≤ RedGauss.Spec.row w.cfg.pl j →
        RedGauss.Spec.value w.cfg.pl x e j i = Spec.east lib w T (χ e) j i ∧ RedGauss.Spec.value w.cfg.pl y e j i = Spec.north lib w T (χ e) j i ∧
        RedGauss.Spec.value w.cfg.pl x e j i + RedGauss.Spec.value w.cfg.pl x' e j i = RedGauss.Spec.value w.cfg.pl w.u e j i ∧
        RedGauss.Spec.value w.cfg.pl y e j i + RedGauss.Spec.value w.cfg.pl y' e j i = RedGauss.Spec.value w.cfg.pl w.v e j i := by
  obtain ⟨hw, _⟩ := hst.good hl
  have hTn : T < w.cfg.nlat := by
    rcases hT with ⟨_, h⟩ | ⟨_, h⟩
    · have := hw.hc.h3; omega
    · exact h
  have key := fun e (he : InB w.extra e) m n (hmn : m ≤ n) (hn : n ≤ T) => zeta_delta hl hw hG hwind hTn he (h0 e he) hmn hn (Carries.le hcar (by omega : m ≤ T))
  have kz : ∀ e, InB w.extra e → ∀ m n, m ≤ n → n ≤ T → Spec.inv w (Spec.zeta lib w e) m n = if n = 0 then 0 else ψ e m n :=
    fun e he m n a b => inv_lap hw.hc.hr (key e he m n a b).1
  have kd : ∀ e, InB w.extra e → ∀ m n, m ≤ n → n ≤ T → Spec.inv w (Spec.delta lib w e) m n = if n = 0 then 0 else χ e m n :=
    fun e he m n a b => inv_lap hw.hc.hr (key e he m n a b).2
  obtain ⟨f1, f2, _, f4, f5, _⟩ := C219_fields_partial hl hst hEs hT hne hreg
  obtain ⟨r1, s1, h1, h1'⟩ := f1
  obtain ⟨r2, s2, h2, h2'⟩ := f2
  obtain ⟨r4, s4, h4, h4'⟩ := f4
  obtain ⟨r5, s5, h5, h5'⟩ := f5
  refine ⟨⟨r4, s4, h4, h4'.congr fun e he j i _ _ _ _ => field_congr (kz e he) j i⟩, ⟨r5, s5, h5, h5'.congr fun e he j i _ _ _ _ => field_congr (kd e he) j i⟩,
    ⟨r1, s1, h1, h1'.congr fun e he j i _ _ _ _ => field_congr (fun m n a b => (key e he m n a b).1) j i⟩,
    ⟨r2, s2, h2, h2'.congr fun e he j i _ _ _ _ => field_congr (fun m n a b => (key e he m n a b).2) j i⟩, ?_⟩
  obtain ⟨r, st', h, ⟨g1, g2⟩, g3, g4⟩ := hst.get hl (helmholtz_tri hEs hl hw t) hT hne
  refine ⟨r.1.1, r.1.2, r.2.1, r.2.2, st', h, fun e he j i j1 j2 i1 i2 => ?_⟩
  have v1 := (g1.2 hreg).2 e he j i j1 j2 i1 i2
  have v2 := (g2.2 hreg).2 e he j i j1 j2 i1 i2
  have v3 := (g3.2 hreg).2 e he j i j1 j2 i1 i2
  have v4 := (g4.2 hreg).2 e he j i j1 j2 i1 i2
  beta_reduce at v1 v2 v3 v4
  have mz := grad_mean (N := RedGauss.Spec.row w.cfg.pl j) (r := w.cfg.rsphere) (θ := lib.theta w.cfg.nlat j) (l := RedGauss.Spec.lon (RedGauss.Spec.row w.cfg.pl j) i)
    fun m n a b c => (kz e he m n a b).trans (if_neg c)
  have md := grad_mean (N := RedGauss.Spec.row w.cfg.pl j) (r := w.cfg.rsphere) (θ := lib.theta w.cfg.nlat j) (l := RedGauss.Spec.lon (RedGauss.Spec.row w.cfg.pl j) i)
    fun m n a b c => (kd e he m n a b).trans (if_neg c)
  have e1 : RedGauss.Spec.value w.cfg.pl r.1.1 e j i = Spec.east lib w T (χ e) j i := v1.trans md.1
  have e2 : RedGauss.Spec.value w.cfg.pl r.1.2 e j i = Spec.north lib w T (χ e) j i := v2.trans md.2
  have e3 : RedGauss.Spec.value w.cfg.pl r.2.1 e j i = -Spec.north lib w T (ψ e) j i := v3.trans (congrArg Neg.neg mz.2)
  have e4 : RedGauss.Spec.value w.cfg.pl r.2.2 e j i = Spec.east lib w T (ψ e) j i := v4.trans mz.1
  obtain ⟨wu, wv⟩ := hwind e he j i j1 j2 i1 i2
  refine ⟨e1, e2, ?_, ?_⟩
  · rw [e1, e3, wu]; ring
  · rw [e2, e4, wv]

/-- C224: with Gaussian rows that all carry the truncation, `truncate` gives a field of that truncation back unchanged. -/
theorem C224_truncate_partial (hl : lib.Sound) (hG : Sphere.Spec.Gauss w.cfg.nlat (lib.theta w.cfg.nlat) (lib.weight w.cfg.nlat))
    (hst : LiveW lib w st) (hEs : ∀ i, (Es i).ok) (hT : Sphere.Spec.Truncation w.cfg.nlat t T) (hcar : RedGauss.Spec.Carries w.cfg.pl T)
    (hne : 1 ≤ w.extra.prod) {x : NDArr (Option ℝ)} (hx : x.shape = w.u.shape) (hf : ∀ idx, InB x.shape idx → x.get idx ≠ none) {a : List ℕ → ℕ → ℕ → ℂ}
    (ha : Spec.Field w (values x) fun e => Spec.field lib w T (a e)) (h0 : ∀ e, InB w.extra e → RedGauss.Spec.RealField (a e)) :
    ∃ r st', run (truncate Es lib w x t) st = (.ok r, st') ∧ Spec.Field w r fun e j i => RedGauss.Spec.value w.cfg.pl (values x) e j i := by
  obtain ⟨hw, _⟩ := hst.good hl
  have hTn : T < w.cfg.nlat := by
    rcases hT with ⟨_, h⟩ | ⟨_, h⟩
    · have := hw.hc.h3; omega
    · exact h
  obtain ⟨⟨r, st', h1, h2⟩, _⟩ := C224_scalar hl hst hEs hT hne hx hf
  refine ⟨r, st', h1, h2.congr fun e he j i j1 j2 i1 i2 => ?_⟩
  have : RedGauss.Spec.value w.cfg.pl (values x) e j i = Spec.field lib w T (a e) j i := ha.2 e he j i j1 j2 i1 i2
  rw [this]
  refine field_congr (fun m n hmn hn => ?_) j i
  refine (analysis_congr (nlat := w.cfg.nlat) (pl := RedGauss.Spec.row w.cfg.pl) (f := RedGauss.Spec.value w.cfg.pl (values x) e) (g := fun j i => Spec.field lib w T (a e) j i)
    fun j i j1 j2 i1 i2 => ha.2 e he j i j1 j2 i1 i2).trans ?_
  exact analysis_synthesis hG hTn (a e) hmn hn (valid_pl hw.hc) (Carries.le hcar (by omega)) (h0 e he)

/-- The coefficients of order zero of a real field are real. -/
theorem analysis_real {nlat : ℕ} {pl : ℕ → ℕ} {θ v : ℕ → ℝ} (f : ℕ → ℕ → ℝ) : RedGauss.Spec.RealField (RedGauss.Spec.analysis nlat pl θ v f) := by
  intro k
  unfold RedGauss.Spec.analysis
  rw [Complex.im_sum]
  refine Finset.sum_eq_zero fun j _ => ?_
  rw [Complex.im_ofReal_mul]
  have : (RedGauss.Spec.circleCoef (pl j) (f j) 0).im = 0 := by
    unfold RedGauss.Spec.circleCoef
    have : (1 / (pl j : ℂ)) * ∑ i ∈ Finset.Icc 1 (pl j), (f j i : ℂ) * Complex.exp (-(Complex.I * ((0 : ℕ) * RedGauss.Spec.lon (pl j) i))) =
        (((1 / (pl j : ℝ)) * ∑ i ∈ Finset.Icc 1 (pl j), f j i : ℝ) : ℂ) := by push_cast; simp
    rw [this, Complex.ofReal_im]
  rw [this, mul_zero]

/-- C224: with Gaussian rows that all carry the truncation, truncating twice is truncating once, in whatever states the two
calls are made. -/
theorem C224_idempotent_partial (hl : lib.Sound) (hG : Sphere.Spec.Gauss w.cfg.nlat (lib.theta w.cfg.nlat) (lib.weight w.cfg.nlat)) {st2 : St} {Es2 : ℕ → Env}
    (hst : LiveW lib w st) (hst2 : LiveW lib w st2) (hEs : ∀ i, (Es i).ok) (hEs2 : ∀ i, (Es2 i).ok) (hT : Sphere.Spec.Truncation w.cfg.nlat t T)
    (hcar : RedGauss.Spec.Carries w.cfg.pl T) (hne : 1 ≤ w.extra.prod) {x : NDArr (Option ℝ)} (hx : x.shape = w.u.shape) (hf : ∀ idx, InB x.shape idx → x.get idx ≠ none) :
    ∃ r st', run (truncate Es lib w x t) st = (.ok r, st') ∧
      ∃ r' st'', run (truncate Es2 lib w ⟨r.shape, fun idx => some (r.get idx)⟩ t) st2 = (.ok r', st'') ∧
        Spec.Field w r' fun e j i => RedGauss.Spec.value w.cfg.pl r e j i := by
  obtain ⟨hw, _⟩ := hst.good hl
  obtain ⟨⟨r, st', h1, h2⟩, _⟩ := C224_scalar hl hst hEs hT hne hx hf
  obtain ⟨r', st'', h3, h4⟩ := C224_truncate_partial (x := ⟨r.shape, fun idx => some (r.get idx)⟩) hl hG hst2 hEs2 hT hcar hne (by rw [hw.hu]; exact h2.1) (fun _ _ => by simp) (a := fun e => _) h2
    fun e _ => analysis_real _
  exact ⟨r, st', h1, r', st'', h3, h4⟩

end Skyborn.RedWind
