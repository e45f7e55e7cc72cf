/-
`ReducedVectorWind`: what the methods return, after any history (C219, C220, C221).
-/
import Verif.RedWind.History
import Verif.RedGauss.WindResults

namespace Skyborn.RedWind

open Skyborn RedGauss

variable {lib : Lib} {w : WCfg} {Es : ℕ → Env} {T : ℕ} {t : Option ℤ} {st : St}

/-- The result of a call that the refusals exclude. -/
theorem LiveW.get {α : Type} {x : MW α} {F : ℕ → α → Prop} (hl : lib.Sound) (hst : LiveW lib w st)
    (ht : TriW (GoodSt lib w) x (fun r => ∃ T, Sphere.Spec.Truncation w.cfg.nlat t T ∧ 1 ≤ w.nt ∧ F T r) (refusal w t))
    (hT : Sphere.Spec.Truncation w.cfg.nlat t T) (hne : 1 ≤ w.extra.prod) : ∃ r st', RedWind.run x st = (.ok r, st') ∧ F T r := by
  obtain ⟨r, st', h1, T', h2, _, h3⟩ := hst.run hl ht (by
    rintro e (⟨_, h⟩ | ⟨_, h, _⟩)
    · exact h T hT
    · have : w.extra.prod = 0 := h
      omega)
  obtain rfl := truncation_unique hT h2
  exact ⟨r, st', h1, h3⟩

/-- A packed field in the shape of the wind with the given values at every point. -/
def Spec.Field (w : WCfg) (r : NDArr ℝ) (F : List ℕ → ℕ → ℕ → ℝ) : Prop := RedGauss.Spec.IsPacked w.cfg.pl w.extra r F

section
variable (hl : lib.Sound) (hst : LiveW lib w st) (hEs : ∀ i, (Es i).ok) (hT : Sphere.Spec.Truncation w.cfg.nlat t T) (hne : 1 ≤ w.extra.prod)
include hl hst hEs hT hne

/-- C219: on every grid whose rows do not shrink towards the equator, and after any calls on any objects, `vorticity`,
`divergence`, `streamfunction` and `velocitypotential` return the field whose spherical-harmonic coefficients are the
vorticity or divergence of the wind given, or its inverse Laplacian, up to the truncation asked for; `vrtdiv` and `sfvp`
return the same fields in pairs. -/
theorem C219_fields_partial (hreg : RedGauss.Spec.Regular w.cfg.pl) :
    (∃ r st', run (vorticity Es lib w t) st = (.ok r, st') ∧ Spec.Field w r fun e => Spec.field lib w T (Spec.zeta lib w e)) ∧
    (∃ r st', run (divergence Es lib w t) st = (.ok r, st') ∧ Spec.Field w r fun e => Spec.field lib w T (Spec.delta lib w e)) ∧
    (∃ r s st', run (vrtdiv Es lib w t) st = (.ok (r, s), st') ∧ (Spec.Field w r fun e => Spec.field lib w T (Spec.zeta lib w e)) ∧
      Spec.Field w s fun e => Spec.field lib w T (Spec.delta lib w e)) ∧
    (∃ r st', run (streamfunction Es lib w t) st = (.ok r, st') ∧ Spec.Field w r fun e => Spec.field lib w T (Spec.inv w (Spec.zeta lib w e))) ∧
    (∃ r st', run (velocitypotential Es lib w t) st = (.ok r, st') ∧ Spec.Field w r fun e => Spec.field lib w T (Spec.inv w (Spec.delta lib w e))) ∧
    ∃ r s st', run (sfvp Es lib w t) st = (.ok (r, s), st') ∧ (Spec.Field w r fun e => Spec.field lib w T (Spec.inv w (Spec.zeta lib w e))) ∧
      Spec.Field w s fun e => Spec.field lib w T (Spec.inv w (Spec.delta lib w e)) := by
  obtain ⟨hw, _⟩ := hst.good hl
  refine ⟨?_, ?_, ?_, ?_, ?_, ?_⟩
  · obtain ⟨r, st', h, h'⟩ := hst.get hl (vorticity_tri hEs hl hw t) hT hne
    exact ⟨r, st', h, h'.2 hreg⟩
  · obtain ⟨r, st', h, h'⟩ := hst.get hl (divergence_tri hEs hl hw t) hT hne
    exact ⟨r, st', h, h'.2 hreg⟩
  · obtain ⟨r, st', h, h'⟩ := hst.get hl (vrtdiv_tri hEs hl hw t) hT hne
    exact ⟨r.1, r.2, st', h, h'.1.2 hreg, h'.2.2 hreg⟩
  · obtain ⟨r, st', h, h'⟩ := hst.get hl (streamfunction_tri hEs hl hw t) hT hne
    exact ⟨r, st', h, h'.2 hreg⟩
  · obtain ⟨r, st', h, h'⟩ := hst.get hl (velocitypotential_tri hEs hl hw t) hT hne
    exact ⟨r, st', h, h'.2 hreg⟩
  · obtain ⟨r, st', h, h'⟩ := hst.get hl (sfvp_tri hEs hl hw t) hT hne
    exact ⟨r.1, r.2, st', h, h'.1.2 hreg, h'.2.2 hreg⟩

/-- `u`, `v` are, at every point of a slice, the gradient of the field with coefficients `a`: the derivative in longitude
divided by the radius of the latitude circle, and minus the derivative in colatitude divided by the radius. -/
def Spec.Gradient (lib : Lib) (w : WCfg) (T : ℕ) (a : ℕ → ℕ → ℂ) (u v : ℕ → ℕ → ℝ) : Prop :=
  ∀ j i, 1 ≤ j → j ≤ w.cfg.nlat → 1 ≤ i → i ≤ RedGauss.Spec.row w.cfg.pl j →
    HasDerivAt (RedGauss.Spec.fieldAt (RedGauss.Spec.row w.cfg.pl j) T a (lib.theta w.cfg.nlat j))
      (w.cfg.rsphere * Real.sin (lib.theta w.cfg.nlat j) * u j i) (RedGauss.Spec.lon (RedGauss.Spec.row w.cfg.pl j) i) ∧
    HasDerivAt (fun θ => RedGauss.Spec.fieldAt (RedGauss.Spec.row w.cfg.pl j) T a θ (RedGauss.Spec.lon (RedGauss.Spec.row w.cfg.pl j) i))
      (-(w.cfg.rsphere * v j i)) (lib.theta w.cfg.nlat j)

omit hst hEs hT hne in
theorem gradient_of (hw : w.Valid lib) {a : ℕ → ℕ → ℂ} {u v : ℕ → ℕ → ℝ}
    (h : ∀ j i, 1 ≤ j → j ≤ w.cfg.nlat → 1 ≤ i → i ≤ RedGauss.Spec.row w.cfg.pl j → u j i = Spec.east lib w T a j i ∧ v j i = Spec.north lib w T a j i) :
    Spec.Gradient lib w T a u v := by
  intro j i j1 j2 i1 i2
  have hsin : 0 < Real.sin (lib.theta w.cfg.nlat j) := by rw [← hw.hc.hs j]; exact valid_sin hl hw.hc j j1 j2
  rw [(h j i j1 j2 i1 i2).1, (h j i j1 j2 i1 i2).2]
  exact ⟨east_deriv _ T hw.hc.hr hsin a _, north_deriv _ T hw.hc.hr a _ _⟩

omit hst hEs hT hne in
theorem gradient_packed (hw : w.Valid lib) {a : List ℕ → ℕ → ℕ → ℂ} {u v : NDArr ℝ} (hu : RedGauss.Spec.IsPacked w.cfg.pl w.extra u fun e => Spec.east lib w T (a e))
    (hv : RedGauss.Spec.IsPacked w.cfg.pl w.extra v fun e => Spec.north lib w T (a e)) :
    ∀ e, InB w.extra e → Spec.Gradient lib w T (a e) (RedGauss.Spec.value w.cfg.pl u e) (RedGauss.Spec.value w.cfg.pl v e) :=
  fun e he => gradient_of hl hw fun j i j1 j2 i1 i2 => ⟨hu.2 e he j i j1 j2 i1 i2, hv.2 e he j i j1 j2 i1 i2⟩

/-- C220: `irrotationalcomponent` is the gradient of the velocity potential, `nondivergentcomponent` is the gradient of the
streamfunction turned by a quarter to the left, and `helmholtz` returns the four of them. -/
theorem C220_components_partial (hreg : RedGauss.Spec.Regular w.cfg.pl) :
    (∃ x y st', run (irrotational Es lib w t) st = (.ok (x, y), st') ∧ x.shape = w.u.shape ∧ y.shape = w.u.shape ∧
      ∀ e, InB w.extra e → Spec.Gradient lib w T (Spec.inv w (Spec.delta lib w e)) (RedGauss.Spec.value w.cfg.pl x e) (RedGauss.Spec.value w.cfg.pl y e)) ∧
    (∃ x y st', run (nondivergent Es lib w t) st = (.ok (x, y), st') ∧ x.shape = w.u.shape ∧ y.shape = w.u.shape ∧
      ∀ e, InB w.extra e → Spec.Gradient lib w T (Spec.inv w (Spec.zeta lib w e)) (RedGauss.Spec.value w.cfg.pl y e) (fun j i => -RedGauss.Spec.value w.cfg.pl x e j i)) ∧
    ∃ x y x' y' st', run (helmholtz Es lib w t) st = (.ok ((x, y), (x', y')), st') ∧ x.shape = w.u.shape ∧ y.shape = w.u.shape ∧ x'.shape = w.u.shape ∧ y'.shape = w.u.shape ∧
      ∀ e, InB w.extra e →
        Spec.Gradient lib w T (Spec.inv w (Spec.delta lib w e)) (RedGauss.Spec.value w.cfg.pl x e) (RedGauss.Spec.value w.cfg.pl y e) ∧
        Spec.Gradient lib w T (Spec.inv w (Spec.zeta lib w e)) (RedGauss.Spec.value w.cfg.pl y' e) (fun j i => -RedGauss.Spec.value w.cfg.pl x' e j i) := by
  obtain ⟨hw, _⟩ := hst.good hl
  have turn : ∀ {x y : NDArr ℝ}, (RedGauss.Spec.IsPacked w.cfg.pl w.extra x fun e j i => -Spec.north lib w T (Spec.inv w (Spec.zeta lib w e)) j i) →
      (RedGauss.Spec.IsPacked w.cfg.pl w.extra y fun e => Spec.east lib w T (Spec.inv w (Spec.zeta lib w e))) → ∀ e, InB w.extra e →
      Spec.Gradient lib w T (Spec.inv w (Spec.zeta lib w e)) (RedGauss.Spec.value w.cfg.pl y e) (fun j i => -RedGauss.Spec.value w.cfg.pl x e j i) := by
    intro x y hx hy e he
    refine gradient_of hl hw fun j i j1 j2 i1 i2 => ⟨hy.2 e he j i j1 j2 i1 i2, ?_⟩
    have := hx.2 e he j i j1 j2 i1 i2
    beta_reduce at this
    show -(x.get _) = _
    rw [this, neg_neg]
  refine ⟨?_, ?_, ?_⟩
  · obtain ⟨r, st', h, h1, h2⟩ := hst.get hl (irrotational_tri hEs hl hw t) hT hne
    exact ⟨r.1, r.2, st', h, h1.1, h2.1, gradient_packed hl hw (h1.2 hreg) (h2.2 hreg)⟩
  · obtain ⟨r, st', h, h1, h2⟩ := hst.get hl (nondivergent_tri hEs hl hw t) hT hne
    exact ⟨r.1, r.2, st', h, h1.1, h2.1, turn (h1.2 hreg) (h2.2 hreg)⟩
  · obtain ⟨r, st', h, ⟨h1, h2⟩, h3, h4⟩ := hst.get hl (helmholtz_tri hEs hl hw t) hT hne
    exact ⟨r.1.1, r.1.2, r.2.1, r.2.2, st', h, h1.1, h2.1, h3.1, h4.1, fun e he =>
      ⟨gradient_packed hl hw (h1.2 hreg) (h2.2 hreg) e he, turn (h3.2 hreg) (h4.2 hreg) e he⟩⟩

/-- C221: `absolutevorticity` is the relative vorticity plus twice the rotation rate times the sine of the latitude, the
rate being 7.292e-5 unless another one is given. -/
theorem C221_absolute_partial (hreg : RedGauss.Spec.Regular w.cfg.pl) (omega : Option ℝ) :
    ∃ r st', run (absolutevorticity Es lib w omega t) st = (.ok r, st') ∧
      Spec.Field w r fun e j i => Spec.field lib w T (Spec.zeta lib w e) j i + 2 * omega.getD 7.292e-5 * Real.sin (Real.pi / 2 - lib.theta w.cfg.nlat j) := by
  obtain ⟨hw, _⟩ := hst.good hl
  obtain ⟨r, st', h, h'⟩ := hst.get hl (absolutevorticity_tri hEs hl hw t omega) hT hne
  refine ⟨r, st', h, (h'.2 hreg).congr fun e _ j i _ _ _ _ => ?_⟩
  unfold Spec.planetary Spec.rotation
  cases omega <;> rfl

end

/-- C221: on every grid, `planetaryvorticity` is twice the rotation rate times the sine of the latitude, at every point of
every slice, and `magnitude` is the speed of the wind given. -/
theorem C221_planetary (hl : lib.Sound) (hst : LiveW lib w st) (omega : Option ℝ) :
    (∃ r st', run (planetaryvorticity lib w omega) st = (.ok r, st') ∧
      Spec.Field w r fun _ j _ => 2 * omega.getD 7.292e-5 * Real.sin (Real.pi / 2 - lib.theta w.cfg.nlat j)) ∧
    Spec.Field w (magnitude w) fun e j i => Real.sqrt (RedGauss.Spec.value w.cfg.pl w.u e j i ^ 2 + RedGauss.Spec.value w.cfg.pl w.v e j i ^ 2) := by
  obtain ⟨hw, _⟩ := hst.good hl
  constructor
  · obtain ⟨r, st', h1, h2⟩ := hst.run hl (planetary_tri hw omega true) fun _ h => h
    refine ⟨r, st', h1, (h2.2 trivial).congr fun e _ j i _ _ _ _ => ?_⟩
    unfold Spec.planetary Spec.rotation
    cases omega <;> rfl
  · exact ⟨by rw [show (magnitude w).shape = w.u.shape from rfl, hw.hu]; rfl, fun _ _ _ _ _ _ _ _ => rfl⟩

/-- C224: on every grid, `truncate` of a field is the field whose coefficients are those of the field given, up to the
truncation, and `gradient` is the gradient of that field. -/
theorem C224_scalar (hl : lib.Sound) (hst : LiveW lib w st) (hEs : ∀ i, (Es i).ok) (hT : Sphere.Spec.Truncation w.cfg.nlat t T) (hne : 1 ≤ w.extra.prod)
    {x : NDArr (Option ℝ)} (hx : x.shape = w.u.shape) (hf : ∀ idx, InB x.shape idx → x.get idx ≠ none) :
    (∃ r st', run (truncate Es lib w x t) st = (.ok r, st') ∧
      Spec.Field w r fun e => Spec.field lib w T (Spec.spectrum lib w (RedGauss.Spec.value w.cfg.pl (values x) e))) ∧
    ∃ y z st', run (gradient Es lib w x t) st = (.ok (y, z), st') ∧ y.shape = w.u.shape ∧ z.shape = w.u.shape ∧
      ∀ e, InB w.extra e → Spec.Gradient lib w T (Spec.spectrum lib w (RedGauss.Spec.value w.cfg.pl (values x) e))
        (RedGauss.Spec.value w.cfg.pl y e) (RedGauss.Spec.value w.cfg.pl z e) := by
  obtain ⟨hw, _⟩ := hst.good hl
  have hfin : finite x := fun idx h => Option.isSome_iff_ne_none.mpr (hf idx h)
  have href : ∀ e, ¬ fieldRefusal w x t e := by
    rintro e (⟨h | h, _⟩ | ⟨_, ⟨_, h⟩ | ⟨_, h, _⟩⟩)
    · exact h hx
    · exact h hfin
    · exact h T hT
    · have : w.extra.prod = 0 := h
      omega
  constructor
  · obtain ⟨r, st', h1, _, _, T', h2, _, h3⟩ := hst.run hl (truncate_tri hEs hl hw x t) href
    obtain rfl := truncation_unique hT h2
    exact ⟨r, st', h1, h3.2 trivial⟩
  · obtain ⟨r, st', h1, _, _, T', h2, _, h3, h4⟩ := hst.run hl (gradient_tri hEs hl hw x t) href
    obtain rfl := truncation_unique hT h2
    exact ⟨r.1, r.2, st', h1, h3.1, h4.1, gradient_packed hl hw (h3.2 trivial) (h4.2 trivial)⟩

end Skyborn.RedWind
