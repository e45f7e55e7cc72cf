/-
`ReducedVectorWind`: which calls are refused (C225) and which arguments make an object (C226).
-/
import Verif.RedWind.Fields
import Verif.RedGauss.Refuse

namespace Skyborn.RedWind

open Skyborn RedGauss

variable {lib : Lib} {w : WCfg} {Es : ℕ → Env} {T : ℕ} {t : Option ℤ} {st : St}

theorem error_iffW {α : Type} {x : MW α} {P : St → Prop} {φ : α → Prop} {ε : Fail → Prop} (h : TriW P x φ ε) (h1 : ∀ a e, φ a → ¬ ε e) (h2 : ∀ e e', ε e → ε e' → e = e')
    {s : St} (hs : P s) (e : Fail) : (run x s).1 = .error e ↔ ε e := by
  have := (h s hs).2
  cases hx : (run x s).1 with
  | ok a => rw [hx] at this; exact ⟨nofun, fun h => absurd h (h1 a e this)⟩
  | error e' =>
    rw [hx] at this
    constructor
    · intro h; cases h; exact this
    · intro h; rw [h2 e e' h this]

/-- The calls a wind object refuses: a truncation that is not between 0 and the number of rows minus one, or a wind without
any slice. -/
def Spec.Refused (w : WCfg) (t : Option ℤ) (e : Fail) : Prop :=
  (e = .validation ∧ ¬ RedGauss.Spec.GoodTrunc w.cfg.nlat t) ∨ (e = .spherepack 3 ∧ RedGauss.Spec.GoodTrunc w.cfg.nlat t ∧ RedGauss.Spec.NoSlice w.u)

theorem refusal_iff (hw : w.Valid lib) (t : Option ℤ) (e : Fail) : refusal w t e ↔ Spec.Refused w t e := by
  unfold refusal Spec.Refused
  have hg := goodTrunc_iff (c := w.cfg) hw.hc.h3 t
  have hn := noSlice_iff hw.hu
  rw [hg, hn]
  unfold WCfg.nt
  push Not
  tauto

theorem refusal_same {e e' : Fail} (h : refusal w t e) (h' : refusal w t e') : e = e' := by
  unfold refusal at h h'
  rcases h with ⟨rfl, h⟩ | ⟨⟨T, h⟩, _, rfl⟩ <;> rcases h' with ⟨rfl, h'⟩ | ⟨⟨T', h'⟩, _, rfl⟩
  · rfl
  · exact absurd h' (h T')
  · exact absurd h (h' T)
  · rfl

theorem not_refusal (hT : Sphere.Spec.Truncation w.cfg.nlat t T) (hn : 1 ≤ w.nt) (e : Fail) : ¬ refusal w t e := by
  rintro (⟨_, h⟩ | ⟨_, h, _⟩)
  · exact h T hT
  · omega

/-- A scalar field a wind object takes: the shape of the wind and no missing value. -/
def Spec.GoodField (w : WCfg) (x : NDArr (Option ℝ)) : Prop := x.shape = w.u.shape ∧ ∀ idx, InB x.shape idx → x.get idx ≠ none

theorem goodField_iff (x : NDArr (Option ℝ)) : Spec.GoodField w x ↔ ¬ badField w x := by
  unfold Spec.GoodField badField finite
  simp only [Option.isSome_iff_ne_none]
  tauto

/-- C225: after any history, a method refuses exactly a truncation that does not exist, a field of another shape or with
missing values (`ValidationError`), and a wind without any slice (an error of the compiled routine); `planetaryvorticity`
and `magnitude` never refuse. -/
theorem C225_refusals (hl : lib.Sound) (hst : LiveW lib w st) (hEs : ∀ i, (Es i).ok) (t : Option ℤ) (omega : Option ℝ) (x : NDArr (Option ℝ)) (e : Fail) :
    ((run (vrtdiv Es lib w t) st).1 = .error e ↔ Spec.Refused w t e) ∧
    ((run (vorticity Es lib w t) st).1 = .error e ↔ Spec.Refused w t e) ∧
    ((run (divergence Es lib w t) st).1 = .error e ↔ Spec.Refused w t e) ∧
    ((run (absolutevorticity Es lib w omega t) st).1 = .error e ↔ Spec.Refused w t e) ∧
    ((run (sfvp Es lib w t) st).1 = .error e ↔ Spec.Refused w t e) ∧
    ((run (streamfunction Es lib w t) st).1 = .error e ↔ Spec.Refused w t e) ∧
    ((run (velocitypotential Es lib w t) st).1 = .error e ↔ Spec.Refused w t e) ∧
    ((run (helmholtz Es lib w t) st).1 = .error e ↔ Spec.Refused w t e) ∧
    ((run (irrotational Es lib w t) st).1 = .error e ↔ Spec.Refused w t e) ∧
    ((run (nondivergent Es lib w t) st).1 = .error e ↔ Spec.Refused w t e) ∧
    ((run (rossbywavesource Es lib w t omega) st).1 = .error e ↔ Spec.Refused w t e) ∧
    ((run (gradient Es lib w x t) st).1 = .error e ↔ (e = .validation ∧ ¬ Spec.GoodField w x) ∨ (Spec.GoodField w x ∧ Spec.Refused w t e)) ∧
    ((run (truncate Es lib w x t) st).1 = .error e ↔ (e = .validation ∧ ¬ Spec.GoodField w x) ∨ (Spec.GoodField w x ∧ Spec.Refused w t e)) ∧
    (run (planetaryvorticity lib w omega) st).1 ≠ .error e := by
  obtain ⟨hw, hs⟩ := hst.good hl
  have hf : fieldRefusal w x t e ↔ (e = .validation ∧ ¬ Spec.GoodField w x) ∨ (Spec.GoodField w x ∧ Spec.Refused w t e) := by
    unfold fieldRefusal
    rw [goodField_iff, refusal_iff hw]
    tauto
  have hsame : ∀ e e', fieldRefusal w x t e → fieldRefusal w x t e' → e = e' := by
    rintro e e' (⟨h1, rfl⟩ | ⟨h1, h2⟩) (⟨h1', rfl⟩ | ⟨h1', h2'⟩)
    · rfl
    · exact absurd h1 h1'
    · exact absurd h1' h1
    · exact refusal_same h2 h2'
  have hnot : ∀ {T : ℕ}, x.shape = w.u.shape → finite x → Sphere.Spec.Truncation w.cfg.nlat t T → 1 ≤ w.nt → ∀ e, ¬ fieldRefusal w x t e := by
    rintro T h1 h2 h3 h4 e (⟨h | h, _⟩ | ⟨_, h⟩)
    exacts [h h1, h h2, not_refusal h3 h4 e h]
  have go : ∀ {α : Type} {y : MW α} {F : ℕ → α → Prop}, TriW (GoodSt lib w) y (fun r => ∃ T, Sphere.Spec.Truncation w.cfg.nlat t T ∧ 1 ≤ w.nt ∧ F T r) (refusal w t) →
      ((run y st).1 = .error e ↔ Spec.Refused w t e) := fun ht => by
    rw [← refusal_iff hw]
    exact error_iffW ht (fun _ e ⟨_, h1, h2, _⟩ => not_refusal h1 h2 e) (fun _ _ h h' => refusal_same h h') hs e
  refine ⟨go (vrtdiv_tri hEs hl hw t), go (vorticity_tri hEs hl hw t), go (divergence_tri hEs hl hw t), go (absolutevorticity_tri hEs hl hw t omega), go (sfvp_tri hEs hl hw t),
    go (streamfunction_tri hEs hl hw t), go (velocitypotential_tri hEs hl hw t), go (helmholtz_tri hEs hl hw t), go (irrotational_tri hEs hl hw t), go (nondivergent_tri hEs hl hw t),
    go (rossby_tri hEs hl hw t omega), ?_, ?_, ?_⟩
  · rw [← hf]
    exact error_iffW (gradient_tri hEs hl hw x t) (fun _ e ⟨h1, h2, _, h3, h4, _⟩ => hnot h1 h2 h3 h4 e) hsame hs e
  · rw [← hf]
    exact error_iffW (truncate_tri hEs hl hw x t) (fun _ e ⟨h1, h2, _, h3, h4, _⟩ => hnot h1 h2 h3 h4 e) hsame hs e
  · obtain ⟨r, st', h1, _⟩ := hst.run hl (planetary_tri hw omega true) fun _ h => h
    rw [show planetaryvorticity lib w omega = planetary lib w omega true from rfl, h1]
    exact fun h => nomatch h

/-- C226: after any history, an object is made exactly when the rows, the radius and the modes are those `ReducedGaussianSpharmt`
takes, `u` and `v` have the same shape, whose first dimension is the number of points of the rows, and neither has a missing
value; the object holds the wind given, and any other call raises a `ValidationError`. -/
theorem C226_construct (hl : lib.Sound) {W : World} {objs : List (Cfg × Caches)} {winds : List (WCfg × Caches × WCaches)} (hW : ReachW lib W objs winds)
    (u v : NDArr (Option ℝ)) (du dv : NPType) (pl : NDArr ℤ) (r : ℝ) (lf p : String) :
    ((∃ n q extra, pl.shape = [n] ∧ 3 ≤ n ∧ (∀ j, j < n → 4 ≤ pl.get [j]) ∧ (lf = "stored" ∨ lf = "computed") ∧ RedGauss.Spec.PrecisionWord p q ∧ 0 < r ∧
        u.shape = ((List.range n).map fun j => (pl.get [j]).toNat).sum :: extra ∧ v.shape = u.shape ∧
        (∀ idx, InB u.shape idx → u.get idx ≠ none) ∧ (∀ idx, InB v.shape idx → v.get idx ≠ none)) ↔
      ∃ w W', construct lib W u v du dv pl r lf p = .ok (w, W')) ∧
    (∀ w W', construct lib W u v du dv pl r lf p = .ok (w, W') → pl.shape = [w.cfg.pl.length] ∧ (∀ j, j < w.cfg.pl.length → (w.cfg.pl.getD j 0 : ℤ) = pl.get [j]) ∧
      w.cfg.rsphere = r ∧ w.cfg.legfunc = lf ∧ RedGauss.Spec.PrecisionWord p w.cfg.precision ∧ u.shape = w.cfg.pl.sum :: w.extra ∧ w.u.shape = u.shape ∧ w.v.shape = u.shape ∧
      (∀ idx, InB u.shape idx → u.get idx = some (w.u.get idx)) ∧ ∀ idx, InB u.shape idx → v.get idx = some (w.v.get idx)) ∧
    ∀ e, construct lib W u v du dv pl r lf p = .error e → e = .validation := by
  have hgood := (hW.good hl).1
  obtain ⟨k1, k2, k3⟩ := construct_spec hgood pl r lf p
  have hval : ∀ {y : NDArr (Option ℝ)}, (∀ idx, InB y.shape idx → y.get idx ≠ none) ↔ finite y := fun {y} => by
    unfold finite; simp only [Option.isSome_iff_ne_none]
  have hsome : ∀ {y : NDArr (Option ℝ)}, finite y → ∀ idx, InB y.shape idx → y.get idx = some ((values y).get idx) := fun {y} h idx hi => by
    have := h idx hi
    show _ = some ((y.get idx).getD 0)
    cases hy : y.get idx with
    | none => rw [hy] at this; cases this
    | some a => rfl
  refine ⟨⟨?_, ?_⟩, ?_, ?_⟩
  · rintro ⟨n, q, extra, h1, h2, h3, h4, h5, h6, h7, h8, h9, h10⟩
    obtain ⟨c, W', hc⟩ := k1.mp ⟨n, q, h1, h2, h3, h4, h5, h6⟩
    rw [hval] at h9 h10
    obtain ⟨ub, hub, _⟩ := reshape_values (x := values u) (n := _) (extra := extra) h7
    obtain ⟨vb, hvb, _⟩ := reshape_values (x := values v) (n := _) (extra := extra) (h8.trans h7)
    unfold construct
    simp only [h1]
    rw [if_neg (by omega), if_neg, (validatePrecision_iff p q).mpr h5]
    · dsimp only
      rw [if_neg (not_not.mpr h8.symm), h7]
      dsimp only
      rw [if_neg (not_not.mpr rfl), if_neg (by tauto), hub, hvb]
      dsimp only
      rw [hc]
      exact ⟨_, _, rfl⟩
    · intro h
      obtain ⟨j, hj, h⟩ := List.any_eq_true.mp h
      have := h3 j (List.mem_range.mp hj)
      simp at h; omega
  · rintro ⟨w, W', h⟩
    obtain ⟨h1, h2, h3, h4, ⟨n, h5, h6⟩, _⟩ := construct_parts h
    obtain ⟨n', q, g1, g2, g3, g4, g5, g6⟩ := k1.mpr ⟨_, _, h1⟩
    obtain rfl : n = n' := by rw [h5] at g1; simpa using g1
    exact ⟨n, q, w.extra, g1, g2, g3, g4, g5, g6, h6, h2.symm, hval.mpr h3, hval.mpr h4⟩
  · intro w W' h
    obtain ⟨h1, h2, h3, h4, ⟨n, h5, h6⟩, _, h7, h8, _⟩ := construct_parts h
    obtain ⟨g1, g2, g3, g4, g5, _⟩ := k2 _ _ h1
    have hpl := npoints_of_construct h5 h1
    refine ⟨g1, g2, g3, g4, g5, by rw [h6, hpl], by rw [h7]; rfl, by rw [h8, h2]; rfl, fun idx hi => ?_, fun idx hi => ?_⟩
    · rw [h7]; exact hsome h3 idx hi
    · rw [h8]; exact hsome h4 idx (h2 ▸ hi)
  · intro e h
    unfold construct at h
    split at h
    · rename_i n hn
      by_cases h1 : n < 3
      · rw [if_pos h1] at h; cases h; rfl
      rw [if_neg h1] at h
      split at h
      · cases h; rfl
      cases hp : validatePrecision p with
      | error e' => rw [hp] at h; cases h; exact validatePrecision_error p hp
      | ok q =>
        rw [hp] at h
        dsimp only at h
        by_cases h3 : u.shape = v.shape
        swap
        · rw [if_pos h3] at h; cases h; rfl
        rw [if_neg (not_not.mpr h3)] at h
        cases hs : u.shape with
        | nil => rw [hs] at h; cases h; rfl
        | cons m extra =>
          rw [hs] at h
          dsimp only at h
          by_cases h4 : m = ((List.range n).map fun j => (pl.get [j]).toNat).sum
          swap
          · rw [if_pos h4] at h; cases h; rfl
          rw [if_neg (not_not.mpr h4)] at h
          by_cases h5 : ¬ finite u ∨ ¬ finite v
          · rw [if_pos h5] at h; cases h; rfl
          rw [if_neg h5] at h
          split at h
          · cases hc : RedGauss.construct lib W pl r lf p with
            | error e' => rw [hc] at h; cases h; exact k3 _ hc
            | ok x => rw [hc] at h; cases h
          · cases h; rfl
    · cases h; rfl

end Skyborn.RedWind
