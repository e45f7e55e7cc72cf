/-
The truncation argument of the analyses: a call succeeds only with a truncation the grid admits, and the length of what it returns is the
length of that truncation.
-/
import Verif.Sphere.RegridProps

namespace Skyborn.Sphere

open Skyborn Skyborn.Spectral

variable {I : Inst}

theorem validateNtrunc_inv {t : Option ℤ} {T : ℕ} (h : validateNtrunc I t = .ok T) : Spec.Truncation I.nlat t T := by
  unfold validateNtrunc at h
  cases t with
  | none => simp only [Except.ok.injEq] at h; exact Or.inl ⟨rfl, h.symm⟩
  | some t =>
    dsimp only at h
    by_cases c : t < 0 ∨ t > (I.nlat : ℤ) - 1
    · rw [if_pos c] at h; cases h
    · rw [if_neg c] at h
      simp only [Except.ok.injEq] at h
      exact Or.inr ⟨by rw [← h]; congr 1; omega, by omega⟩

theorem bind_inv {α β : Type} {x : Except Fail α} {f : α → Except Fail β} {b : β} (h : x >>= f = .ok b) : ∃ a, x = .ok a ∧ f a = .ok b := by
  cases x with
  | error e => cases h
  | ok a => exact ⟨a, rfl, h⟩

theorem validateGrid_inv {x y : NDArr ℝ} {extra : List ℕ} (h : validateGrid I x = .ok (extra, y)) : x.shape = I.nlat :: I.nlon :: extra := by
  unfold validateGrid at h
  split at h
  next a b ex e =>
    by_cases c : a ≠ I.nlat ∨ b ≠ I.nlon
    · rw [if_pos c] at h; cases h
    · rw [if_neg c] at h
      push Not at c
      split at h
      · cases h
        rw [e, c.1, c.2]
      · cases h
  · cases h

theorem restoreSpec_inv {len : ℕ} {extra : List ℕ} {s r : NDArr ℂ} (h : restoreSpec len extra s = .ok r) : r.shape = len :: extra := by
  unfold restoreSpec at h
  split at h
  next e => cases h; rw [e]
  next =>
    split at h
    next y e =>
      cases h
      unfold NDArr.reshape at e
      split at e
      · cases e; rfl
      · cases e
    next => cases h

theorem validateWind_inv {u v y z : NDArr ℝ} {extra : List ℕ} (h : validateWind I u v = .ok (extra, y, z)) :
    u.shape = I.nlat :: I.nlon :: extra ∧ v.shape = u.shape := by
  unfold validateWind at h
  by_cases c : u.shape ≠ v.shape
  · rw [if_pos c] at h; cases h
  rw [if_neg c] at h
  obtain ⟨p, h1, h⟩ := bind_inv h
  obtain ⟨q, h2, h⟩ := bind_inv h
  by_cases c' : p.1 ≠ q.1
  · dsimp only at h
    rw [if_pos c'] at h; cases h
  · dsimp only at h
    rw [if_neg c'] at h
    cases h
    exact ⟨validateGrid_inv (y := p.2) h1, (not_not.mp c).symm⟩

/-- An array of spectra for a field of shape `shape` at the truncation the argument `t` asks for. -/
def Spec.Sized (nlat nlon : ℕ) (t : Option ℤ) (shape : List ℕ) (s : NDArr ℂ) : Prop :=
  ∃ T extra, Spec.Truncation nlat t T ∧ shape = nlat :: nlon :: extra ∧ s.shape = (T + 1) * (T + 2) / 2 :: extra

theorem sized_of {t : Option ℤ} {T : ℕ} {extra : List ℕ} {x : NDArr ℝ} {s : NDArr ℂ} (h1 : validateNtrunc I t = .ok T)
    (h2 : x.shape = I.nlat :: I.nlon :: extra) (h3 : s.shape = specLen T :: extra) : Spec.Sized I.nlat I.nlon t x.shape s :=
  ⟨T, extra, validateNtrunc_inv h1, h2, h3⟩

theorem grdtospec_sized {x : NDArr ℝ} {t : Option ℤ} {s : NDArr ℂ} (h : grdtospec I x t = .ok s) : Spec.Sized I.nlat I.nlon t x.shape s := by
  unfold grdtospec at h
  obtain ⟨p, h1, h⟩ := bind_inv h
  obtain ⟨T, h2, h⟩ := bind_inv h
  obtain ⟨_, _, h⟩ := bind_inv h
  dsimp only at h
  split at h
  · cases h
  · obtain ⟨_, _, h⟩ := bind_inv h
    exact sized_of h2 (validateGrid_inv (y := p.2) h1) (restoreSpec_inv h)

theorem getvrtspec_sized {u v : NDArr ℝ} {t : Option ℤ} {s : NDArr ℂ} (h : getvrtspec I u v t = .ok s) : Spec.Sized I.nlat I.nlon t u.shape s := by
  unfold getvrtspec at h
  obtain ⟨p, h1, h⟩ := bind_inv h
  obtain ⟨T, h2, h⟩ := bind_inv h
  obtain ⟨_, _, h⟩ := bind_inv h
  obtain ⟨_, _, h⟩ := bind_inv h
  obtain ⟨_, _, h⟩ := bind_inv h
  exact sized_of h2 (validateWind_inv (y := p.2.1) (z := p.2.2) h1).1 (restoreSpec_inv h)

theorem getdivspec_sized {u v : NDArr ℝ} {t : Option ℤ} {s : NDArr ℂ} (h : getdivspec I u v t = .ok s) : Spec.Sized I.nlat I.nlon t u.shape s := by
  unfold getdivspec at h
  obtain ⟨p, h1, h⟩ := bind_inv h
  obtain ⟨T, h2, h⟩ := bind_inv h
  obtain ⟨_, _, h⟩ := bind_inv h
  obtain ⟨_, _, h⟩ := bind_inv h
  obtain ⟨_, _, h⟩ := bind_inv h
  exact sized_of h2 (validateWind_inv (y := p.2.1) (z := p.2.2) h1).1 (restoreSpec_inv h)

theorem getvrtdivspec_sized {u v : NDArr ℝ} {t : Option ℤ} {s r : NDArr ℂ} (h : getvrtdivspec I u v t = .ok (s, r)) :
    Spec.Sized I.nlat I.nlon t u.shape s ∧ Spec.Sized I.nlat I.nlon t u.shape r := by
  unfold getvrtdivspec at h
  obtain ⟨p, h1, h⟩ := bind_inv h
  obtain ⟨T, h2, h⟩ := bind_inv h
  obtain ⟨_, _, h⟩ := bind_inv h
  obtain ⟨_, _, h⟩ := bind_inv h
  obtain ⟨_, _, h⟩ := bind_inv h
  obtain ⟨_, _, h⟩ := bind_inv h
  obtain ⟨_, h3, h⟩ := bind_inv h
  obtain ⟨_, h4, h⟩ := bind_inv h
  cases h
  have e := (validateWind_inv (y := p.2.1) (z := p.2.2) h1).1
  exact ⟨sized_of h2 e (restoreSpec_inv h3), sized_of h2 e (restoreSpec_inv h4)⟩

theorem validateSpec_inv {s y : NDArr ℂ} {len : ℕ} {extra : List ℕ} (h : validateSpec I s = .ok (len, extra, y)) :
    s.shape = len :: extra ∧ ntruncOf len ≤ (I.nlat : ℤ) - 1 := by
  unfold validateSpec at h
  split at h
  next l ex e =>
    by_cases c : ntruncOf l > (I.nlat : ℤ) - 1
    · rw [if_pos c] at h; cases h
    · rw [if_neg c] at h
      split at h
      · cases h; exact ⟨e, by omega⟩
      · cases h
  · cases h

theorem invlapspec_shape {s r : NDArr ℂ} (h : invlapspec I s = .ok r) : r.shape = s.shape := by
  unfold invlapspec at h
  obtain ⟨p, h1, h⟩ := bind_inv h
  obtain ⟨_, _, h⟩ := bind_inv h
  rw [restoreSpec_inv h, (validateSpec_inv (y := p.2.2) h1).1]

theorem Spec.Sized.congr {nlat nlon : ℕ} {t : Option ℤ} {shape : List ℕ} {s r : NDArr ℂ} (h : Spec.Sized nlat nlon t shape s)
    (e : r.shape = s.shape) : Spec.Sized nlat nlon t shape r := by
  obtain ⟨T, ex, h1, h2, h3⟩ := h
  exact ⟨T, ex, h1, h2, e.trans h3⟩

/-- C177: every analysis that returns used a truncation between 0 and `nlat - 1`, the one asked for or `nlat - 1`, on a field of the
grid's shape, and returned `(T + 1)(T + 2)/2` coefficients for each index of the extra dimensions. -/
theorem C177_truncation :
    (∀ {x t s}, grdtospec I x t = .ok s → Spec.Sized I.nlat I.nlon t x.shape s) ∧
    (∀ {u v t s}, getvrtspec I u v t = .ok s → Spec.Sized I.nlat I.nlon t u.shape s) ∧
    (∀ {u v t s}, getdivspec I u v t = .ok s → Spec.Sized I.nlat I.nlon t u.shape s) ∧
    (∀ {u v t s r}, getvrtdivspec I u v t = .ok (s, r) → Spec.Sized I.nlat I.nlon t u.shape s ∧ Spec.Sized I.nlat I.nlon t u.shape r) ∧
    (∀ {u v t s}, getpsispec I u v t = .ok s → Spec.Sized I.nlat I.nlon t u.shape s) ∧
    (∀ {u v t s}, getchispec I u v t = .ok s → Spec.Sized I.nlat I.nlon t u.shape s) ∧
    (∀ {u v t s r}, getpsichispec I u v t = .ok (s, r) → Spec.Sized I.nlat I.nlon t u.shape s ∧ Spec.Sized I.nlat I.nlon t u.shape r) := by
  refine ⟨grdtospec_sized, getvrtspec_sized, getdivspec_sized, getvrtdivspec_sized, fun h => ?_, fun h => ?_, fun h => ?_⟩
  · obtain ⟨w, h1, h2⟩ := bind_inv h
    exact (getvrtspec_sized h1).congr (invlapspec_shape h2)
  · obtain ⟨w, h1, h2⟩ := bind_inv h
    exact (getdivspec_sized h1).congr (invlapspec_shape h2)
  · rename_i u v t s r
    unfold getpsichispec at h
    split at h
    · cases h
    obtain ⟨_, _, h⟩ := bind_inv h
    obtain ⟨T, hT, h⟩ := bind_inv h
    obtain ⟨⟨a, b⟩, hab, h⟩ := bind_inv h
    obtain ⟨p, hp, h⟩ := bind_inv h
    obtain ⟨q, hq, h⟩ := bind_inv h
    dsimp only at h
    split at h
    · cases h
    next c =>
    push Not at c
    obtain ⟨_, _, h⟩ := bind_inv h
    obtain ⟨_, _, h⟩ := bind_inv h
    obtain ⟨_, h3, h⟩ := bind_inv h
    obtain ⟨_, h4, h⟩ := bind_inv h
    cases h
    have f1 := restoreSpec_inv h3
    have f2 := restoreSpec_inv h4
    have e1 := (validateSpec_inv (y := p.2.2) hp).1
    have e2 := (validateSpec_inv (y := q.2.2) hq).1
    have up : ∀ {w : NDArr ℂ}, Spec.Sized I.nlat I.nlon (some (T : ℤ)) u.shape w → Spec.Sized I.nlat I.nlon t u.shape w := by
      rintro w ⟨T', ex, g1, g2, g3⟩
      have : T' = T := by rcases g1 with ⟨g, _⟩ | ⟨g, _⟩ <;> simp at g; exact g.symm
      subst this
      exact ⟨_, ex, validateNtrunc_inv hT, g2, g3⟩
    obtain ⟨k1, k2⟩ := getvrtdivspec_sized hab
    exact ⟨(up k1).congr (by rw [f1, e1, c.1]), (up k2).congr (by rw [f2, e2, c.2])⟩

/-- C177: a truncation outside 0 … nlat - 1 is refused with a validation error by the analyses of fields and winds of the right shape. -/
theorem C177_refused {extra : List ℕ} {x u v : NDArr ℝ} (hx : x.shape = I.nlat :: I.nlon :: extra) (hu : u.shape = I.nlat :: I.nlon :: extra)
    (hv : v.shape = I.nlat :: I.nlon :: extra) {t : ℤ} (ht : t < 0 ∨ (I.nlat : ℤ) ≤ t) :
    grdtospec I x (some t) = .error (.err .validation) ∧ getvrtspec I u v (some t) = .error (.err .validation) ∧
    getdivspec I u v (some t) = .error (.err .validation) ∧ getvrtdivspec I u v (some t) = .error (.err .validation) := by
  have hT : validateNtrunc I (some t) = .error (.err .validation) := by
    unfold validateNtrunc; dsimp only; rw [if_pos (by omega)]
  have hg : ∀ {w : NDArr ℝ}, w.shape = I.nlat :: I.nlon :: extra → ∃ e y, validateGrid I w = .ok (e, y) ∧ e = extra := by
    intro w hw
    obtain ⟨y, hy⟩ : ∃ y, w.reshape [I.nlat, I.nlon, extra.prod] = some y := by
      unfold NDArr.reshape
      rw [if_pos (by rw [hw]; simp)]
      exact ⟨_, rfl⟩
    unfold validateGrid
    rw [hw]
    simp only [ne_eq, not_true_eq_false, or_self, if_false, hy]
    exact ⟨_, _, rfl, rfl⟩
  obtain ⟨e, y, h1, _⟩ := hg hx
  obtain ⟨e2, y2, h2, h2'⟩ := hg hu
  obtain ⟨e3, y3, h3, h3'⟩ := hg hv
  have hw : validateWind I u v = .ok (e2, y2, y3) := by
    unfold validateWind
    rw [if_neg (by rw [hu, hv]; simp), h2, h3]
    simp only [bind, Except.bind, pure, Except.pure]
    rw [if_neg (by rw [h2', h3']; simp)]
  refine ⟨?_, ?_, ?_, ?_⟩
  · unfold grdtospec; rw [h1]; simp only [bind, Except.bind, hT]
  · unfold getvrtspec; rw [hw]; simp only [bind, Except.bind, hT]
  · unfold getdivspec; rw [hw]; simp only [bind, Except.bind, hT]
  · unfold getvrtdivspec; rw [hw]; simp only [bind, Except.bind, hT]

/-- Non-vacuity: on a 6 by 12 grid the analysis with truncation 3 returns, and the truncations -1 and 6 are out of range. -/
example : ∃ (I : Inst) (g : NDArr ℝ), g.shape = I.nlat :: I.nlon :: [2] ∧ (∃ s, grdtospec I g (some 3) = .ok s) ∧
    ((-1 : ℤ) < 0 ∧ (I.nlat : ℤ) ≤ 6) := by
  set I : Inst := ⟨6, 12, 1, .regular, .stored, fun _ => 0, fun _ _ _ => 0, fun _ _ _ _ => 0, fun _ _ _ _ => 0, fun _ _ _ _ => 0⟩
  have hG : Good I [2] := ⟨by norm_num [I], by norm_num [I], by norm_num [I], by norm_num [I], by norm_num [I]⟩
  refine ⟨I, ⟨[6, 12, 2], fun _ => 1⟩, rfl, ?_, by norm_num, by norm_num [I]⟩
  obtain ⟨s, h, _⟩ := grdtospec_ok (T := 3) hG (x := ⟨[6, 12, 2], fun _ => 1⟩) rfl (Or.inr ⟨rfl, by norm_num [I]⟩) (by norm_num [I])
  exact ⟨s, h⟩

end Skyborn.Sphere
