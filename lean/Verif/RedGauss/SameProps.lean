/-
C209, C214, C215, C218: which calls are refused, and that the outcome of a call depends on the grid, the radius and the
arguments only.
-/
import Verif.RedGauss.Same

namespace Skyborn.RedGauss

open Skyborn Sphere

variable {lib : Lib} {c c' : Cfg} {E E' F F' : Env}

/-! ### Refusals exclude results -/

theorem not_gridRefusal {x : NDArr ℝ} {t : Option ℤ} {extra : List ℕ} {T : ℕ} (h : Spec.IsGridShape c.pl x extra) (hn : 1 ≤ extra.prod)
    (ht : Sphere.Spec.Truncation c.nlat t T) (e : Fail) : ¬ GridRefusal c x t e := by
  rintro (⟨_, h' | h'⟩ | ⟨_, ⟨ex, h', h0⟩, _⟩)
  · exact h' _ h
  · exact h' _ ht
  · rw [← gridShape_unique h h'] at h0; omega

theorem not_specRefusal {s : NDArr ℂ} {extra : List ℕ} {T : ℕ} (h : Spec.IsSpecShape c.nlat s T extra) (hn : 1 ≤ extra.prod) (e : Fail) : ¬ SpecRefusal c s e := by
  rintro (⟨_, h'⟩ | ⟨_, T', ex, h', h0⟩)
  · exact h' _ _ h
  · rw [← (specShape_unique h.1 h').2] at h0; omega

theorem not_pairRefusal {s t : NDArr ℂ} {extra : List ℕ} {T : ℕ} (h : Spec.IsSpecShape c.nlat s T extra) (hst : t.shape = s.shape) (hn : 1 ≤ extra.prod) (e : Fail) :
    ¬ PairRefusal c s t e := by
  rintro (⟨_, h' | h'⟩ | ⟨_, T', ex, h', _, h0⟩)
  · exact h' hst.symm
  · exact h' _ _ h
  · rw [← (specShape_unique h.1 h').2] at h0; omega

theorem not_windRefusal {u v : NDArr ℝ} {t : Option ℤ} {extra : List ℕ} {T : ℕ} (h : Spec.IsGridShape c.pl u extra) (huv : v.shape = u.shape) (hn : 1 ≤ extra.prod)
    (ht : Sphere.Spec.Truncation c.nlat t T) (e : Fail) : ¬ WindRefusal c u v t e := windRefusal_false h (huv.trans h) hn ht e

/-- When and how `specsmooth` refuses. -/
def SmoothRefusal (c : Cfg) (x smooth : NDArr ℝ) (e : Fail) : Prop :=
  (e = .validation ∧ (smooth.shape ≠ [c.nlat] ∨ ∀ extra, ¬ Spec.IsGridShape c.pl x extra)) ∨
  (e = .spherepack 3 ∧ smooth.shape = [c.nlat] ∧ ∃ extra, Spec.IsGridShape c.pl x extra ∧ extra.prod = 0)

theorem smoothRefusal_same {x smooth : NDArr ℝ} {e f : Fail} (h : SmoothRefusal c x smooth e) (h' : SmoothRefusal c x smooth f) : e = f := by
  rcases h with ⟨rfl, h⟩ | ⟨rfl, hs, ex, h, _⟩ <;> rcases h' with ⟨rfl, h'⟩ | ⟨rfl, hs', ex', h', _⟩
  · rfl
  · rcases h with h | h
    · exact absurd hs' h
    · exact absurd h' (h _)
  · rcases h' with h' | h'
    · exact absurd hs h'
    · exact absurd h (h' _)
  · rfl

theorem not_smoothRefusal {x smooth : NDArr ℝ} {extra : List ℕ} (h : Spec.IsGridShape c.pl x extra) (hn : 1 ≤ extra.prod) (hs : smooth.shape = [c.nlat]) (e : Fail) :
    ¬ SmoothRefusal c x smooth e := by
  rintro (⟨_, h' | h'⟩ | ⟨_, _, ex, h', h0⟩)
  · exact h' hs
  · exact h' _ h
  · rw [← gridShape_unique h h'] at h0; omega

/-- `_invlapspec` in full. -/
theorem invlapspecM_cases (s : NDArr ℂ) (st : World × Caches) :
    (∃ T extra r, Spec.IsSpecShape c.nlat s T extra ∧ exec (invlapspecM c s) st = (.ok r, st) ∧ Sphere.Spec.IsSpectrum T extra r fun e => Spec.invlap c.rsphere (Spec.coef T s e)) ∨
    ((∀ T extra, ¬ Spec.IsSpecShape c.nlat s T extra) ∧
      (exec (invlapspecM c s) st).1 = (exec (invlapspecM c s) (World.fresh, Caches.fresh)).1) := by
  by_cases h : ∃ T extra, Spec.IsSpecShape c.nlat s T extra
  · obtain ⟨T, extra, h⟩ := h
    obtain ⟨r, h1, h2⟩ := invlapspecM_ok h st
    exact .inl ⟨T, extra, r, h, h1, h2⟩
  · push Not at h
    refine .inr ⟨h, ?_⟩
    unfold invlapspecM
    cases hv : validateSpec c s with
    | error e => rw [exec_bind_error (exec_lift_error e _), exec_bind_error (exec_lift_error e _)]
    | ok p =>
      rw [exec_bind_ok (exec_lift_ok p _), exec_bind_ok (exec_lift_ok p _)]
      dsimp only
      generalize restore _ _ _ = q
      cases q <;> rfl

/-! ### Outcomes of calls -/

/-- What a call returns (grids, spectra) or raises. -/
noncomputable def Call.outcome (E E' : Env) (lib : Lib) (c : Cfg) (st : World × Caches) : Call → Except Fail (List (NDArr ℝ) × List (NDArr ℂ))
  | .grdtospec x t => (exec (grdtospecM E lib c x t) st).1.map fun r => ([], [r])
  | .spectogrd s => (exec (spectogrdM E lib c s) st).1.map fun r => ([r], [])
  | .spectogrdPair s t => (exec (spectogrdPairM E E' lib c s t) st).1.map fun r => ([r.1, r.2], [])
  | .getvrtdivspec u v t => (exec (getvrtdivspecM E lib c u v t) st).1.map fun r => ([], [r.1, r.2])
  | .getvrtspec u v t => (exec (getcomponentM E lib c u v t 1) st).1.map fun r => ([], [r])
  | .getdivspec u v t => (exec (getcomponentM E lib c u v t 2) st).1.map fun r => ([], [r])
  | .getuv a b => (exec (getuvM E lib c a b) st).1.map fun r => ([r.1, r.2], [])
  | .getgrad s => (exec (getgradM E lib c s) st).1.map fun r => ([r.1, r.2], [])
  | .getgradPair s t => (exec (getgradPairM E lib c s t) st).1.map fun r => ([r.1.1, r.1.2, r.2.1, r.2.2], [])
  | .invlapspec s => (exec (invlapspecM c s) st).1.map fun r => ([], [r])
  | .specsmooth x f => (exec (specsmoothM E E' lib c x f) st).1.map fun r => ([r], [])

/-- The same arrays, element by element. -/
def Spec.SameArrays (p q : List (NDArr ℝ) × List (NDArr ℂ)) : Prop := List.Forall₂ NDArr.Eqv p.1 q.1 ∧ List.Forall₂ NDArr.Eqv p.2 q.2

/-- The calls that analyse a wind. -/
def Call.isWindAnalysis : Call → Prop
  | .getvrtdivspec .. | .getvrtspec .. | .getdivspec .. => True
  | _ => False

theorem same_map {α : Type} {R : α → α → Prop} {f : α → List (NDArr ℝ) × List (NDArr ℂ)} (hf : ∀ a b, R a b → Spec.SameArrays (f a) (f b)) {x y : Except Fail α}
    (h : Spec.SameOutcome R x y) : Spec.SameOutcome Spec.SameArrays (x.map f) (y.map f) := by
  cases x <;> cases y
  · exact h
  · exact h.elim
  · exact h.elim
  · exact hf _ _ h

/-- C214: the outcome of a call depends on the rows of the grid, the radius of the sphere and the arguments only: not on
what the program did before with this or other objects, not on the schedule of the parallel loops, not on the contents of
uninitialised memory, not on `legfunc` or `precision`. For the analyses of winds the grid has to be regular; see
`C211_winds_false`. -/
theorem C214_same_partial (hl : lib.Sound) {st st' : World × Caches} (hst : Live lib c st) (hst' : Live lib c' st') (hpl : c.pl = c'.pl) (hr : c.rsphere = c'.rsphere)
    (hE : E.ok) (hE' : E'.ok) (hF : F.ok) (hF' : F'.ok) (k : Call) (hk : k.isWindAnalysis → Spec.Regular c.pl) :
    Spec.SameOutcome Spec.SameArrays (k.outcome E E' lib c st) (k.outcome F F' lib c' st') := by
  obtain ⟨hc, hs⟩ := hst.good hl
  obtain ⟨hc', hs'⟩ := hst'.good hl
  obtain ⟨pl, r, lf, pr, w, sn⟩ := c
  obtain ⟨pl', r', lf', pr', w', sn'⟩ := c'
  dsimp only at hpl hr
  subst hpl hr
  cases k with
  | grdtospec x t =>
    refine same_map (R := NDArr.Eqv) (fun a b h => ⟨.nil, .cons h .nil⟩) (same_of_tri (grdtospecM_tri hE hl hc x t) (grdtospecM_tri hF hl hc' x t) ?_ ?_ ?_ ?_ hs hs')
    · rintro a b ⟨e1, T1, h1, h2, h3, h4⟩ ⟨e2, T2, g1, g2, g3, g4⟩
      obtain rfl := gridShape_unique h1 g1
      obtain rfl := truncation_unique h3 g3
      exact spectrum_eqv h4 g4
    · rintro a e ⟨e1, T1, h1, h2, h3, h4⟩; exact not_gridRefusal h1 h2 h3 e
    · rintro a e ⟨e1, T1, h1, h2, h3, h4⟩; exact not_gridRefusal h1 h2 h3 e
    · intro e f h h'; exact gridRefusal_same h h'
  | spectogrd s =>
    refine same_map (R := NDArr.Eqv) (fun a b h => ⟨.cons h .nil, .nil⟩) (same_of_tri (spectogrdM_tri hE hl hc s) (spectogrdM_tri hF hl hc' s) ?_ ?_ ?_ ?_ hs hs')
    · rintro a b ⟨T1, e1, h1, h2, h3⟩ ⟨T2, e2, g1, g2, g3⟩
      obtain ⟨rfl, rfl⟩ := specShape_unique h1.1 g1
      exact packed_eqv h3 g3
    · rintro a e ⟨T1, e1, h1, h2, h3⟩; exact not_specRefusal h1 h2 e
    · rintro a e ⟨T1, e1, h1, h2, h3⟩; exact not_specRefusal h1 h2 e
    · intro e f h h'; exact specRefusal_same h h'
  | spectogrdPair s t =>
    refine same_map (R := Spec.Eqv2) (fun a b h => ⟨.cons h.1 (.cons h.2 .nil), .nil⟩) (same_of_tri (spectogrdPairM_tri hE hE' hl hc s t) (spectogrdPairM_tri hF hF' hl hc' s t) ?_ ?_ ?_ ?_ hs hs')
    · rintro a b ⟨T1, e1, h1, h2, h3, h4, h5⟩ ⟨T2, e2, g1, g2, g3, g4, g5⟩
      obtain ⟨rfl, rfl⟩ := specShape_unique h1.1 g1
      exact ⟨packed_eqv h4 g4, packed_eqv h5 g5⟩
    · rintro a e ⟨T1, e1, h1, h2, h3, _⟩; exact not_pairRefusal h1 h2 h3 e
    · rintro a e ⟨T1, e1, h1, h2, h3, _⟩; exact not_pairRefusal h1 h2 h3 e
    · intro e f h h'; exact pairRefusal_same h h'
  | getvrtdivspec u v t =>
    have hreg : Spec.Regular pl := hk trivial
    refine same_map (R := Spec.Eqv2) (fun a b h => ⟨.nil, .cons h.1 (.cons h.2 .nil)⟩) (same_of_tri (getvrtdivspecM_tri hE hl hc u v t) (getvrtdivspecM_tri hF hl hc' u v t) ?_ ?_ ?_ ?_ hs hs')
    · rintro a b ⟨e1, T1, h1, h2, h3, h4, h5⟩ ⟨e2, T2, g1, g2, g3, g4, g5⟩
      obtain rfl := gridShape_unique h1 g1
      obtain rfl := truncation_unique h4 g4
      exact ⟨spectrum_eqv (h5 hreg).1 (g5 hreg).1, spectrum_eqv (h5 hreg).2 (g5 hreg).2⟩
    · rintro a e ⟨e1, T1, h1, h2, h3, h4, h5⟩; exact not_windRefusal h1 h2 h3 h4 e
    · rintro a e ⟨e1, T1, h1, h2, h3, h4, h5⟩; exact not_windRefusal h1 h2 h3 h4 e
    · intro e f h h'; exact windRefusal_same h h'
  | getvrtspec u v t =>
    have hreg : Spec.Regular pl := hk trivial
    refine same_map (R := NDArr.Eqv) (fun a b h => ⟨.nil, .cons h .nil⟩) (same_of_tri (getcomponentM_tri (.inl rfl) hE hl hc u v t) (getcomponentM_tri (.inl rfl) hF hl hc' u v t) ?_ ?_ ?_ ?_ hs hs')
    · rintro a b ⟨e1, T1, h1, h2, h3, h4, h5⟩ ⟨e2, T2, g1, g2, g3, g4, g5⟩
      obtain rfl := gridShape_unique h1 g1
      obtain rfl := truncation_unique h4 g4
      exact spectrum_eqv (h5 hreg) (g5 hreg)
    · rintro a e ⟨e1, T1, h1, h2, h3, h4, h5⟩; exact not_windRefusal h1 h2 h3 h4 e
    · rintro a e ⟨e1, T1, h1, h2, h3, h4, h5⟩; exact not_windRefusal h1 h2 h3 h4 e
    · intro e f h h'; exact windRefusal_same h h'
  | getdivspec u v t =>
    have hreg : Spec.Regular pl := hk trivial
    refine same_map (R := NDArr.Eqv) (fun a b h => ⟨.nil, .cons h .nil⟩) (same_of_tri (getcomponentM_tri (.inr rfl) hE hl hc u v t) (getcomponentM_tri (.inr rfl) hF hl hc' u v t) ?_ ?_ ?_ ?_ hs hs')
    · rintro a b ⟨e1, T1, h1, h2, h3, h4, h5⟩ ⟨e2, T2, g1, g2, g3, g4, g5⟩
      obtain rfl := gridShape_unique h1 g1
      obtain rfl := truncation_unique h4 g4
      exact spectrum_eqv (h5 hreg) (g5 hreg)
    · rintro a e ⟨e1, T1, h1, h2, h3, h4, h5⟩; exact not_windRefusal h1 h2 h3 h4 e
    · rintro a e ⟨e1, T1, h1, h2, h3, h4, h5⟩; exact not_windRefusal h1 h2 h3 h4 e
    · intro e f h h'; exact windRefusal_same h h'
  | getuv s t =>
    refine same_map (R := Spec.Eqv2) (fun a b h => ⟨.cons h.1 (.cons h.2 .nil), .nil⟩) (same_of_tri (getuvM_tri hE hl hc s t) (getuvM_tri hF hl hc' s t) ?_ ?_ ?_ ?_ hs hs')
    · rintro a b ⟨T1, e1, h1, h2, h3, h4, h5⟩ ⟨T2, e2, g1, g2, g3, g4, g5⟩
      obtain ⟨rfl, rfl⟩ := specShape_unique h1.1 g1
      exact ⟨packed_eqv h4 g4, packed_eqv h5 g5⟩
    · rintro a e ⟨T1, e1, h1, h2, h3, _⟩; exact not_pairRefusal h1 h2 h3 e
    · rintro a e ⟨T1, e1, h1, h2, h3, _⟩; exact not_pairRefusal h1 h2 h3 e
    · intro e f h h'; exact pairRefusal_same h h'
  | getgrad s =>
    refine same_map (R := Spec.Eqv2) (fun a b h => ⟨.cons h.1 (.cons h.2 .nil), .nil⟩) (same_of_tri (getgradM_tri hE hl hc s) (getgradM_tri hF hl hc' s) ?_ ?_ ?_ ?_ hs hs')
    · rintro a b ⟨T1, e1, h1, h2, h3, h4⟩ ⟨T2, e2, g1, g2, g3, g4⟩
      obtain ⟨rfl, rfl⟩ := specShape_unique h1.1 g1
      exact ⟨packed_eqv h3 g3, packed_eqv h4 g4⟩
    · rintro a e ⟨T1, e1, h1, h2, _⟩; exact not_specRefusal h1 h2 e
    · rintro a e ⟨T1, e1, h1, h2, _⟩; exact not_specRefusal h1 h2 e
    · intro e f h h'; exact specRefusal_same h h'
  | getgradPair s t =>
    refine same_map (R := fun p q => Spec.Eqv2 p.1 q.1 ∧ Spec.Eqv2 p.2 q.2) (fun a b h => ⟨.cons h.1.1 (.cons h.1.2 (.cons h.2.1 (.cons h.2.2 .nil))), .nil⟩)
      (same_of_tri (getgradPairM_tri hE hl hc s t) (getgradPairM_tri hF hl hc' s t) ?_ ?_ ?_ ?_ hs hs')
    · rintro a b ⟨T1, e1, h1, h2, h3, h4, h5, h6, h7⟩ ⟨T2, e2, g1, g2, g3, g4, g5, g6, g7⟩
      obtain ⟨rfl, rfl⟩ := specShape_unique h1.1 g1
      exact ⟨⟨packed_eqv h4 g4, packed_eqv h5 g5⟩, packed_eqv h6 g6, packed_eqv h7 g7⟩
    · rintro a e ⟨T1, e1, h1, h2, h3, _⟩; exact not_pairRefusal h1 h2 h3 e
    · rintro a e ⟨T1, e1, h1, h2, h3, _⟩; exact not_pairRefusal h1 h2 h3 e
    · intro e f h h'; exact pairRefusal_same h h'
  | invlapspec s =>
    refine same_map (R := NDArr.Eqv) (fun a b h => ⟨.nil, .cons h .nil⟩) ?_
    rcases invlapspecM_cases (c := ⟨pl, r, lf, pr, w, sn⟩) s st with ⟨T, extra, q, h1, h2, h3⟩ | ⟨h1, h2⟩ <;>
      rcases invlapspecM_cases (c := ⟨pl, r, lf', pr', w', sn'⟩) s st' with ⟨T', extra', q', g1, g2, g3⟩ | ⟨g1, g2⟩
    · obtain ⟨rfl, rfl⟩ := specShape_unique h1.1 g1
      rw [h2, g2]; exact spectrum_eqv h3 g3
    · exact absurd h1 (g1 _ _)
    · exact absurd g1 (h1 _ _)
    · rw [h2, g2]
      have : invlapspecM ⟨pl, r, lf, pr, w, sn⟩ s = invlapspecM ⟨pl, r, lf', pr', w', sn'⟩ s := rfl
      rw [this]
      cases (exec (invlapspecM ⟨pl, r, lf', pr', w', sn'⟩ s) (World.fresh, Caches.fresh)).1
      · rfl
      · exact ⟨rfl, fun _ _ => rfl⟩
  | specsmooth x f =>
    refine same_map (R := NDArr.Eqv) (fun a b h => ⟨.cons h .nil, .nil⟩) (same_of_tri (specsmoothM_tri hE hE' hl hc x f) (specsmoothM_tri hF hF' hl hc' x f) ?_ ?_ ?_ ?_ hs hs')
    · rintro a b ⟨e1, h1, h2, h3, h4⟩ ⟨e2, g1, g2, g3, g4⟩
      obtain rfl := gridShape_unique h1 g1
      exact packed_eqv h4 g4
    · rintro a e ⟨e1, h1, h2, h3, h4⟩; exact not_smoothRefusal h1 h2 h3 e
    · rintro a e ⟨e1, h1, h2, h3, h4⟩; exact not_smoothRefusal h1 h2 h3 e
    · intro e f h h'; exact smoothRefusal_same h h'

/-! ### Pairs -/

/-- Both outcomes, or the exception of the first call that raises. -/
def Spec.both {α β : Type} (x : Except Fail α) (y : Except Fail β) : Except Fail (α × β) := do
  let a ← x
  let b ← y
  return (a, b)

/-- C209: a call for a pair of spectra of the same shape ends like the two separate calls, whatever happens between them. -/
theorem C209_pairs (hl : lib.Sound) {st st1 st2 : World × Caches} (hst : Live lib c st) (h1 : Live lib c st1) (h2 : Live lib c st2)
    {E1 E2 : Env} (hE : E.ok) (hE' : E'.ok) (hE1 : E1.ok) (hE2 : E2.ok) (s t : NDArr ℂ) (hsh : s.shape = t.shape) :
    Spec.SameOutcome Spec.Eqv2 (exec (spectogrdPairM E E' lib c s t) st).1 (Spec.both (exec (spectogrdM E1 lib c s) st1).1 (exec (spectogrdM E2 lib c t) st2).1) ∧
    Spec.SameOutcome (fun p q => Spec.Eqv2 p.1 q.1 ∧ Spec.Eqv2 p.2 q.2) (exec (getgradPairM E lib c s t) st).1
      (Spec.both (exec (getgradM E1 lib c s) st1).1 (exec (getgradM E2 lib c t) st2).1) := by
  obtain ⟨hc, hs⟩ := hst.good hl
  have hs1 := (h1.good hl).2
  have hs2 := (h2.good hl).2
  have hshT : ∀ {T extra}, Spec.IsSpecShape c.nlat s T extra → Spec.IsSpecShape c.nlat t T extra := fun h => ⟨hsh ▸ h.1, h.2⟩
  constructor
  · have hx := (spectogrdPairM_tri hE hE' hl hc s t st hs).2
    have hy := (spectogrdM_tri hE1 hl hc s st1 hs1).2
    have hz := (spectogrdM_tri hE2 hl hc t st2 hs2).2
    revert hx hy hz
    cases (exec (spectogrdPairM E E' lib c s t) st).1 <;> cases (exec (spectogrdM E1 lib c s) st1).1 <;> cases (exec (spectogrdM E2 lib c t) st2).1 <;> intro hx hy hz
    all_goals first
      | (obtain ⟨T, ex, g1, g2, g3⟩ := hy; exact absurd hz (not_specRefusal (hshT g1) g2 _))
      | skip
    · rcases hx with ⟨rfl, h | h⟩ | ⟨rfl, T, ex, h, _⟩ <;> rcases hy with ⟨rfl, h'⟩ | ⟨rfl, T', ex', h', _⟩
      · exact absurd hsh h
      · exact absurd hsh h
      · rfl
      · exact absurd h' (h _ _)
      · exact absurd h (h' _ _)
      · rfl
    · obtain ⟨T, ex, g1, g2, g3⟩ := hz; exact absurd hy (not_specRefusal ⟨hsh ▸ g1.1, g1.2⟩ g2 _)
    · obtain ⟨T, ex, g1, g2, g3⟩ := hy; exact absurd hx (not_pairRefusal g1 hsh.symm g2 _)
    · obtain ⟨T, ex, g1, _, g2, g3⟩ := hx; exact absurd hy (not_specRefusal g1 g2 _)
    · obtain ⟨T, ex, g1, _, g2, g3⟩ := hx; exact absurd hy (not_specRefusal g1 g2 _)
    · obtain ⟨T, ex, g1, g2, g3, g4, g5⟩ := hx
      obtain ⟨T', ex', k1, k2, k3⟩ := hy
      obtain ⟨T'', ex'', l1, l2, l3⟩ := hz
      obtain ⟨rfl, rfl⟩ := specShape_unique g1.1 k1
      obtain ⟨rfl, rfl⟩ := specShape_unique (hshT g1).1 l1
      exact ⟨packed_eqv g4 k3, packed_eqv g5 l3⟩
  · have hx := (getgradPairM_tri hE hl hc s t st hs).2
    have hy := (getgradM_tri hE1 hl hc s st1 hs1).2
    have hz := (getgradM_tri hE2 hl hc t st2 hs2).2
    revert hx hy hz
    cases (exec (getgradPairM E lib c s t) st).1 <;> cases (exec (getgradM E1 lib c s) st1).1 <;> cases (exec (getgradM E2 lib c t) st2).1 <;> intro hx hy hz
    all_goals first
      | (obtain ⟨T, ex, g1, g2, g3⟩ := hy; exact absurd hz (not_specRefusal (hshT g1) g2 _))
      | skip
    · rcases hx with ⟨rfl, h | h⟩ | ⟨rfl, T, ex, h, _⟩ <;> rcases hy with ⟨rfl, h'⟩ | ⟨rfl, T', ex', h', _⟩
      · exact absurd hsh h
      · exact absurd hsh h
      · rfl
      · exact absurd h' (h _ _)
      · exact absurd h (h' _ _)
      · rfl
    · obtain ⟨T, ex, g1, g2, g3⟩ := hz; exact absurd hy (not_specRefusal ⟨hsh ▸ g1.1, g1.2⟩ g2 _)
    · obtain ⟨T, ex, g1, g2, g3⟩ := hy; exact absurd hx (not_pairRefusal g1 hsh.symm g2 _)
    · obtain ⟨T, ex, g1, _, g2, g3⟩ := hx; exact absurd hy (not_specRefusal g1 g2 _)
    · obtain ⟨T, ex, g1, _, g2, g3⟩ := hx; exact absurd hy (not_specRefusal g1 g2 _)
    · obtain ⟨T, ex, g1, g2, g3, g4, g5, g6, g7⟩ := hx
      obtain ⟨T', ex', k1, k2, k3, k4⟩ := hy
      obtain ⟨T'', ex'', l1, l2, l3, l4⟩ := hz
      obtain ⟨rfl, rfl⟩ := specShape_unique g1.1 k1
      obtain ⟨rfl, rfl⟩ := specShape_unique (hshT g1).1 l1
      exact ⟨⟨packed_eqv g4 k3, packed_eqv g5 k4⟩, packed_eqv g6 l3, packed_eqv g7 l4⟩

end Skyborn.RedGauss
