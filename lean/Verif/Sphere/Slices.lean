/-
`VectorWind` treats every horizontal slice of its input on its own.
-/
import Verif.Sphere.SessionProps
import Verif.Sphere.Truncation

namespace Skyborn.Sphere

open Skyborn Skyborn.Spectral

variable {I : Inst} {extra : List ℕ}

/-- The horizontal slice at position `e` of the extra dimensions, as an array of two dimensions. -/
def Spec.sliceAt (I : Inst) (x : NDArr ℝ) (e : List ℕ) : NDArr ℝ := ⟨[I.nlat, I.nlon], fun idx => x.get (idx ++ e)⟩

/-- The same question about one slice. -/
def Spec.queryAt (I : Inst) (e : List ℕ) : Query → Query
  | .gradient chi t => .gradient (Spec.sliceAt I chi e) t
  | .truncate x t => .truncate (Spec.sliceAt I x e) t
  | q => q

/-- The fields a question brings along have the shape of the wind. -/
def Spec.Fits (I : Inst) (extra : List ℕ) : Query → Prop
  | .gradient chi _ => chi.shape = I.nlat :: I.nlon :: extra
  | .truncate x _ => x.shape = I.nlat :: I.nlon :: extra
  | _ => True

/-- When a question is answered: a valid truncation; where a scalar analysis is made, not above `nlon/2`; where the divergence is
analysed alone on a stored regular grid, at most 24 slices. -/
def Spec.Runs (I : Inst) (nt : ℕ) : Query → Prop
  | .magnitude | .planetary _ => True
  | .vrtdiv t | .vorticity t | .absolute _ t | .sfvp t | .streamfunction t | .helmholtz t | .nondivergent t =>
    ∃ T, Spec.Truncation I.nlat t T
  | .divergence t | .velocitypotential t | .irrotational t =>
    (∃ T, Spec.Truncation I.nlat t T) ∧ ¬ (I.grid = .regular ∧ I.leg = .stored ∧ 24 < nt)
  | .gradient _ t | .truncate _ t | .rossby t _ => ∃ T, Spec.Truncation I.nlat t T ∧ T ≤ I.nlon / 2

/-- What one slice gives: functions of the slices of `u`, `v` and of the field brought along. -/
abbrev SliceFun := (ℕ → ℕ → ℝ) → (ℕ → ℕ → ℝ) → (ℕ → ℕ → ℝ) → ℕ → ℕ → ℝ

/-- The field a question brings along. -/
def Query.field (u : NDArr ℝ) : Query → NDArr ℝ
  | .gradient chi _ => chi
  | .truncate x _ => x
  | _ => u

theorem trunc_unique {nlat : ℕ} {t : Option ℤ} {T T' : ℕ} (h : Spec.Truncation nlat t T) (h' : Spec.Truncation nlat t T') : T = T' := by
  rcases h with ⟨a, b⟩ | ⟨a, b⟩ <;> rcases h' with ⟨c, d⟩ | ⟨c, d⟩
  · omega
  · rw [a] at c; cases c
  · rw [a] at c; cases c
  · rw [a] at c; simpa using c

/-- The arrays `rs` hold, slice by slice, the functions `Fs` of the slices. -/
def Made (I : Inst) (extra : List ℕ) (u v x : NDArr ℝ) (rs : List (NDArr ℝ)) (Fs : List SliceFun) : Prop :=
  List.Forall₂ (fun r F => Spec.IsGrid I.nlat I.nlon extra r fun e i j =>
    F (Spec.cut I.nlat I.nlon u e) (Spec.cut I.nlat I.nlon v e) (Spec.cut I.nlat I.nlon x e) i j) rs Fs

theorem isGrid_speed {u v : NDArr ℝ} (hu : u.shape = I.nlat :: I.nlon :: extra) :
    Spec.IsGrid I.nlat I.nlon extra (speed u v) fun e i j =>
      Real.sqrt (Spec.cut I.nlat I.nlon u e i j ^ 2 + Spec.cut I.nlat I.nlon v e i j ^ 2) := by
  refine ⟨hu, fun e he i j hi hj => ?_⟩
  simp only [speed, Spec.cut, if_pos (⟨hi, hj⟩ : i < I.nlat ∧ j < I.nlon)]

theorem isGrid_rows {u : NDArr ℝ} (hu : u.shape = I.nlat :: I.nlon :: extra) (f : ℕ → ℝ) :
    Spec.IsGrid I.nlat I.nlon extra (broadcastRows u.shape f) fun _ i _ => f i := by
  refine ⟨hu, fun e he i j hi hj => rfl⟩

theorem isGrid_add {x y : NDArr ℝ} {f g : List ℕ → ℕ → ℕ → ℝ} (hx : Spec.IsGrid I.nlat I.nlon extra x f)
    (hy : Spec.IsGrid I.nlat I.nlon extra y g) : Spec.IsGrid I.nlat I.nlon extra (addG x y) fun e i j => f e i j + g e i j := by
  refine ⟨hx.1, fun e he i j hi hj => ?_⟩
  show x.get _ + y.get _ = _
  rw [hx.2 e he i j hi hj, hy.2 e he i j hi hj]

/-- Spectra of one slice: vorticity and divergence analysed together and alone, and of a field. -/
noncomputable def zBoth (I : Inst) (a b : ℕ → ℕ → ℝ) : ℕ → ℕ → ℂ := vrtOf I fun m n => (I.anaV (fun i j => - b i j) a m n).2.2
/-- Divergence, analysed with the vorticity. -/
noncomputable def dBoth (I : Inst) (a b : ℕ → ℕ → ℝ) : ℕ → ℕ → ℂ :=
  divOf I fun m n => ((I.anaV (fun i j => - b i j) a m n).1, (I.anaV (fun i j => - b i j) a m n).2.1)
/-- Vorticity alone. -/
noncomputable def zOne (I : Inst) (a b : ℕ → ℕ → ℝ) : ℕ → ℕ → ℂ := vrtOf I (I.anaVrt (fun i j => - b i j) a)
/-- Divergence alone. -/
noncomputable def dOne (I : Inst) (a b : ℕ → ℕ → ℝ) : ℕ → ℕ → ℂ := divOf I (I.anaDiv (fun i j => - b i j) a)
/-- A scalar field. -/
noncomputable def sOne (I : Inst) (c : ℕ → ℕ → ℝ) : ℕ → ℕ → ℂ := fun m n => ((0.5 : ℝ) : ℂ) * (⟨(I.anaS c m n).1, (I.anaS c m n).2⟩ : ℂ)
/-- Inverse Laplacian. -/
noncomputable def invS (I : Inst) (x : ℕ → ℕ → ℂ) : ℕ → ℕ → ℂ := fun m n =>
  if n = 0 then 0 else ((-(I.rsphere ^ 2) / (n * (n + 1)) : ℝ) : ℂ) * x m n
/-- Laplacian. -/
noncomputable def lapS (I : Inst) (x : ℕ → ℕ → ℂ) : ℕ → ℕ → ℂ := fun m n => ((-(n * (n + 1)) / I.rsphere ^ 2 : ℝ) : ℂ) * x m n
/-- Scalar synthesis. -/
noncomputable def onS (I : Inst) (T : ℕ) (x : ℕ → ℕ → ℂ) (i j : ℕ) : ℝ := Spec.seriesOn (usedS I T) x (I.lat i) (I.lon j)
/-- Eastward component of a gradient with Laplacian `x`. -/
noncomputable def gE (I : Inst) (T : ℕ) (x : ℕ → ℕ → ℂ) (i j : ℕ) : ℝ := uOn I.rsphere (usedV I T) (fun _ _ => 0) x (I.lat i) (I.lon j)
/-- Northward component. -/
noncomputable def gN (I : Inst) (T : ℕ) (x : ℕ → ℕ → ℂ) (i j : ℕ) : ℝ := vOn I.rsphere (usedV I T) (fun _ _ => 0) x (I.lat i) (I.lon j)
/-- The planetary vorticity on the grid, as the analysis sees it. -/
noncomputable def fGrid (I : Inst) (w : Option ℝ) : ℕ → ℕ → ℝ := Spec.cut I.nlat I.nlon (broadcastRows [I.nlat, I.nlon] (coriolis I (omegaOf w))) []

/-- What one slice gives. -/
noncomputable def sliceFuns (I : Inst) (T : ℕ) : Query → List SliceFun
  | .magnitude => [fun a b _ i j => Real.sqrt (a i j ^ 2 + b i j ^ 2)]
  | .vrtdiv _ => [fun a b _ => onS I T (zBoth I a b), fun a b _ => onS I T (dBoth I a b)]
  | .vorticity _ => [fun a b _ => onS I T (zOne I a b)]
  | .divergence _ => [fun a b _ => onS I T (dOne I a b)]
  | .planetary w => [fun _ _ _ i _ => coriolis I (omegaOf w) i]
  | .absolute w _ => [fun a b _ i j => onS I T (zOne I a b) i j + coriolis I (omegaOf w) i]
  | .sfvp _ => [fun a b _ => onS I T (invS I (zBoth I a b)), fun a b _ => onS I T (invS I (dBoth I a b))]
  | .streamfunction _ => [fun a b _ => onS I T (invS I (zOne I a b))]
  | .velocitypotential _ => [fun a b _ => onS I T (invS I (dOne I a b))]
  | .helmholtz _ => [fun a b _ => gE I T (dBoth I a b), fun a b _ => gN I T (dBoth I a b),
      fun a b _ i j => - gN I T (zBoth I a b) i j, fun a b _ => gE I T (zBoth I a b)]
  | .irrotational _ => [fun a b _ => gE I T (dOne I a b), fun a b _ => gN I T (dOne I a b)]
  | .nondivergent _ => [fun a b _ i j => - gN I T (zOne I a b) i j, fun a b _ => gE I T (zOne I a b)]
  | .gradient _ _ => [fun _ _ c => gE I T (lapS I (sOne I c)), fun _ _ c => gN I T (lapS I (sOne I c))]
  | .truncate _ _ => [fun _ _ c => onS I T (sOne I c)]
  | .rossby _ w => [fun a b _ i j => - (onS I T (zBoth I a b) i j + coriolis I (omegaOf w) i) * onS I T (dBoth I a b) i j -
      (gE I T (dBoth I a b) i j * gE I T (lapS I fun m n => zBoth I a b m n + sOne I (fGrid I w) m n) i j +
       gN I T (dBoth I a b) i j * gN I T (lapS I fun m n => zBoth I a b m n + sOne I (fGrid I w) m n) i j)]

/-- The truncation of a question. -/
def Query.trunc : Query → Option ℤ
  | .vrtdiv t | .vorticity t | .absolute _ t | .sfvp t | .streamfunction t | .helmholtz t | .nondivergent t
  | .divergence t | .velocitypotential t | .irrotational t | .gradient _ t | .truncate _ t | .rossby t _ => t
  | _ => some 0

/-- Every answer is made slice by slice, by functions that depend on the instance and the question only. -/
theorem answer_made {u v : NDArr ℝ} {q : Query} (hG : Good I (extra ++ [2])) (hu : u.shape = I.nlat :: I.nlon :: extra)
    (hv : v.shape = I.nlat :: I.nlon :: extra) (hf : Spec.Fits I extra q) (hr : Spec.Runs I extra.prod q)
    {T : ℕ} (hT : Spec.Truncation I.nlat q.trunc T) :
    ∃ rs, Spec.answer I u v q = .ok rs ∧ Made I extra u v (q.field u) rs (sliceFuns I T q) := by
  have hG1 := hG.of_pair
  have hT1 := truncation_lt hG1 hT
  cases q with
  | magnitude => exact ⟨_, rfl, .cons (isGrid_speed hu) .nil⟩
  | planetary w => exact ⟨_, rfl, .cons (isGrid_rows hu _) .nil⟩
  | vrtdiv t =>
    change Spec.Truncation I.nlat t T at hT
    obtain ⟨z, d, e1, hz, hd⟩ := getvrtdivspec_ok hG1 hu hv hT
    obtain ⟨g, h, e2, hg, hh⟩ := spectogrdPair_ok hG hz hd hT1
    exact ⟨[g, h], by simp only [Spec.answer, vrtdiv, e1, bind, Except.bind, e2, Except.map], .cons hg (.cons hh .nil)⟩
  | vorticity t =>
    change Spec.Truncation I.nlat t T at hT
    obtain ⟨z, e1, hz⟩ := getvrtspec_ok hG1 hu hv hT
    obtain ⟨g, e2, hg⟩ := spectogrd_ok hG1 hz hT1
    exact ⟨[g], by simp only [Spec.answer, vorticity, e1, bind, Except.bind, e2, Except.map], .cons hg .nil⟩
  | divergence t =>
    change Spec.Truncation I.nlat t T at hT
    obtain ⟨z, e1, hz⟩ := getdivspec_ok hG1 hu hv hT hr.2
    obtain ⟨g, e2, hg⟩ := spectogrd_ok hG1 hz hT1
    exact ⟨[g], by simp only [Spec.answer, divergence, e1, bind, Except.bind, e2, Except.map], .cons hg .nil⟩
  | absolute w t =>
    change Spec.Truncation I.nlat t T at hT
    obtain ⟨z, e1, hz⟩ := getvrtspec_ok hG1 hu hv hT
    obtain ⟨g, e2, hg⟩ := spectogrd_ok hG1 hz hT1
    exact ⟨[_], by simp only [Spec.answer, absolutevorticity, e1, bind, Except.bind, e2, Except.map, pure, Except.pure],
      .cons (isGrid_add hg (isGrid_rows hu _)) .nil⟩
  | sfvp t =>
    change Spec.Truncation I.nlat t T at hT
    obtain ⟨z, d, e1, hz, hd⟩ := getvrtdivspec_ok hG1 hu hv hT
    obtain ⟨z', e3, hz'⟩ := invlapspec_ok hz hT1
    obtain ⟨d', e4, hd'⟩ := invlapspec_ok hd hT1
    obtain ⟨g, h, e2, hg, hh⟩ := spectogrdPair_ok hG hz' hd' hT1
    exact ⟨[g, h], by simp only [Spec.answer, sfvp, e1, bind, Except.bind, e2, e3, e4, Except.map], .cons hg (.cons hh .nil)⟩
  | streamfunction t =>
    change Spec.Truncation I.nlat t T at hT
    obtain ⟨z, e1, hz⟩ := getvrtspec_ok hG1 hu hv hT
    obtain ⟨z', e3, hz'⟩ := invlapspec_ok hz hT1
    obtain ⟨g, e2, hg⟩ := spectogrd_ok hG1 hz' hT1
    exact ⟨[g], by simp only [Spec.answer, streamfunction, e1, bind, Except.bind, e2, e3, Except.map], .cons hg .nil⟩
  | velocitypotential t =>
    change Spec.Truncation I.nlat t T at hT
    obtain ⟨z, e1, hz⟩ := getdivspec_ok hG1 hu hv hT hr.2
    obtain ⟨z', e3, hz'⟩ := invlapspec_ok hz hT1
    obtain ⟨g, e2, hg⟩ := spectogrd_ok hG1 hz' hT1
    exact ⟨[g], by simp only [Spec.answer, velocitypotential, e1, bind, Except.bind, e2, e3, Except.map], .cons hg .nil⟩
  | helmholtz t =>
    change Spec.Truncation I.nlat t T at hT
    obtain ⟨z, d, e1, hz, hd⟩ := getvrtdivspec_ok hG1 hu hv hT
    obtain ⟨px, vp, up, e3, e4, hp, svp, sup⟩ := grad_invlap_ok hG1 hz hT1
    obtain ⟨cx, uc, vc, e5, e6, hc, suc, svc⟩ := grad_invlap_ok hG1 hd hT1
    exact ⟨[uc, vc, negG up, vp], by simp only [Spec.answer, helmholtz, e1, bind, Except.bind, e3, e4, e5, e6, Except.map, pure, Except.pure],
      .cons suc (.cons svc (.cons (isGrid_neg sup) (.cons svp .nil)))⟩
  | irrotational t =>
    change Spec.Truncation I.nlat t T at hT
    obtain ⟨d, e1, hd⟩ := getdivspec_ok hG1 hu hv hT hr.2
    obtain ⟨cx, uc, vc, e5, e6, hc, suc, svc⟩ := grad_invlap_ok hG1 hd hT1
    exact ⟨[uc, vc], by simp only [Spec.answer, irrotational, e1, bind, Except.bind, e5, e6, Except.map], .cons suc (.cons svc .nil)⟩
  | nondivergent t =>
    change Spec.Truncation I.nlat t T at hT
    obtain ⟨z, e1, hz⟩ := getvrtspec_ok hG1 hu hv hT
    obtain ⟨px, vp, up, e3, e4, hp, svp, sup⟩ := grad_invlap_ok hG1 hz hT1
    exact ⟨[negG up, vp], by simp only [Spec.answer, nondivergent, e1, bind, Except.bind, e3, e4, Except.map, pure, Except.pure],
      .cons (isGrid_neg sup) (.cons svp .nil)⟩
  | gradient chi t =>
    change Spec.Truncation I.nlat t T at hT
    obtain ⟨T', ht, hb⟩ := hr
    have : T' = T := trunc_unique ht hT
    subst T
    obtain ⟨s, e1, hs⟩ := grdtospec_ok hG1 hf ht hb
    obtain ⟨a, b, e2, ha, hb⟩ := getgrad_ok hG1 hs hT1
    exact ⟨[a, b], by simp only [Spec.answer, gradient, e1, bind, Except.bind, e2, Except.map], .cons ha (.cons hb .nil)⟩
  | truncate x t =>
    change Spec.Truncation I.nlat t T at hT
    obtain ⟨T', ht, hb⟩ := hr
    have : T' = T := trunc_unique ht hT
    subst T
    obtain ⟨s, e1, hs⟩ := grdtospec_ok hG1 hf ht hb
    obtain ⟨a, e2, ha⟩ := spectogrd_ok hG1 hs hT1
    exact ⟨[a], by simp only [Spec.answer, truncate, e1, bind, Except.bind, e2, Except.map], .cons ha .nil⟩
  | rossby t w =>
    change Spec.Truncation I.nlat t T at hT
    obtain ⟨T', ht, hb⟩ := hr
    have : T' = T := trunc_unique ht hT
    subst T
    obtain ⟨z, d, e1, hz, hd⟩ := getvrtdivspec_ok hG1 hu hv hT
    obtain ⟨g, h, e2, hg, hh⟩ := spectogrdPair_ok hG hz hd hT1
    obtain ⟨cx, uc, vc, e5, e6, hc, suc, svc⟩ := grad_invlap_ok hG1 hd hT1
    obtain ⟨fs, e7, hf⟩ := grdtospec_ok (good_nil hG1) (x := broadcastRows [I.nlat, I.nlon] (coriolis I (omegaOf w))) rfl
      (t := some (T' : ℤ)) (Or.inr ⟨rfl, hT1⟩) hb
    have hsum : Spec.IsSpectrum T' extra (addRows z fs) fun e m n =>
        zBoth I (Spec.cut I.nlat I.nlon u e) (Spec.cut I.nlat I.nlon v e) m n + sOne I (fGrid I w) m n := by
      refine ⟨hz.1, fun e he m n hm hn => ?_⟩
      show z.get _ + fs.get _ = _
      rw [hz.2 e he m n hm hn]
      congr 1
      simp only [List.headD_cons]
      exact hf.2 [] trivial m n hm hn
    obtain ⟨ex, ey, e8, sx, sy⟩ := getgrad_ok hG1 hsum hT1
    refine ⟨[rwsOf (addG g (broadcastRows u.shape (coriolis I (omegaOf w)))) h uc ex vc ey], ?_, .cons ⟨hg.1, fun e he i j hi hj => ?_⟩ .nil⟩
    · simp only [Spec.answer, rossbywavesource, planetarySpec, ntrunc_ok hT, e1, bind, Except.bind, e2, e5, e6, e7, e8, Except.map, pure, Except.pure]
    · show - (g.get _ + coriolis I (omegaOf w) i) * h.get _ - (uc.get _ * ex.get _ + vc.get _ * ey.get _) = _
      rw [hg.2 e he i j hi hj, hh.2 e he i j hi hj, suc.2 e he i j hi hj, svc.2 e he i j hi hj, sx.2 e he i j hi hj, sy.2 e he i j hi hj]
      rfl

theorem forall₂_left {α β : Type} {R : α → β → Prop} {l : List α} {m : List β} (h : List.Forall₂ R l m) {a : α} (ha : a ∈ l) :
    ∃ b ∈ m, R a b := by
  induction h with
  | nil => cases ha
  | cons hab _ ih =>
    rcases List.mem_cons.mp ha with rfl | ha
    · exact ⟨_, List.mem_cons_self, hab⟩
    · obtain ⟨b, hb, h⟩ := ih ha
      exact ⟨b, List.mem_cons_of_mem _ hb, h⟩

theorem good_slice (hG : Good I (extra ++ [2])) : Good I ([] ++ [2]) := by
  obtain ⟨h1, h2, h3, h4, h5⟩ := hG
  refine ⟨h1, h2, h3, by simp, le_trans (Nat.mul_le_mul_left _ ?_) h5⟩
  have hp : ([] ++ [2] : List ℕ).prod ≤ (extra ++ [2]).prod := by
    simp only [List.prod_append, List.prod_nil, List.prod_cons, one_mul, mul_one] at h4 ⊢
    omega
  have := Nat.mul_le_mul_right I.nlon (Nat.mul_le_mul_left 4 hp)
  omega

theorem cut_slice {x : NDArr ℝ} (e : List ℕ) : Spec.cut I.nlat I.nlon (Spec.sliceAt I x e) [] = Spec.cut I.nlat I.nlon x e := by
  funext i j
  simp [Spec.cut, Spec.sliceAt]

/-- The refusals. -/
theorem answer_refused {u v : NDArr ℝ} {q : Query} (hG : Good I (extra ++ [2])) (hu : u.shape = I.nlat :: I.nlon :: extra)
    (hv : v.shape = I.nlat :: I.nlon :: extra) (hf : Spec.Fits I extra q) (hr : ¬ Spec.Runs I extra.prod q) :
    ∃ er, Spec.answer I u v q = .error er := by
  have hG1 := hG.of_pair
  have key : ∀ t : Option ℤ, (¬ ∃ T, Spec.Truncation I.nlat t T) → ∃ s : ℤ, t = some s ∧ (s < 0 ∨ (I.nlat : ℤ) ≤ s) := by
    intro t ht
    cases t with
    | none => exact absurd ⟨_, Or.inl ⟨rfl, rfl⟩⟩ ht
    | some s =>
      refine ⟨s, rfl, ?_⟩
      by_contra hc
      push Not at hc
      exact ht ⟨s.toNat, Or.inr ⟨by simp only [Option.some.injEq]; omega, by omega⟩⟩
  have hlow : ∀ t : Option ℤ, (¬ ∃ T, Spec.Truncation I.nlat t T ∧ T ≤ I.nlon / 2) →
      (¬ ∃ T, Spec.Truncation I.nlat t T) ∨ ∃ T, Spec.Truncation I.nlat t T ∧ I.nlon / 2 < T := by
    intro t ht
    by_cases h : ∃ T, Spec.Truncation I.nlat t T
    · obtain ⟨T, h⟩ := h
      exact Or.inr ⟨T, h, by by_contra hc; exact ht ⟨T, h, by omega⟩⟩
    · exact Or.inl h
  cases q with
  | magnitude => exact absurd trivial hr
  | planetary w => exact absurd trivial hr
  | vrtdiv t =>
    obtain ⟨s, rfl, hs⟩ := key t hr
    obtain ⟨-, -, -, e⟩ := C177_refused hu hu hv hs
    exact ⟨_, by simp only [Spec.answer, vrtdiv, e, bind, Except.bind, Except.map]; rfl⟩
  | sfvp t =>
    obtain ⟨s, rfl, hs⟩ := key t hr
    obtain ⟨-, -, -, e⟩ := C177_refused hu hu hv hs
    exact ⟨_, by simp only [Spec.answer, sfvp, e, bind, Except.bind, Except.map]; rfl⟩
  | helmholtz t =>
    obtain ⟨s, rfl, hs⟩ := key t hr
    obtain ⟨-, -, -, e⟩ := C177_refused hu hu hv hs
    exact ⟨_, by simp only [Spec.answer, helmholtz, e, bind, Except.bind, Except.map]; rfl⟩
  | vorticity t =>
    obtain ⟨s, rfl, hs⟩ := key t hr
    obtain ⟨-, e, -, -⟩ := C177_refused hu hu hv hs
    exact ⟨_, by simp only [Spec.answer, vorticity, e, bind, Except.bind, Except.map]; rfl⟩
  | absolute w t =>
    obtain ⟨s, rfl, hs⟩ := key t hr
    obtain ⟨-, e, -, -⟩ := C177_refused hu hu hv hs
    exact ⟨_, by simp only [Spec.answer, absolutevorticity, e, bind, Except.bind, Except.map]; rfl⟩
  | streamfunction t =>
    obtain ⟨s, rfl, hs⟩ := key t hr
    obtain ⟨-, e, -, -⟩ := C177_refused hu hu hv hs
    exact ⟨_, by simp only [Spec.answer, streamfunction, e, bind, Except.bind, Except.map]; rfl⟩
  | nondivergent t =>
    obtain ⟨s, rfl, hs⟩ := key t hr
    obtain ⟨-, e, -, -⟩ := C177_refused hu hu hv hs
    exact ⟨_, by simp only [Spec.answer, nondivergent, e, bind, Except.bind, Except.map]; rfl⟩
  | divergence t =>
    by_cases h : ∃ T, Spec.Truncation I.nlat t T
    · obtain ⟨T, h⟩ := h
      have h24 : I.grid = .regular ∧ I.leg = .stored ∧ 24 < extra.prod := by by_contra hc; exact hr ⟨⟨T, h⟩, hc⟩
      obtain ⟨-, -, -, e, e1, -, -⟩ := C153_singles_false hG h24.1 h24.2.1 h24.2.2 hu hv h
      exact ⟨_, by simp only [Spec.answer, e1, Except.map]; rfl⟩
    · obtain ⟨s, rfl, hs⟩ := key t h
      obtain ⟨-, -, e, -⟩ := C177_refused hu hu hv hs
      exact ⟨_, by simp only [Spec.answer, divergence, e, bind, Except.bind, Except.map]; rfl⟩
  | velocitypotential t =>
    by_cases h : ∃ T, Spec.Truncation I.nlat t T
    · obtain ⟨T, h⟩ := h
      have h24 : I.grid = .regular ∧ I.leg = .stored ∧ 24 < extra.prod := by by_contra hc; exact hr ⟨⟨T, h⟩, hc⟩
      obtain ⟨-, -, -, e, -, e1, -⟩ := C153_singles_false hG h24.1 h24.2.1 h24.2.2 hu hv h
      exact ⟨_, by simp only [Spec.answer, e1, Except.map]; rfl⟩
    · obtain ⟨s, rfl, hs⟩ := key t h
      obtain ⟨-, -, e, -⟩ := C177_refused hu hu hv hs
      exact ⟨_, by simp only [Spec.answer, velocitypotential, e, bind, Except.bind, Except.map]; rfl⟩
  | irrotational t =>
    by_cases h : ∃ T, Spec.Truncation I.nlat t T
    · obtain ⟨T, h⟩ := h
      have h24 : I.grid = .regular ∧ I.leg = .stored ∧ 24 < extra.prod := by by_contra hc; exact hr ⟨⟨T, h⟩, hc⟩
      obtain ⟨-, -, -, e, -, -, e1⟩ := C153_singles_false hG h24.1 h24.2.1 h24.2.2 hu hv h
      exact ⟨_, by simp only [Spec.answer, e1, Except.map]; rfl⟩
    · obtain ⟨s, rfl, hs⟩ := key t h
      obtain ⟨-, -, e, -⟩ := C177_refused hu hu hv hs
      exact ⟨_, by simp only [Spec.answer, irrotational, e, bind, Except.bind, Except.map]; rfl⟩
  | gradient chi t =>
    rcases hlow t hr with h | ⟨T, h, hb⟩
    · obtain ⟨s, rfl, hs⟩ := key t h
      obtain ⟨e, -, -, -⟩ := C177_refused hf hu hv hs
      exact ⟨_, by simp only [Spec.answer, gradient, e, bind, Except.bind, Except.map]; rfl⟩
    · have e := grdtospec_undefined hG1 hf h hb
      exact ⟨_, by simp only [Spec.answer, gradient, e, bind, Except.bind, Except.map]; rfl⟩
  | truncate x t =>
    rcases hlow t hr with h | ⟨T, h, hb⟩
    · obtain ⟨s, rfl, hs⟩ := key t h
      obtain ⟨e, -, -, -⟩ := C177_refused hf hu hv hs
      exact ⟨_, by simp only [Spec.answer, truncate, e, bind, Except.bind, Except.map]; rfl⟩
    · have e := grdtospec_undefined hG1 hf h hb
      exact ⟨_, by simp only [Spec.answer, truncate, e, bind, Except.bind, Except.map]; rfl⟩
  | rossby t w =>
    rcases hlow t hr with h | ⟨T, h, hb⟩
    · obtain ⟨s, rfl, hs⟩ := key t h
      obtain ⟨-, -, -, e⟩ := C177_refused hu hu hv hs
      exact ⟨_, by simp only [Spec.answer, rossbywavesource, e, bind, Except.bind, Except.map]; rfl⟩
    · obtain ⟨e, -⟩ := C156_rws_false hG hu hv h hb w
      exact ⟨_, by simp only [Spec.answer, e, Except.map]; rfl⟩

theorem runs_trunc {q : Query} {nt : ℕ} (hl : 3 ≤ I.nlat) (h : Spec.Runs I nt q) : ∃ T, Spec.Truncation I.nlat q.trunc T := by
  cases q with
  | magnitude => exact ⟨0, Or.inr ⟨rfl, by omega⟩⟩
  | planetary w => exact ⟨0, Or.inr ⟨rfl, by omega⟩⟩
  | divergence t => exact h.1
  | velocitypotential t => exact h.1
  | irrotational t => exact h.1
  | gradient chi t => exact ⟨h.choose, h.choose_spec.1⟩
  | truncate chi t => exact ⟨h.choose, h.choose_spec.1⟩
  | rossby t w => exact ⟨h.choose, h.choose_spec.1⟩
  | _ => exact h

theorem runs_fewer {q : Query} {nt nt' : ℕ} (h : Spec.Runs I nt q) (hn : nt' ≤ nt) : Spec.Runs I nt' q := by
  cases q with
  | divergence t => exact ⟨h.1, fun hc => h.2 ⟨hc.1, hc.2.1, by omega⟩⟩
  | velocitypotential t => exact ⟨h.1, fun hc => h.2 ⟨hc.1, hc.2.1, by omega⟩⟩
  | irrotational t => exact ⟨h.1, fun hc => h.2 ⟨hc.1, hc.2.1, by omega⟩⟩
  | _ => exact h

/-- C237: a method of `VectorWind` applied to a stack of slices answers exactly under the stated conditions, and then its answer
at every position of the extra dimensions is the answer the same method gives for that slice alone. -/
theorem C237_slices {u v : NDArr ℝ} (q : Query) (hG : Good I (extra ++ [2])) (hu : u.shape = I.nlat :: I.nlon :: extra)
    (hv : v.shape = I.nlat :: I.nlon :: extra) (hf : Spec.Fits I extra q) :
    ((∃ rs, Spec.answer I u v q = .ok rs) ↔ Spec.Runs I extra.prod q) ∧
    ∀ rs, Spec.answer I u v q = .ok rs → (∀ r ∈ rs, r.shape = u.shape) ∧ ∀ e, InB extra e →
      ∃ rs', Spec.answer I (Spec.sliceAt I u e) (Spec.sliceAt I v e) (Spec.queryAt I e q) = .ok rs' ∧
        List.Forall₂ (fun r r' => r'.shape = [I.nlat, I.nlon] ∧ ∀ i j, i < I.nlat → j < I.nlon → r.get (i :: j :: e) = r'.get [i, j]) rs rs' := by
  have hiff : (∃ rs, Spec.answer I u v q = .ok rs) ↔ Spec.Runs I extra.prod q := by
    constructor
    · rintro ⟨rs, e⟩
      by_contra hr
      obtain ⟨er, e'⟩ := answer_refused hG hu hv hf hr
      rw [e] at e'; cases e'
    · intro hr
      obtain ⟨T, hT⟩ := runs_trunc hG.lat hr
      obtain ⟨rs, e, -⟩ := answer_made hG hu hv hf hr hT
      exact ⟨rs, e⟩
  refine ⟨hiff, fun rs e => ?_⟩
  have hr := hiff.mp ⟨rs, e⟩
  obtain ⟨T, hT⟩ := runs_trunc hG.lat hr
  obtain ⟨rs0, e0, hm⟩ := answer_made hG hu hv hf hr hT
  rw [e] at e0
  obtain rfl : rs = rs0 := by injection e0
  have hp := hG.of_pair.some
  refine ⟨fun r hr' => ?_, fun x hx => ?_⟩
  · obtain ⟨F, -, h⟩ := forall₂_left hm hr'
    rw [h.1, hu]
  · have hr1 : Spec.Runs I ([] : List ℕ).prod (Spec.queryAt I x q) := by
      have := runs_fewer hr (nt' := 1) hp
      cases q <;> exact this
    have ht1 : Spec.Truncation I.nlat (Spec.queryAt I x q).trunc T := by cases q <;> exact hT
    have hf1 : Spec.Fits I [] (Spec.queryAt I x q) := by cases q <;> first | exact rfl | trivial
    obtain ⟨rs', e', hm'⟩ := answer_made (good_slice hG) (u := Spec.sliceAt I u x) (v := Spec.sliceAt I v x) rfl rfl hf1 hr1 ht1
    refine ⟨rs', e', ?_⟩
    have hF : sliceFuns I T (Spec.queryAt I x q) = sliceFuns I T q := by cases q <;> rfl
    have hx' : Spec.cut I.nlat I.nlon ((Spec.queryAt I x q).field (Spec.sliceAt I u x)) [] = Spec.cut I.nlat I.nlon (q.field u) x := by
      cases q <;> exact cut_slice x
    unfold Made at hm hm'
    rw [hF] at hm'
    clear e e' hiff e0
    generalize sliceFuns I T q = Fs at hm hm'
    induction hm generalizing rs' with
    | nil => cases hm'; exact .nil
    | cons h _ ih =>
      cases hm' with
      | cons h' t' =>
        refine .cons ⟨h'.1, fun i j hi hj => ?_⟩ (ih _ t')
        rw [h.2 x hx i j hi hj, h'.2 [] trivial i j hi hj]
        beta_reduce
        rw [hx', cut_slice, cut_slice]

/-- Non-vacuity: a stack of 25 slices on which the vorticity is computed, the divergence alone is not. -/
example : ∃ I : Inst, Good I ([5, 5] ++ [2]) ∧ Spec.Runs I [5, 5].prod (.vorticity (some 3)) ∧ ¬ Spec.Runs I [5, 5].prod (.divergence none) ∧
    Spec.Runs I [5].prod (.divergence none) ∧ Spec.Runs I [5, 5].prod (.rossby none none) :=
  ⟨⟨5, 8, 1, .regular, .stored, fun _ => 0, fun _ _ _ => 0, fun _ _ _ _ => 0, fun _ _ _ _ => 0, fun _ _ _ _ => 0⟩,
    ⟨by norm_num, by norm_num, by norm_num, by norm_num, by norm_num⟩, ⟨3, Or.inr ⟨rfl, by norm_num⟩⟩, fun h => h.2 ⟨rfl, rfl, by norm_num⟩,
    ⟨⟨4, Or.inl ⟨rfl, rfl⟩⟩, fun h => absurd h.2.2 (by norm_num)⟩, ⟨4, Or.inl ⟨rfl, rfl⟩, by norm_num⟩⟩

end Skyborn.Sphere
