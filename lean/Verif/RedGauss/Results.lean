/-
C207, C208, C210, C212, C217: what the methods of `ReducedGaussianSpharmt` return, for every object a program can hold,
after any history, for every schedule and every content of uninitialised memory.
-/
import Verif.RedGauss.History

namespace Skyborn.RedGauss

open Skyborn Sphere

variable {lib : Lib} {c : Cfg} {E E' : Env}

/-! ### From the triples to calls -/

theorem specShape_unique {nlat : ℕ} {s : NDArr ℂ} {T T' : ℕ} {extra extra' : List ℕ} (h : s.shape = (T + 1) * (T + 2) / 2 :: extra)
    (h' : Spec.IsSpecShape nlat s T' extra') : T = T' ∧ extra = extra' := by
  have := h'.1; rw [h] at this; simp only [List.cons.injEq] at this
  have hT : ((T : ℕ) : ℤ) = T' := by rw [← Spectral.C44_truncation T, ← Spectral.C44_truncation T', this.1]
  exact ⟨by exact_mod_cast hT, this.2⟩

theorem gridShape_unique {pl : List ℕ} {x : NDArr ℝ} {extra extra' : List ℕ} (h : x.shape = pl.sum :: extra) (h' : Spec.IsGridShape pl x extra') : extra = extra' := by
  have := h'; unfold Spec.IsGridShape at this; rw [h] at this; simp only [List.cons.injEq] at this; exact this.2

theorem truncation_unique {nlat : ℕ} {t : Option ℤ} {T T' : ℕ} (h : Sphere.Spec.Truncation nlat t T) (h' : Sphere.Spec.Truncation nlat t T') : T = T' := by
  rcases h with ⟨rfl, rfl⟩ | ⟨rfl, h⟩ <;> rcases h' with ⟨h1, rfl⟩ | ⟨h1, h2⟩
  · rfl
  · simp at h1
  · simp at h1
  · simpa using h1

theorem spectrum_coef {T : ℕ} {extra e : List ℕ} {s : NDArr ℂ} {a : List ℕ → ℕ → ℕ → ℂ} (h : Sphere.Spec.IsSpectrum T extra s a) (he : InB extra e) :
    ∀ m n, m ≤ n → n ≤ T → Spec.coef T s e m n = a e m n := fun m n h1 h2 => h.2 e he m n h1 h2

theorem packed_value {pl extra e : List ℕ} {x : NDArr ℝ} {f : List ℕ → ℕ → ℕ → ℝ} (h : Spec.IsPacked pl extra x f) (he : InB extra e) :
    ∀ j i, 1 ≤ j → j ≤ pl.length → 1 ≤ i → i ≤ Spec.row pl j → Spec.value pl x e j i = f e j i := fun j i h1 h2 h3 h4 => h.2 e he j i h1 h2 h3 h4

/-! ### Analysis -/

/-- C207: `grdtospec` of a packed field returns, at the place of every coefficient of the truncation asked for, Fourier
analysis of the rows that carry the wave followed by Gaussian quadrature; slice by slice. -/
theorem C207_analysis (hl : lib.Sound) {st : World × Caches} (hst : Live lib c st) (hE : E.ok) {x : NDArr ℝ} {extra : List ℕ}
    {f : List ℕ → ℕ → ℕ → ℝ} (hx : Spec.IsPacked c.pl extra x f) (hne : 1 ≤ extra.prod) {t : Option ℤ} {T : ℕ} (ht : Sphere.Spec.Truncation c.nlat t T) :
    ∃ r st', exec (grdtospecM E lib c x t) st = (.ok r, st') ∧
      Sphere.Spec.IsSpectrum T extra r fun e => Spec.analysis c.nlat (Spec.row c.pl) (lib.theta c.nlat) (lib.weight c.nlat) (f e) := by
  obtain ⟨hc, _⟩ := hst.good hl
  obtain ⟨r, st', h1, extra', T', h2, h3, h4, h5⟩ := hst.run hl (grdtospecM_tri hE hl hc x t) (by
    rintro e (⟨_, h | h⟩ | ⟨_, ⟨extra', h, h'⟩, _⟩)
    · exact h extra hx.1
    · exact h T ht
    · rw [← gridShape_unique hx.1 h] at h'; omega)
  obtain rfl := gridShape_unique hx.1 h2
  obtain rfl := truncation_unique ht h4
  exact ⟨r, st', h1, h5.congr fun e he m n _ _ => analysis_congr fun j i j1 j2 i1 i2 => packed_value hx he j i j1 j2 i1 i2⟩

/-! ### Synthesis -/

/-- C208: `spectogrd` returns on every row the series of the coefficients, as far as the row carries its waves. -/
theorem C208_rows (hl : lib.Sound) {st : World × Caches} (hst : Live lib c st) (hE : E.ok) {s : NDArr ℂ} {extra : List ℕ} {T : ℕ}
    {a : List ℕ → ℕ → ℕ → ℂ} (hs : Sphere.Spec.IsSpectrum T extra s a) (hT : T < c.nlat) (hne : 1 ≤ extra.prod) :
    ∃ r st', exec (spectogrdM E lib c s) st = (.ok r, st') ∧
      Spec.IsPacked c.pl extra r fun e j i =>
        Spec.rowField (Spec.row c.pl j) T (Spec.order T (a e) (lib.theta c.nlat j)) (Spec.lon (Spec.row c.pl j) i) := by
  obtain ⟨hc, _⟩ := hst.good hl
  obtain ⟨r, st', h1, T', extra', h2, h3, h4⟩ := hst.run hl (spectogrdM_tri hE hl hc s) (by
    rintro e (⟨_, h⟩ | ⟨_, T', extra', h, h'⟩)
    · exact h T extra ⟨hs.1, hT⟩
    · rw [← (specShape_unique hs.1 h).2] at h'; omega)
  obtain ⟨rfl, rfl⟩ := specShape_unique hs.1 h2
  refine ⟨r, st', h1, h4.congr fun e he j i _ _ _ _ => ?_⟩
  show Spec.rowField _ _ _ _ = _
  rw [order_congr (spectrum_coef hs he)]
  rfl

/-- C208: on the rows with more than `2 T` points, `spectogrd` returns the values of the spherical-harmonic series at the
points of the grid. -/
theorem C208_synthesis_partial (hl : lib.Sound) {st : World × Caches} (hst : Live lib c st) (hE : E.ok) {s : NDArr ℂ} {extra : List ℕ} {T : ℕ}
    {a : List ℕ → ℕ → ℕ → ℂ} (hs : Sphere.Spec.IsSpectrum T extra s a) (hT : T < c.nlat) (hne : 1 ≤ extra.prod) :
    ∃ r st', exec (spectogrdM E lib c s) st = (.ok r, st') ∧ r.shape = c.pl.sum :: extra ∧
      ∀ e, InB extra e → ∀ j i, 1 ≤ j → j ≤ c.nlat → 1 ≤ i → i ≤ Spec.row c.pl j → 2 * T < Spec.row c.pl j →
        Spec.value c.pl r e j i = Spec.series T (a e) (lib.theta c.nlat j) (Spec.lon (Spec.row c.pl j) i) := by
  obtain ⟨r, st', h1, h2⟩ := C208_rows hl hst hE hs hT hne
  refine ⟨r, st', h1, h2.1, fun e he j i j1 j2 i1 i2 hw => ?_⟩
  rw [← rowField_full hw]
  exact h2.2 e he j i j1 j2 i1 i2

/-! ### Gradient -/

/-- The field whose gradient `getgrad` takes on row `j`. -/
noncomputable def Spec.fieldAt (N T : ℕ) (a : ℕ → ℕ → ℂ) (θ l : ℝ) : ℝ := Spec.rowField N T (Spec.order T a θ) l

/-- C210: `getgrad` returns the eastward and the northward component of the gradient: on every row, the derivative in
longitude divided by the radius of the latitude circle, and minus the derivative in colatitude divided by the radius. -/
theorem C210_gradient (hl : lib.Sound) {st : World × Caches} (hst : Live lib c st) (hE : E.ok) {s : NDArr ℂ} {extra : List ℕ} {T : ℕ}
    {a : List ℕ → ℕ → ℕ → ℂ} (hs : Sphere.Spec.IsSpectrum T extra s a) (hT : T < c.nlat) (hne : 1 ≤ extra.prod) :
    ∃ u v st', exec (getgradM E lib c s) st = (.ok (u, v), st') ∧ u.shape = c.pl.sum :: extra ∧ v.shape = c.pl.sum :: extra ∧
      ∀ e, InB extra e → ∀ j i, 1 ≤ j → j ≤ c.nlat → 1 ≤ i → i ≤ Spec.row c.pl j →
        HasDerivAt (Spec.fieldAt (Spec.row c.pl j) T (a e) (lib.theta c.nlat j))
          (c.rsphere * Real.sin (lib.theta c.nlat j) * Spec.value c.pl u e j i) (Spec.lon (Spec.row c.pl j) i) ∧
        HasDerivAt (fun t => Spec.fieldAt (Spec.row c.pl j) T (a e) t (Spec.lon (Spec.row c.pl j) i))
          (-(c.rsphere * Spec.value c.pl v e j i)) (lib.theta c.nlat j) := by
  obtain ⟨hc, _⟩ := hst.good hl
  obtain ⟨⟨u, v⟩, st', h1, T', extra', h2, h3, h4, h5⟩ := hst.run hl (getgradM_tri hE hl hc s) (by
    rintro e (⟨_, h⟩ | ⟨_, T', extra', h, h'⟩)
    · exact h T extra ⟨hs.1, hT⟩
    · rw [← (specShape_unique hs.1 h).2] at h'; omega)
  obtain ⟨rfl, rfl⟩ := specShape_unique hs.1 h2
  refine ⟨u, v, st', h1, h4.1, h5.1, fun e he j i j1 j2 i1 i2 => ?_⟩
  have hsin : 0 < Real.sin (lib.theta c.nlat j) := by rw [← hc.hs j]; exact valid_sin hl hc j j1 j2
  have hg := grad_congr (N := Spec.row c.pl j) (r := c.rsphere) (θ := lib.theta c.nlat j) (l := Spec.lon (Spec.row c.pl j) i) (spectrum_coef hs he)
  have hu : Spec.value c.pl u e j i = Spec.east (Spec.row c.pl j) T c.rsphere (a e) (lib.theta c.nlat j) (Spec.lon (Spec.row c.pl j) i) := by
    rw [← hg.1]; exact h4.2 e he j i j1 j2 i1 i2
  have hv : Spec.value c.pl v e j i = Spec.north (Spec.row c.pl j) T c.rsphere (a e) (lib.theta c.nlat j) (Spec.lon (Spec.row c.pl j) i) := by
    rw [← hg.2]; exact h5.2 e he j i j1 j2 i1 i2
  rw [hu, hv]
  exact ⟨east_deriv _ T hc.hr hsin (a e) _, north_deriv _ T hc.hr (a e) _ _⟩

/-! ### Winds from vorticity and divergence -/

/-- C212: `getuv` returns the wind of the streamfunction and the velocity potential that are the inverse Laplacians of the
vorticity and the divergence. -/
theorem C212_getuv (hl : lib.Sound) {st : World × Caches} (hst : Live lib c st) (hE : E.ok) {s d : NDArr ℂ} {extra : List ℕ} {T : ℕ}
    {a b : List ℕ → ℕ → ℕ → ℂ} (hs : Sphere.Spec.IsSpectrum T extra s a) (hd : Sphere.Spec.IsSpectrum T extra d b) (hT : T < c.nlat) (hne : 1 ≤ extra.prod) :
    ∃ u v st', exec (getuvM E lib c s d) st = (.ok (u, v), st') ∧
      (Spec.IsPacked c.pl extra u fun e j i => Spec.windU (Spec.row c.pl j) T c.rsphere (Spec.invlap c.rsphere (a e)) (Spec.invlap c.rsphere (b e))
        (lib.theta c.nlat j) (Spec.lon (Spec.row c.pl j) i)) ∧
      Spec.IsPacked c.pl extra v fun e j i => Spec.windV (Spec.row c.pl j) T c.rsphere (Spec.invlap c.rsphere (a e)) (Spec.invlap c.rsphere (b e))
        (lib.theta c.nlat j) (Spec.lon (Spec.row c.pl j) i) := by
  obtain ⟨hc, _⟩ := hst.good hl
  obtain ⟨⟨u, v⟩, st', h1, T', extra', h2, h3, h4, h5, h6⟩ := hst.run hl (getuvM_tri hE hl hc s d) (by
    rintro e (⟨_, h | h⟩ | ⟨_, T', extra', h, _, h'⟩)
    · exact h (hs.1.trans hd.1.symm)
    · exact h T extra ⟨hs.1, hT⟩
    · rw [← (specShape_unique hs.1 h).2] at h'; omega)
  obtain ⟨rfl, rfl⟩ := specShape_unique hs.1 h2
  have hinv : ∀ {q : NDArr ℂ} {y : List ℕ → ℕ → ℕ → ℂ} {e : List ℕ}, Sphere.Spec.IsSpectrum T extra q y → InB extra e → ∀ m n, m ≤ n → n ≤ T →
      Spec.invlap c.rsphere (Spec.coef T q e) m n = Spec.invlap c.rsphere (y e) m n := fun hq he m n h1 h2 => by
    unfold Spec.invlap; rw [spectrum_coef hq he m n h1 h2]
  refine ⟨u, v, st', h1, h5.congr fun e he j i _ _ _ _ => ?_, h6.congr fun e he j i _ _ _ _ => ?_⟩
  · unfold eastField northField Spec.windU
    rw [(grad_congr (hinv hd he)).1, (grad_congr (hinv hs he)).2]; rfl
  · unfold eastField northField Spec.windV
    rw [(grad_congr (hinv hd he)).2, (grad_congr (hinv hs he)).1]; rfl

/-! ### Smoothing -/

/-- C217: `specsmooth` analyses the field, multiplies the coefficients of degree `n` by `smooth[n]` and synthesises. -/
theorem C217_specsmooth (hl : lib.Sound) {st : World × Caches} (hst : Live lib c st) (hE : E.ok) (hE' : E'.ok) {x smooth : NDArr ℝ} {extra : List ℕ}
    {f : List ℕ → ℕ → ℕ → ℝ} (hx : Spec.IsPacked c.pl extra x f) (hne : 1 ≤ extra.prod) (hsm : smooth.shape = [c.nlat]) :
    ∃ r st', exec (specsmoothM E E' lib c x smooth) st = (.ok r, st') ∧
      Spec.IsPacked c.pl extra r fun e j i => Spec.rowField (Spec.row c.pl j) (c.nlat - 1)
        (Spec.order (c.nlat - 1) (fun m n => (smooth.get [n] : ℂ) * Spec.analysis c.nlat (Spec.row c.pl) (lib.theta c.nlat) (lib.weight c.nlat) (f e) m n)
          (lib.theta c.nlat j)) (Spec.lon (Spec.row c.pl j) i) := by
  obtain ⟨hc, _⟩ := hst.good hl
  obtain ⟨r, st', h1, extra', h2, h3, h4, h5⟩ := hst.run hl (specsmoothM_tri hE hE' hl hc x smooth) (by
    rintro e (⟨_, h | h⟩ | ⟨_, _, extra', h, h'⟩)
    · exact h hsm
    · exact h extra hx.1
    · rw [← gridShape_unique hx.1 h] at h'; omega)
  obtain rfl := gridShape_unique hx.1 h2
  refine ⟨r, st', h1, h5.congr fun e he j i _ _ _ _ => ?_⟩
  have ha : ∀ m n, Spec.analysis c.nlat c.row (lib.theta c.nlat) (lib.weight c.nlat) (Spec.value c.pl x e) m n =
      Spec.analysis c.nlat (Spec.row c.pl) (lib.theta c.nlat) (lib.weight c.nlat) (f e) m n :=
    fun m n => analysis_congr fun j i j1 j2 i1 i2 => packed_value hx he j i j1 j2 i1 i2
  show Spec.rowField _ _ _ _ = _
  simp only [ha]
  rfl

end Skyborn.RedGauss
