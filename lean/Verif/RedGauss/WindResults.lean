/-
C211, C213: winds, and going back and forth, for every object a program can hold, after any history, for every schedule
and every content of uninitialised memory.
-/
import Verif.RedGauss.Results
import Verif.RedGauss.Witness

namespace Skyborn.RedGauss

open Skyborn Sphere

variable {lib : Lib} {c : Cfg} {E E' : Env}

theorem windRefusal_false {extra : List ℕ} {u v : NDArr ℝ} {t : Option ℤ} {T : ℕ} (hu : u.shape = c.pl.sum :: extra) (hv : v.shape = c.pl.sum :: extra)
    (hne : 1 ≤ extra.prod) (ht : Sphere.Spec.Truncation c.nlat t T) (e : Fail) : ¬ WindRefusal c u v t e := by
  rintro (⟨_, h | h | h⟩ | ⟨_, ⟨extra', h, _, h'⟩, _⟩)
  · exact h (hu.trans hv.symm)
  · exact h extra hu
  · exact h T ht
  · rw [← gridShape_unique hu h] at h'; omega

/-- C211: on a grid whose rows do not get shorter towards the equator, or that is not symmetric about the equator,
`getvrtdivspec` returns the vorticity and the divergence of the wind by Fourier analysis of the rows that carry the wave
and Gaussian quadrature; `getvrtspec` and `getdivspec` return the same spectra. Missing: the other grids, see
`C211_winds_false`. -/
theorem C211_winds_partial (hl : lib.Sound) {st st1 st2 : World × Caches} (hst : Live lib c st) (hst1 : Live lib c st1) (hst2 : Live lib c st2)
    {E1 E2 : Env} (hE : E.ok) (hE1 : E1.ok) (hE2 : E2.ok)
    (hreg : Spec.Regular c.pl) {u v : NDArr ℝ} {extra : List ℕ} {f g : List ℕ → ℕ → ℕ → ℝ} (hu : Spec.IsPacked c.pl extra u f) (hv : Spec.IsPacked c.pl extra v g)
    (hne : 1 ≤ extra.prod) {t : Option ℤ} {T : ℕ} (ht : Sphere.Spec.Truncation c.nlat t T) :
    (∃ vrt div st', exec (getvrtdivspecM E lib c u v t) st = (.ok (vrt, div), st') ∧
      (Sphere.Spec.IsSpectrum T extra vrt fun e => Spec.vorticity c.nlat (Spec.row c.pl) (lib.theta c.nlat) (lib.weight c.nlat) c.rsphere (f e) (g e)) ∧
      Sphere.Spec.IsSpectrum T extra div fun e => Spec.divergence c.nlat (Spec.row c.pl) (lib.theta c.nlat) (lib.weight c.nlat) c.rsphere (f e) (g e)) ∧
    (∃ vrt st', exec (getcomponentM E1 lib c u v t 1) st1 = (.ok vrt, st') ∧
      Sphere.Spec.IsSpectrum T extra vrt fun e => Spec.vorticity c.nlat (Spec.row c.pl) (lib.theta c.nlat) (lib.weight c.nlat) c.rsphere (f e) (g e)) ∧
    ∃ div st', exec (getcomponentM E2 lib c u v t 2) st2 = (.ok div, st') ∧
      Sphere.Spec.IsSpectrum T extra div fun e => Spec.divergence c.nlat (Spec.row c.pl) (lib.theta c.nlat) (lib.weight c.nlat) c.rsphere (f e) (g e) := by
  obtain ⟨hc, _⟩ := hst.good hl
  have hcong : ∀ e, InB extra e → ∀ m n, divOf lib c u v e m n = Spec.divergence c.nlat (Spec.row c.pl) (lib.theta c.nlat) (lib.weight c.nlat) c.rsphere (f e) (g e) m n ∧
      vrtOf lib c u v e m n = Spec.vorticity c.nlat (Spec.row c.pl) (lib.theta c.nlat) (lib.weight c.nlat) c.rsphere (f e) (g e) m n := fun e he m n =>
    wind_congr (fun j i j1 j2 i1 i2 => packed_value hu he j i j1 j2 i1 i2) (fun j i j1 j2 i1 i2 => packed_value hv he j i j1 j2 i1 i2)
  have hno := windRefusal_false (c := c) hu.1 hv.1 hne ht
  refine ⟨?_, ?_, ?_⟩
  · obtain ⟨⟨vrt, div⟩, st', h1, extra', T', h2, _, _, h4, h5⟩ := hst.run hl (getvrtdivspecM_tri hE hl hc u v t) hno
    obtain rfl := gridShape_unique hu.1 h2
    obtain rfl := truncation_unique ht h4
    exact ⟨vrt, div, st', h1, (h5 hreg).1.congr fun e he m n _ _ => (hcong e he m n).2, (h5 hreg).2.congr fun e he m n _ _ => (hcong e he m n).1⟩
  · obtain ⟨r, st', h1, extra', T', h2, _, _, h4, h5⟩ := hst1.run hl (getcomponentM_tri (.inl rfl) hE1 hl hc u v t) hno
    obtain rfl := gridShape_unique hu.1 h2
    obtain rfl := truncation_unique ht h4
    exact ⟨r, st', h1, (h5 hreg).congr fun e he m n _ _ => (hcong e he m n).2⟩
  · obtain ⟨r, st', h1, extra', T', h2, _, _, h4, h5⟩ := hst2.run hl (getcomponentM_tri (.inr rfl) hE2 hl hc u v t) hno
    obtain rfl := gridShape_unique hu.1 h2
    obtain rfl := truncation_unique ht h4
    exact ⟨r, st', h1, (h5 hreg).congr fun e he m n _ _ => (hcong e he m n).1⟩

/-! ### Back and forth -/

/-- The coefficients of a real field: those of order zero are real. -/
def Spec.RealField (a : ℕ → ℕ → ℂ) : Prop := ∀ k, (a 0 k).im = 0

/-- Every row carries the waves of order `m`. -/
def Spec.Carries (pl : List ℕ) (m : ℕ) : Prop := ∀ j, 1 ≤ j → j ≤ pl.length → 2 * m < Spec.row pl j

/-- C213: with Gaussian rows, analysing what `spectogrd` returned gives back the coefficient of every order that all rows
carry, whatever happened between the two calls. Missing: the other orders, see `C213_loss` and `C213_false`. -/
theorem C213_scalar_partial (hl : lib.Sound) (hG : Sphere.Spec.Gauss c.nlat (lib.theta c.nlat) (lib.weight c.nlat))
    {st st2 : World × Caches} (hst : Live lib c st) (hst2 : Live lib c st2) (hE : E.ok) (hE' : E'.ok)
    {s : NDArr ℂ} {extra : List ℕ} {T : ℕ} {a : List ℕ → ℕ → ℕ → ℂ} (hs : Sphere.Spec.IsSpectrum T extra s a) (ha : ∀ e, InB extra e → Spec.RealField (a e))
    (hT : T < c.nlat) (hne : 1 ≤ extra.prod) :
    ∃ g st', exec (spectogrdM E lib c s) st = (.ok g, st') ∧ ∃ r st'', exec (grdtospecM E' lib c g (some (T : ℤ))) st2 = (.ok r, st'') ∧
      r.shape = s.shape ∧ ∀ e, InB extra e → ∀ m n, m ≤ n → n ≤ T → Spec.Carries c.pl m →
        r.get (Spectral.Spec.index T m n :: e) = s.get (Spectral.Spec.index T m n :: e) := by
  obtain ⟨hc, _⟩ := hst.good hl
  obtain ⟨g, st', h1, h2⟩ := C208_rows hl hst hE hs hT hne
  obtain ⟨r, st'', h3, h4⟩ := C207_analysis hl hst2 hE' h2 hne (t := some (T : ℤ)) (T := T) (.inr ⟨rfl, hT⟩)
  refine ⟨g, st', h1, r, st'', h3, h4.1.trans hs.1.symm, fun e he m n hmn hn hm => ?_⟩
  rw [h4.2 e he m n hmn hn, hs.2 e he m n hmn hn]
  exact analysis_synthesis hG hT (a e) hmn hn (valid_pl hc) hm (ha e he)

/-- C213: with Gaussian rows of positive weight, the coefficient of order and degree `m` does not come back when some row
has fewer than `2 m` points. -/
theorem C213_loss (hl : lib.Sound) (hG : Sphere.Spec.Gauss c.nlat (lib.theta c.nlat) (lib.weight c.nlat)) (hw : ∀ j, 1 ≤ j → j ≤ c.nlat → 0 < lib.weight c.nlat j)
    {st st2 : World × Caches} (hst : Live lib c st) (hst2 : Live lib c st2) (hE : E.ok) (hE' : E'.ok)
    {s : NDArr ℂ} {T m : ℕ} (hs : Sphere.Spec.IsSpectrum T [] s fun _ m' n' => if m' = m ∧ n' = m then 1 else 0) (hT : T < c.nlat) (hm0 : m ≠ 0) (hm : m ≤ T)
    {j0 : ℕ} (h1 : 1 ≤ j0) (h2 : j0 ≤ c.nlat) (h3 : Spec.row c.pl j0 < 2 * m) :
    ∃ g st', exec (spectogrdM E lib c s) st = (.ok g, st') ∧ ∃ r st'', exec (grdtospecM E' lib c g (some (T : ℤ))) st2 = (.ok r, st'') ∧
      (r.get [Spectral.Spec.index T m m]).re < (s.get [Spectral.Spec.index T m m]).re := by
  obtain ⟨hc, _⟩ := hst.good hl
  obtain ⟨g, st', h4, h5⟩ := C208_rows hl hst hE hs hT (by simp)
  obtain ⟨r, st'', h6, h7⟩ := C207_analysis hl hst2 hE' h5 (by simp) (t := some (T : ℤ)) (T := T) (.inr ⟨rfl, hT⟩)
  refine ⟨g, st', h4, r, st'', h6, ?_⟩
  obtain ⟨x, hx, hx'⟩ := analysis_loss hG hT hw (hl.rows c.nlat hc.h3).inside hm0 hm (valid_pl hc) h1 h2 h3
  rw [h7.2 [] trivial m m le_rfl hm, hs.2 [] trivial m m le_rfl hm]
  refine (congrArg Complex.re hx').trans_lt ?_
  simpa using hx

/-- C213: if every row has exactly `2 m` points, the imaginary parts of the coefficients of order `m` are lost. -/
theorem C213_false (hl : lib.Sound) {st st2 : World × Caches} (hst : Live lib c st) (hst2 : Live lib c st2) (hE : E.ok) (hE' : E'.ok)
    {s : NDArr ℂ} {T m : ℕ} (hs : Sphere.Spec.IsSpectrum T [] s fun _ m' n' => if m' = m ∧ n' = m then Complex.I else 0) (hT : T < c.nlat) (hm0 : m ≠ 0) (hm : m ≤ T)
    (hrow : ∀ j, 1 ≤ j → j ≤ c.nlat → Spec.row c.pl j = 2 * m) :
    ∃ g st', exec (spectogrdM E lib c s) st = (.ok g, st') ∧ ∃ r st'', exec (grdtospecM E' lib c g (some (T : ℤ))) st2 = (.ok r, st'') ∧
      r.get [Spectral.Spec.index T m m] = 0 ∧ s.get [Spectral.Spec.index T m m] = Complex.I := by
  obtain ⟨hc, _⟩ := hst.good hl
  obtain ⟨g, st', h4, h5⟩ := C208_rows hl hst hE hs hT (by simp)
  obtain ⟨r, st'', h6, h7⟩ := C207_analysis hl hst2 hE' h5 (by simp) (t := some (T : ℤ)) (T := T) (.inr ⟨rfl, hT⟩)
  refine ⟨g, st', h4, r, st'', h6, ?_, by simpa using hs.2 [] trivial m m le_rfl hm⟩
  rw [h7.2 [] trivial m m le_rfl hm]
  unfold Spec.analysis
  refine Finset.sum_eq_zero fun j hj => ?_
  rw [Finset.mem_filter, Finset.mem_Icc] at hj
  beta_reduce
  rw [circleCoef_rowField (show 1 ≤ Spec.row c.pl j from valid_pl hc j hj.1.1 hj.1.2) hm hj.2, if_pos (.inr (hrow j hj.1.1 hj.1.2).symm)]
  have : (Spec.order T (fun m' n' => if m' = m ∧ n' = m then Complex.I else 0) (lib.theta c.nlat j) m).re = 0 := by
    unfold Spec.order
    rw [Complex.re_sum]
    refine Finset.sum_eq_zero fun n _ => ?_
    beta_reduce
    split_ifs <;> simp
  rw [this]; simp

/-- C213: with Gaussian rows, the vorticity and divergence of the wind `getuv` returned are the ones it was given, except
the mean, which comes back as zero, for every order that all rows carry. -/
theorem C213_winds_partial (hl : lib.Sound) (hG : Sphere.Spec.Gauss c.nlat (lib.theta c.nlat) (lib.weight c.nlat)) (hreg : Spec.Regular c.pl)
    {st st2 : World × Caches} (hst : Live lib c st) (hst2 : Live lib c st2) (hE : E.ok) (hE' : E'.ok)
    {s d : NDArr ℂ} {extra : List ℕ} {T : ℕ} {a b : List ℕ → ℕ → ℕ → ℂ} (hs : Sphere.Spec.IsSpectrum T extra s a) (hd : Sphere.Spec.IsSpectrum T extra d b)
    (ha : ∀ e, InB extra e → Spec.RealField (a e)) (hb : ∀ e, InB extra e → Spec.RealField (b e)) (hT : T < c.nlat) (hne : 1 ≤ extra.prod) :
    ∃ u v st', exec (getuvM E lib c s d) st = (.ok (u, v), st') ∧
      ∃ vrt div st'', exec (getvrtdivspecM E' lib c u v (some (T : ℤ))) st2 = (.ok (vrt, div), st'') ∧
        vrt.shape = s.shape ∧ div.shape = s.shape ∧ ∀ e, InB extra e → ∀ m n, m ≤ n → n ≤ T → Spec.Carries c.pl m →
          vrt.get (Spectral.Spec.index T m n :: e) = (if n = 0 then 0 else s.get (Spectral.Spec.index T m n :: e)) ∧
          div.get (Spectral.Spec.index T m n :: e) = (if n = 0 then 0 else d.get (Spectral.Spec.index T m n :: e)) := by
  obtain ⟨hc, _⟩ := hst.good hl
  obtain ⟨u, v, st', h1, h2, h3⟩ := C212_getuv hl hst hE hs hd hT hne
  obtain ⟨⟨vrt, div, st'', h4, h5, h6⟩, _⟩ := C211_winds_partial hl hst2 hst2 hst2 hE' hE' hE' hreg h2 h3 hne (t := some (T : ℤ)) (T := T) (.inr ⟨rfl, hT⟩)
  refine ⟨u, v, st', h1, vrt, div, st'', h4, h5.1.trans hs.1.symm, h6.1.trans hs.1.symm, fun e he m n hmn hn hm => ?_⟩
  have hr : c.rsphere ≠ 0 := hc.hr.ne'
  have hsin : ∀ j, 1 ≤ j → j ≤ c.nlat → Real.sin (lib.theta c.nlat j) ≠ 0 := fun j j1 j2 => by rw [← hc.hs j]; exact (valid_sin hl hc j j1 j2).ne'
  have hreal : ∀ {y : ℕ → ℕ → ℂ}, Spec.RealField y → ∀ k, (Spec.invlap c.rsphere y 0 k).im = 0 := fun hy k => by
    unfold Spec.invlap
    split_ifs
    · rfl
    · rw [Complex.im_ofReal_mul, hy k, mul_zero]
  have hback : ∀ y : ℕ → ℕ → ℂ, ((-((n : ℝ) * (n + 1)) / c.rsphere ^ 2 : ℝ) : ℂ) * Spec.invlap c.rsphere y m n = if n = 0 then 0 else y m n := fun y => by
    unfold Spec.invlap
    split_ifs with h0
    · simp
    · rw [← mul_assoc, ← Complex.ofReal_mul]
      have hn0 : (n : ℝ) ≠ 0 := by exact_mod_cast h0
      have hn1 : (n : ℝ) + 1 ≠ 0 := by positivity
      rw [show -((n : ℝ) * (n + 1)) / c.rsphere ^ 2 * (-(c.rsphere ^ 2) / ((n : ℝ) * (n + 1))) = 1 by field_simp]
      simp
  have key := wind_analysis (n := n) (m := m) (pl := Spec.row c.pl) (ψ := Spec.invlap c.rsphere (a e)) (χ := Spec.invlap c.rsphere (b e)) hG hsin hr hT hmn hn (valid_pl hc) hm
    fun k => ⟨hreal (ha e he) k, hreal (hb e he) k⟩
  rw [h5.2 e he m n hmn hn, h6.2 e he m n hmn hn, hs.2 e he m n hmn hn, hd.2 e he m n hmn hn, ← hback (a e), ← hback (b e)]
  exact ⟨key.2, key.1⟩

end Skyborn.RedGauss
