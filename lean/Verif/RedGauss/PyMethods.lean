/-
`ReducedGaussianSpharmt`: the public methods, for every input and from every state.
-/
import Verif.RedGauss.PyKernels

namespace Skyborn.RedGauss.Spec

open Skyborn

/-- Value of a packed array at row `j`, point `i` (both from 1), position `e` of the extra dimensions. -/
def value (pl : List ℕ) (x : NDArr ℝ) (e : List ℕ) (j i : ℕ) : ℝ := x.get (((pl.take (j - 1)).sum + (i - 1)) :: e)

/-- Coefficient of order `m`, degree `n` of a spectrum, position `e` of the extra dimensions. -/
def coef (T : ℕ) (s : NDArr ℂ) (e : List ℕ) (m n : ℕ) : ℂ := s.get (Spectral.Spec.index T m n :: e)

/-- A packed array with extra dimensions `extra`. -/
def IsGridShape (pl : List ℕ) (x : NDArr ℝ) (extra : List ℕ) : Prop := x.shape = pl.sum :: extra

/-- A triangular spectrum of truncation `T` the grid can take. -/
def IsSpecShape (nlat : ℕ) (s : NDArr ℂ) (T : ℕ) (extra : List ℕ) : Prop := s.shape = (T + 1) * (T + 2) / 2 :: extra ∧ T < nlat

/-- Inverse Laplacian on a sphere of radius `r`, coefficient by coefficient; the mean is set to zero. -/
noncomputable def invlap (r : ℝ) (a : ℕ → ℕ → ℂ) (m n : ℕ) : ℂ := if n = 0 then 0 else ((-(r ^ 2) / ((n : ℝ) * (n + 1)) : ℝ) : ℂ) * a m n

end Skyborn.RedGauss.Spec

namespace Skyborn.RedGauss

open Skyborn Sphere

variable {lib : Lib} {c : Cfg} {E E' : Env}

theorem Tri.lift_error {α β : Type} {P : World × Caches → Prop} {ψ : β → Prop} {ε : Fail → Prop} {x : Except Fail α} {f : α → M β} {e : Fail}
    (h : x = .error e) (he : ε e) : Tri P (RedGauss.lift x >>= f) ψ ε := by
  intro s hs
  rw [exec_lift_fail h]
  exact ⟨hs, he⟩

/-- A step that is already known. -/
theorem Tri.step {α β : Type} {P : World × Caches → Prop} {ψ : β → Prop} {ε : Fail → Prop} {x : Except Fail α} {f : α → M β} {a : α}
    (h : x = .ok a) (h' : Tri P (f a) ψ ε) : Tri P (RedGauss.lift x >>= f) ψ ε :=
  (Tri.lift_ok (φ := fun b => a = b) h rfl).bind fun _ hb => hb ▸ h'

theorem circleCoef_congr' {N m : ℕ} {f g : ℕ → ℝ} (h : ∀ i, 1 ≤ i → i ≤ N → f i = g i) : Spec.circleCoef N f m = Spec.circleCoef N g m := by
  unfold Spec.circleCoef
  congr 1
  refine Finset.sum_congr rfl fun i hi => ?_
  rw [Finset.mem_Icc] at hi
  rw [h i hi.1 hi.2]

theorem analysis_congr {nlat m n : ℕ} {pl : ℕ → ℕ} {θ w : ℕ → ℝ} {f g : ℕ → ℕ → ℝ} (h : ∀ j i, 1 ≤ j → j ≤ nlat → 1 ≤ i → i ≤ pl j → f j i = g j i) :
    Spec.analysis nlat pl θ w f m n = Spec.analysis nlat pl θ w g m n := by
  unfold Spec.analysis
  refine Finset.sum_congr rfl fun j hj => ?_
  simp only [Finset.mem_filter, Finset.mem_Icc] at hj
  rw [circleCoef_congr' (h j · hj.1.1 hj.1.2)]

theorem wind_congr {nlat m n : ℕ} {pl : ℕ → ℕ} {θ w : ℕ → ℝ} {r : ℝ} {f g f' g' : ℕ → ℕ → ℝ} (h : ∀ j i, 1 ≤ j → j ≤ nlat → 1 ≤ i → i ≤ pl j → f j i = g j i)
    (h' : ∀ j i, 1 ≤ j → j ≤ nlat → 1 ≤ i → i ≤ pl j → f' j i = g' j i) :
    Spec.divergence nlat pl θ w r f f' m n = Spec.divergence nlat pl θ w r g g' m n ∧
    Spec.vorticity nlat pl θ w r f f' m n = Spec.vorticity nlat pl θ w r g g' m n := by
  constructor
  · refine Finset.sum_congr rfl fun j hj => ?_
    simp only [Finset.mem_filter, Finset.mem_Icc] at hj
    rw [circleCoef_congr' (h j · hj.1.1 hj.1.2), circleCoef_congr' (h' j · hj.1.1 hj.1.2)]
  · refine Finset.sum_congr rfl fun j hj => ?_
    simp only [Finset.mem_filter, Finset.mem_Icc] at hj
    rw [circleCoef_congr' (h j · hj.1.1 hj.1.2), circleCoef_congr' (h' j · hj.1.1 hj.1.2)]

theorem order_congr {T : ℕ} {a b : ℕ → ℕ → ℂ} {θ : ℝ} (h : ∀ m n, m ≤ n → n ≤ T → a m n = b m n) : Spec.order T a θ = Spec.order T b θ := by
  funext m
  refine Finset.sum_congr rfl fun n hn => ?_
  rw [Finset.mem_Icc] at hn
  rw [h m n hn.1 hn.2]

theorem dorder_congr {T : ℕ} {a b : ℕ → ℕ → ℂ} {θ : ℝ} (h : ∀ m n, m ≤ n → n ≤ T → a m n = b m n) : Spec.dorder T a θ = Spec.dorder T b θ := by
  funext m
  refine Finset.sum_congr rfl fun n hn => ?_
  rw [Finset.mem_Icc] at hn
  rw [h m n hn.1 hn.2]

theorem grad_congr {N T : ℕ} {r : ℝ} {a b : ℕ → ℕ → ℂ} {θ l : ℝ} (h : ∀ m n, m ≤ n → n ≤ T → a m n = b m n) :
    Spec.east N T r a θ l = Spec.east N T r b θ l ∧ Spec.north N T r a θ l = Spec.north N T r b θ l := by
  unfold Spec.east Spec.north
  rw [order_congr h, dorder_congr h]
  exact ⟨rfl, rfl⟩

theorem index_lt {T m n : ℕ} (h1 : m ≤ n) (h2 : n ≤ T) : Spectral.Spec.index T m n < (T + 1) * (T + 2) / 2 :=
  (Spectral.C43_bijection T).1 (show (m, n) ∈ {p : ℕ × ℕ | p.1 ≤ p.2 ∧ p.2 ≤ T} from ⟨h1, h2⟩)

/-- The slice of a flattened grid. -/
theorem rows_value {x y : NDArr ℝ} {extra e : List ℕ} (he : InB extra e)
    (hy : ∀ e, InB extra e → ∀ p, p < c.npoints → toF y (p + 1) (ravel extra e + 1) = x.get (p :: e)) {j i : ℕ} (j1 : 1 ≤ j) (j2 : j ≤ c.nlat) (i1 : 1 ≤ i) (i2 : i ≤ c.row j) :
    rowsOf c (toF y) (ravel extra e + 1) j i = Spec.value c.pl x e j i := by
  unfold rowsOf
  rw [rowStart_row j1 j2 i1]
  exact hy e he _ (packed_lt j1 j2 i1 i2)

/-- The slice of a flattened spectrum. -/
theorem coefs_coef {s y : NDArr ℂ} {extra e : List ℕ} {T : ℕ} (he : InB extra e)
    (hy : ∀ e, InB extra e → ∀ p, p < (T + 1) * (T + 2) / 2 → toF y (p + 1) (ravel extra e + 1) = s.get (p :: e)) {m n : ℕ} (h1 : m ≤ n) (h2 : n ≤ T) :
    coefsOf T (toF y) (ravel extra e + 1) m n = Spec.coef T s e m n := by
  unfold coefsOf
  rw [← index_pos h1 h2]
  exact hy e he _ (index_lt h1 h2)

theorem ravel_bounds {extra e : List ℕ} (he : InB extra e) : 1 ≤ ravel extra e + 1 ∧ ravel extra e + 1 ≤ extra.prod := ⟨by omega, ravel_lt he⟩

/-! ### Scalars -/

/-- When and how an analysis refuses. -/
def GridRefusal (c : Cfg) (x : NDArr ℝ) (t : Option ℤ) (e : Fail) : Prop :=
  (e = .validation ∧ ((∀ extra, ¬ Spec.IsGridShape c.pl x extra) ∨ ∀ T, ¬ Spec.Truncation c.nlat t T)) ∨
  (e = .spherepack 3 ∧ (∃ extra, Spec.IsGridShape c.pl x extra ∧ extra.prod = 0) ∧ ∃ T, Spec.Truncation c.nlat t T)

theorem grdtospecM_tri (hE : E.ok) (hl : lib.Sound) (hc : c.Valid lib) (x : NDArr ℝ) (t : Option ℤ) :
    Tri (Good lib c.nlat) (grdtospecM E lib c x t)
      (fun r => ∃ extra T, Spec.IsGridShape c.pl x extra ∧ 1 ≤ extra.prod ∧ Spec.Truncation c.nlat t T ∧
        Spec.IsSpectrum T extra r fun e => RedGauss.Spec.analysis c.nlat c.row (lib.theta c.nlat) (lib.weight c.nlat) (RedGauss.Spec.value c.pl x e))
      (GridRefusal c x t) := by
  unfold grdtospecM
  rcases validateGrid_cases c x with ⟨extra, y, hx, hv, hy⟩ | ⟨hv, hx⟩
  · refine Tri.step hv ?_
    rcases validateNtrunc_cases hc.h3 t with ⟨T, ht, hT, htr⟩ | ⟨ht, htr⟩
    · refine Tri.step ht ?_
      refine ((analyzeScalar_tri hE hl hc hT (toF y)).mono (fun _ h => h) fun e he => .inr ⟨he.2, ⟨extra, hx, he.1⟩, T, htr⟩).bind fun z hz => ?_
      obtain ⟨r, hr, hR⟩ := restoreSpec T extra z
      refine Tri.lift_ok hr ⟨extra, T, hx, hz.1, htr, hR.congr fun e he m n hmn hn => ?_⟩
      have hk := ravel_bounds he
      exact (hz.2 _ hk.1 hk.2 m n hmn hn).trans (analysis_congr fun j i j1 j2 i1 i2 => rows_value he hy j1 j2 i1 i2)
    · exact Tri.lift_error ht (.inl ⟨rfl, .inr htr⟩)
  · exact Tri.lift_error hv (.inl ⟨rfl, .inl hx⟩)

/-- When and how a synthesis refuses. -/
def SpecRefusal (c : Cfg) (s : NDArr ℂ) (e : Fail) : Prop :=
  (e = .validation ∧ ∀ T extra, ¬ Spec.IsSpecShape c.nlat s T extra) ∨
  (e = .spherepack 4 ∧ ∃ T extra, Spec.IsSpecShape c.nlat s T extra ∧ extra.prod = 0)

theorem headLen_of {s : NDArr ℂ} {T : ℕ} {extra : List ℕ} (h : s.shape = (T + 1) * (T + 2) / 2 :: extra) : headLen s = nmDim T := by
  unfold headLen nmDim; rw [h]; rfl

/-- The series synthesised on row `j`, point `i`. -/
noncomputable def synthField (lib : Lib) (c : Cfg) (T : ℕ) (a : ℕ → ℕ → ℂ) (j i : ℕ) : ℝ :=
  RedGauss.Spec.rowField (c.row j) T (RedGauss.Spec.order T a (lib.theta c.nlat j)) (RedGauss.Spec.lon (c.row j) i)

theorem spectogrdM_tri (hE : E.ok) (hl : lib.Sound) (hc : c.Valid lib) (s : NDArr ℂ) :
    Tri (Good lib c.nlat) (spectogrdM E lib c s)
      (fun r => ∃ T extra, Spec.IsSpecShape c.nlat s T extra ∧ 1 ≤ extra.prod ∧
        Spec.IsPacked c.pl extra r fun e => synthField lib c T (RedGauss.Spec.coef T s e))
      (SpecRefusal c s) := by
  unfold spectogrdM
  rcases validateSpec_cases c s with ⟨T, extra, y, hx, hT, hv, hy⟩ | ⟨hv | ⟨extra, y, hv⟩, hx⟩
  · refine Tri.step hv ?_
    have hT' : T ≤ c.nlat - 1 := by omega
    rw [headLen_of hx]
    refine ((synthesizeScalar_tri hE hl hc hT' (toF y)).mono (fun _ h => h) fun e he => .inr ⟨he.2, T, extra, ⟨hx, hT⟩, he.1⟩).bind fun g hg => ?_
    obtain ⟨r, hr, hR⟩ := restoreGrid c extra g
    refine Tri.lift_ok hr ⟨T, extra, ⟨hx, hT⟩, hg.1, hR.congr fun e he j i j1 j2 i1 i2 => ?_⟩
    have hk := ravel_bounds he
    refine (hg.2 _ hk.1 hk.2 j i j1 j2 i1 i2).trans ?_
    rw [order_congr fun m n h1 h2 => coefs_coef he hy h1 h2]
    rfl
  · exact Tri.lift_error hv (.inl ⟨rfl, fun T ex h => hx T ex h.2 h.1⟩)
  · refine Tri.step hv ?_
    unfold synthesizeScalar
    intro st hst
    rw [exec_bind, exec_lift_fail ntrunc_neg]
    exact ⟨hst, .inl ⟨rfl, fun T ex h => hx T ex h.2 h.1⟩⟩

/-- When and how the methods that take two spectra refuse. -/
def PairRefusal (c : Cfg) (s t : NDArr ℂ) (e : Fail) : Prop :=
  (e = .validation ∧ (s.shape ≠ t.shape ∨ ∀ T extra, ¬ Spec.IsSpecShape c.nlat s T extra)) ∨
  (e = .spherepack 4 ∧ ∃ T extra, Spec.IsSpecShape c.nlat s T extra ∧ t.shape = s.shape ∧ extra.prod = 0)

theorem validatePair_cases (c : Cfg) (s t : NDArr ℂ) :
    (∃ T extra y z, s.shape = (T + 1) * (T + 2) / 2 :: extra ∧ t.shape = s.shape ∧ T < c.nlat ∧ validatePair c s t = .ok ((T : ℤ), extra, y, z) ∧
      (∀ e, InB extra e → ∀ p, p < (T + 1) * (T + 2) / 2 → toF y (p + 1) (ravel extra e + 1) = s.get (p :: e)) ∧
      (∀ e, InB extra e → ∀ p, p < (T + 1) * (T + 2) / 2 → toF z (p + 1) (ravel extra e + 1) = t.get (p :: e))) ∨
    ((validatePair c s t = .error .validation ∨ ∃ extra y z, validatePair c s t = .ok (-1, extra, y, z)) ∧
      (s.shape ≠ t.shape ∨ ∀ T extra, ¬ Spec.IsSpecShape c.nlat s T extra)) := by
  unfold validatePair
  by_cases hst : s.shape = t.shape
  · rcases validateSpec_cases c s with ⟨T, extra, y, hx, hT, hv, hy⟩ | ⟨hv | ⟨extra, y, hv⟩, hx⟩
    · rcases validateSpec_cases c t with ⟨T', extra', y', hx', hT', hv', hy'⟩ | ⟨_, hx'⟩
      · have hh : (T + 1) * (T + 2) / 2 = (T' + 1) * (T' + 2) / 2 ∧ extra = extra' := by
          have := hst; rw [hx, hx'] at this; simpa using this
        have hTT : (T : ℤ) = T' := by rw [← Spectral.C44_truncation T, ← Spectral.C44_truncation T', hh.1]
        have hTT : T = T' := by exact_mod_cast hTT
        obtain ⟨_, rfl⟩ := hh
        subst hTT
        refine .inl ⟨T, extra, y, y', hx, hst.symm, hT, ?_, hy, hy'⟩
        rw [hv, hv']
        simp [hst, bind, Except.bind, pure, Except.pure]
      · exact absurd (hst ▸ hx) (hx' T extra hT)
    · refine .inr ⟨.inl ?_, .inr fun T ex h => hx T ex h.2 h.1⟩
      rw [hv]; simp [hst]; rfl
    · have hx2 : ∀ T extra, ¬ Spec.IsSpecShape c.nlat s T extra := fun T ex h => hx T ex h.2 h.1
      rcases validateSpec_cases c t with ⟨T', extra', y', hx', hT', hv', hy'⟩ | ⟨hv' | ⟨extra', y', hv'⟩, hx'⟩
      · exact absurd (hst.trans hx') (hx T' extra' hT')
      · refine .inr ⟨.inl ?_, .inr hx2⟩
        rw [hv, hv']; simp [hst]; rfl
      · rw [hv, hv']
        simp only [hst, ne_eq, not_true_eq_false, if_false]
        by_cases hq : extra.prod ≠ extra'.prod ∨ (-1 : ℤ) ≠ -1 ∨ extra ≠ extra'
        · refine .inr ⟨.inl ?_, .inr hx2⟩
          show (if extra.prod ≠ extra'.prod ∨ (-1 : ℤ) ≠ -1 ∨ extra ≠ extra' then _ else _) = _
          rw [if_pos hq]; rfl
        · refine .inr ⟨.inr ⟨extra, y, y', ?_⟩, .inr hx2⟩
          show (if extra.prod ≠ extra'.prod ∨ (-1 : ℤ) ≠ -1 ∨ extra ≠ extra' then _ else _) = _
          rw [if_neg hq]; rfl
  · refine .inr ⟨.inl ?_, .inl hst⟩
    simp [hst]; rfl

theorem spectogrdPairM_tri (hE : E.ok) (hE' : E'.ok) (hl : lib.Sound) (hc : c.Valid lib) (s t : NDArr ℂ) :
    Tri (Good lib c.nlat) (spectogrdPairM E E' lib c s t)
      (fun r => ∃ T extra, Spec.IsSpecShape c.nlat s T extra ∧ t.shape = s.shape ∧ 1 ≤ extra.prod ∧
        (Spec.IsPacked c.pl extra r.1 fun e => synthField lib c T (RedGauss.Spec.coef T s e)) ∧
        Spec.IsPacked c.pl extra r.2 fun e => synthField lib c T (RedGauss.Spec.coef T t e))
      (PairRefusal c s t) := by
  unfold spectogrdPairM
  rcases validatePair_cases c s t with ⟨T, extra, y, z, hx, hst, hT, hv, hy, hz⟩ | ⟨hv | ⟨extra, y, z, hv⟩, hx⟩
  · refine Tri.step hv ?_
    have hT' : T ≤ c.nlat - 1 := by omega
    rw [headLen_of hx]
    refine ((synthesizePair_tri hE hE' hl hc hT' (toF y) (toF z)).mono (fun _ h => h) fun e he => .inr ⟨he.2, T, extra, ⟨hx, hT⟩, hst, he.1⟩).bind fun g hg => ?_
    obtain ⟨r, hr, hR⟩ := restoreGrid c extra g.1
    obtain ⟨r', hr', hR'⟩ := restoreGrid c extra g.2
    refine Tri.step hr (Tri.step hr' (Tri.pure ⟨T, extra, ⟨hx, hT⟩, hst, hg.1, hR.congr fun e he j i j1 j2 i1 i2 => ?_, hR'.congr fun e he j i j1 j2 i1 i2 => ?_⟩))
    · have hk := ravel_bounds he
      refine (hg.2.1 _ hk.1 hk.2 j i j1 j2 i1 i2).trans ?_
      rw [order_congr fun m n h1 h2 => coefs_coef he hy h1 h2]
      rfl
    · have hk := ravel_bounds he
      refine (hg.2.2 _ hk.1 hk.2 j i j1 j2 i1 i2).trans ?_
      rw [order_congr fun m n h1 h2 => coefs_coef he hz h1 h2]
      rfl
  · exact Tri.lift_error hv (.inl ⟨rfl, hx⟩)
  · refine Tri.step hv ?_
    unfold synthesizePair
    intro st hst
    rw [exec_bind, exec_lift_fail ntrunc_neg]
    exact ⟨hst, .inl ⟨rfl, hx⟩⟩

/-! ### Gradients and winds from spectra -/

/-- Eastward component of the gradient of a series at row `j`, point `i`. -/
noncomputable def eastField (lib : Lib) (c : Cfg) (T : ℕ) (a : ℕ → ℕ → ℂ) (j i : ℕ) : ℝ :=
  RedGauss.Spec.east (c.row j) T c.rsphere a (lib.theta c.nlat j) (RedGauss.Spec.lon (c.row j) i)

/-- Northward component. -/
noncomputable def northField (lib : Lib) (c : Cfg) (T : ℕ) (a : ℕ → ℕ → ℂ) (j i : ℕ) : ℝ :=
  RedGauss.Spec.north (c.row j) T c.rsphere a (lib.theta c.nlat j) (RedGauss.Spec.lon (c.row j) i)

theorem getgradM_tri (hE : E.ok) (hl : lib.Sound) (hc : c.Valid lib) (s : NDArr ℂ) :
    Tri (Good lib c.nlat) (getgradM E lib c s)
      (fun r => ∃ T extra, Spec.IsSpecShape c.nlat s T extra ∧ 1 ≤ extra.prod ∧
        (Spec.IsPacked c.pl extra r.1 fun e => eastField lib c T (RedGauss.Spec.coef T s e)) ∧
        Spec.IsPacked c.pl extra r.2 fun e => northField lib c T (RedGauss.Spec.coef T s e))
      (SpecRefusal c s) := by
  unfold getgradM
  rcases validateSpec_cases c s with ⟨T, extra, y, hx, hT, hv, hy⟩ | ⟨hv | ⟨extra, y, hv⟩, hx⟩
  · refine Tri.step hv ?_
    have hT' : T ≤ c.nlat - 1 := by omega
    rw [headLen_of hx]
    refine ((synthesizeGrad_tri hE hl hc hT' (toF y)).mono (fun _ h => h) fun e he => .inr ⟨he.2, T, extra, ⟨hx, hT⟩, he.1⟩).bind fun g hg => ?_
    obtain ⟨r, hr, hR⟩ := restoreGrid c extra (g 1)
    obtain ⟨r', hr', hR'⟩ := restoreGrid c extra (g 2)
    refine Tri.step hr (Tri.step hr' (Tri.pure ⟨T, extra, ⟨hx, hT⟩, hg.1, hR.congr fun e he j i j1 j2 i1 i2 => ?_, hR'.congr fun e he j i j1 j2 i1 i2 => ?_⟩))
    · have hk := ravel_bounds he
      exact (hg.2 _ hk.1 hk.2 j i j1 j2 i1 i2).1.trans (grad_congr fun m n h1 h2 => coefs_coef he hy h1 h2).1
    · have hk := ravel_bounds he
      exact (hg.2 _ hk.1 hk.2 j i j1 j2 i1 i2).2.trans (grad_congr fun m n h1 h2 => coefs_coef he hy h1 h2).2
  · exact Tri.lift_error hv (.inl ⟨rfl, fun T ex h => hx T ex h.2 h.1⟩)
  · refine Tri.step hv ?_
    unfold synthesizeGrad
    intro st hst
    rw [exec_bind, exec_lift_fail ntrunc_neg]
    exact ⟨hst, .inl ⟨rfl, fun T ex h => hx T ex h.2 h.1⟩⟩

theorem getgradPairM_tri (hE : E.ok) (hl : lib.Sound) (hc : c.Valid lib) (s t : NDArr ℂ) :
    Tri (Good lib c.nlat) (getgradPairM E lib c s t)
      (fun r => ∃ T extra, Spec.IsSpecShape c.nlat s T extra ∧ t.shape = s.shape ∧ 1 ≤ extra.prod ∧
        (Spec.IsPacked c.pl extra r.1.1 fun e => eastField lib c T (RedGauss.Spec.coef T s e)) ∧
        (Spec.IsPacked c.pl extra r.1.2 fun e => northField lib c T (RedGauss.Spec.coef T s e)) ∧
        (Spec.IsPacked c.pl extra r.2.1 fun e => eastField lib c T (RedGauss.Spec.coef T t e)) ∧
        Spec.IsPacked c.pl extra r.2.2 fun e => northField lib c T (RedGauss.Spec.coef T t e))
      (PairRefusal c s t) := by
  unfold getgradPairM
  rcases validatePair_cases c s t with ⟨T, extra, y, z, hx, hst, hT, hv, hy, hz⟩ | ⟨hv | ⟨extra, y, z, hv⟩, hx⟩
  · refine Tri.step hv ?_
    have hT' : T ≤ c.nlat - 1 := by omega
    rw [headLen_of hx]
    refine ((synthesizeGradPair_tri hE hl hc hT' (toF y) (toF z)).mono (fun _ h => h) fun e he => .inr ⟨he.2, T, extra, ⟨hx, hT⟩, hst, he.1⟩).bind fun g hg => ?_
    obtain ⟨r1, hr1, hR1⟩ := restoreGrid c extra (g 1)
    obtain ⟨r2, hr2, hR2⟩ := restoreGrid c extra (g 2)
    obtain ⟨r3, hr3, hR3⟩ := restoreGrid c extra (g 3)
    obtain ⟨r4, hr4, hR4⟩ := restoreGrid c extra (g 4)
    refine Tri.step hr1 (Tri.step hr2 (Tri.step hr3 (Tri.step hr4 (Tri.pure ⟨T, extra, ⟨hx, hT⟩, hst, hg.1, hR1.congr fun e he j i j1 j2 i1 i2 => ?_,
      hR2.congr fun e he j i j1 j2 i1 i2 => ?_, hR3.congr fun e he j i j1 j2 i1 i2 => ?_, hR4.congr fun e he j i j1 j2 i1 i2 => ?_⟩))))
    · have hk := ravel_bounds he
      exact (hg.2.1 _ hk.1 hk.2 j i j1 j2 i1 i2).1.trans (grad_congr fun m n h1 h2 => coefs_coef he hy h1 h2).1
    · have hk := ravel_bounds he
      exact (hg.2.1 _ hk.1 hk.2 j i j1 j2 i1 i2).2.trans (grad_congr fun m n h1 h2 => coefs_coef he hy h1 h2).2
    · have hk := ravel_bounds he
      exact (hg.2.2 _ hk.1 hk.2 j i j1 j2 i1 i2).1.trans (grad_congr fun m n h1 h2 => coefs_coef he hz h1 h2).1
    · have hk := ravel_bounds he
      exact (hg.2.2 _ hk.1 hk.2 j i j1 j2 i1 i2).2.trans (grad_congr fun m n h1 h2 => coefs_coef he hz h1 h2).2
  · exact Tri.lift_error hv (.inl ⟨rfl, hx⟩)
  · refine Tri.step hv ?_
    unfold synthesizeGradPair
    intro st hst
    rw [exec_bind, exec_lift_fail ntrunc_neg]
    exact ⟨hst, .inl ⟨rfl, hx⟩⟩

theorem invlapF_coefs {T nt k m n : ℕ} (s : ℕ → ℕ → ℂ) (hk1 : 1 ≤ k) (hk2 : k ≤ nt) (hmn : m ≤ n) (hn : n ≤ T) :
    coefsOf T (invlapF c (nmDim T) nt s) k m n = RedGauss.Spec.invlap c.rsphere (coefsOf T s k) m n := by
  have hN : 1 ≤ nmDim T := by
    have : 1 * 2 ≤ (T + 1) * (T + 2) := Nat.mul_le_mul (by omega) (by omega)
    unfold nmDim; omega
  obtain ⟨y, h1, h2⟩ := Spectral.invlap_closed (N := nmDim T) (nt := nt) hN c.rsphere (fun q => s q.1 q.2) fun _ => 0
  have hw : Spectral.waves (nmDim T) = T + 1 := Spectral.waves_specLen T
  have := h2 k (m + 1) (n + 1) (by rw [Spectral.mem_Tri, hw]; omega)
  rw [hw, Spectral.pos_eq_index hmn hn, index_pos hmn hn] at this
  unfold coefsOf invlapF
  rw [h1]
  show y (RedGauss.Spec.pos T m n, k) = _
  rw [this]
  unfold RedGauss.Spec.invlap
  by_cases h0 : n = 0
  · rw [if_pos (by omega), if_pos h0]
  · rw [if_neg (by omega), if_neg h0]
    congr 2
    push_cast
    ring

theorem getuvM_tri (hE : E.ok) (hl : lib.Sound) (hc : c.Valid lib) (vrt div : NDArr ℂ) :
    Tri (Good lib c.nlat) (getuvM E lib c vrt div)
      (fun r => ∃ T extra, Spec.IsSpecShape c.nlat vrt T extra ∧ div.shape = vrt.shape ∧ 1 ≤ extra.prod ∧
        (Spec.IsPacked c.pl extra r.1 fun e j i =>
          eastField lib c T (RedGauss.Spec.invlap c.rsphere (RedGauss.Spec.coef T div e)) j i - northField lib c T (RedGauss.Spec.invlap c.rsphere (RedGauss.Spec.coef T vrt e)) j i) ∧
        Spec.IsPacked c.pl extra r.2 fun e j i =>
          northField lib c T (RedGauss.Spec.invlap c.rsphere (RedGauss.Spec.coef T div e)) j i + eastField lib c T (RedGauss.Spec.invlap c.rsphere (RedGauss.Spec.coef T vrt e)) j i)
      (PairRefusal c vrt div) := by
  unfold getuvM
  rcases validatePair_cases c vrt div with ⟨T, extra, y, z, hx, hst, hT, hv, hy, hz⟩ | ⟨hv | ⟨extra, y, z, hv⟩, hx⟩
  · refine Tri.step hv ?_
    have hT' : T ≤ c.nlat - 1 := by omega
    rw [headLen_of hx]
    refine ((synthesizeGradPair_tri hE hl hc hT' (invlapF c (nmDim T) extra.prod (toF z)) (invlapF c (nmDim T) extra.prod (toF y))).mono (fun _ h => h)
      fun e he => .inr ⟨he.2, T, extra, ⟨hx, hT⟩, hst, he.1⟩).bind fun g hg => ?_
    obtain ⟨r1, hr1, hR1⟩ := restoreGrid c extra fun p k => g 1 p k - g 4 p k
    obtain ⟨r2, hr2, hR2⟩ := restoreGrid c extra fun p k => g 2 p k + g 3 p k
    have key : ∀ {w : NDArr ℂ} {q : NDArr ℂ} {e : List ℕ}, InB extra e →
        (∀ e, InB extra e → ∀ p, p < (T + 1) * (T + 2) / 2 → toF q (p + 1) (ravel extra e + 1) = w.get (p :: e)) → ∀ m n, m ≤ n → n ≤ T →
        coefsOf T (invlapF c (nmDim T) extra.prod (toF q)) (ravel extra e + 1) m n = RedGauss.Spec.invlap c.rsphere (RedGauss.Spec.coef T w e) m n := by
      intro w q e he hq m n hmn hn
      rw [invlapF_coefs _ (ravel_bounds he).1 (ravel_bounds he).2 hmn hn]
      unfold RedGauss.Spec.invlap
      rw [coefs_coef he hq hmn hn]
    refine Tri.step hr1 (Tri.step hr2 (Tri.pure ⟨T, extra, ⟨hx, hT⟩, hst, hg.1, hR1.congr fun e he j i j1 j2 i1 i2 => ?_, hR2.congr fun e he j i j1 j2 i1 i2 => ?_⟩))
    · have hk := ravel_bounds he
      have a := (hg.2.1 _ hk.1 hk.2 j i j1 j2 i1 i2).1.trans (grad_congr (key he hz)).1
      have b := (hg.2.2 _ hk.1 hk.2 j i j1 j2 i1 i2).2.trans (grad_congr (key he hy)).2
      exact congrArg₂ (· - ·) a b
    · have hk := ravel_bounds he
      have a := (hg.2.1 _ hk.1 hk.2 j i j1 j2 i1 i2).2.trans (grad_congr (key he hz)).2
      have b := (hg.2.2 _ hk.1 hk.2 j i j1 j2 i1 i2).1.trans (grad_congr (key he hy)).1
      exact congrArg₂ (· + ·) a b
  · exact Tri.lift_error hv (.inl ⟨rfl, hx⟩)
  · refine Tri.step hv ?_
    dsimp only
    unfold synthesizeGradPair
    intro st hst
    rw [exec_bind, exec_lift_fail ntrunc_neg]
    exact ⟨hst, .inl ⟨rfl, hx⟩⟩

end Skyborn.RedGauss
