/-
Specification of spectra and grids, and closed forms of the `Spharmt` methods.
-/
import Verif.Sphere.Spharmt
import Verif.Sphere.LenProps
import Verif.Spectral.Props

namespace Skyborn.Sphere

open Skyborn Skyborn.Spectral

/-! ### Specification -/

/-- `s` holds, for every position `e` of the extra dimensions, the coefficients `x e m n`, `m ≤ n ≤ T`, at the
places `getspecindx` gives. -/
def Spec.IsSpectrum (T : ℕ) (extra : List ℕ) (s : NDArr ℂ) (x : List ℕ → ℕ → ℕ → ℂ) : Prop :=
  s.shape = (T + 1) * (T + 2) / 2 :: extra ∧
  ∀ e, InB extra e → ∀ m n, m ≤ n → n ≤ T → s.get (Spectral.Spec.index T m n :: e) = x e m n

/-- `g` is a grid with extra dimensions `extra` whose value at row `i`, column `j`, position `e` is `f e i j`. -/
def Spec.IsGrid (nlat nlon : ℕ) (extra : List ℕ) (g : NDArr ℝ) (f : List ℕ → ℕ → ℕ → ℝ) : Prop :=
  g.shape = nlat :: nlon :: extra ∧
  ∀ e, InB extra e → ∀ i j, i < nlat → j < nlon → g.get (i :: j :: e) = f e i j

/-- The triangle `m ≤ n ≤ T`. -/
def Spec.triangle (T : ℕ) : Finset (ℕ × ℕ) :=
  (Finset.range (T + 1) ×ˢ Finset.range (T + 1)).filter fun p => p.1 ≤ p.2

/-- The real field with complex coefficients `x m n` over the modes `M`: the sum over `m` and its conjugate `-m`. -/
noncomputable def Spec.seriesOn (M : Finset (ℕ × ℕ)) (x : ℕ → ℕ → ℂ) (φ l : ℝ) : ℝ :=
  ∑ p ∈ M, (if p.1 = 0 then 1 else 2) * pbar p.1 p.2 (Real.pi / 2 - φ) *
    (x p.1 p.2 * Complex.exp (p.1 * l * Complex.I)).re

/-- The field of a triangular spectrum. -/
noncomputable def Spec.series (T : ℕ) (x : ℕ → ℕ → ℂ) (φ l : ℝ) : ℝ := Spec.seriesOn (Spec.triangle T) x φ l

/-- One slice of an array of grids, as an analysis sees it. -/
def Spec.cut (nlat nlon : ℕ) (x : NDArr ℝ) (e : List ℕ) : ℕ → ℕ → ℝ :=
  fun i j => if i < nlat ∧ j < nlon then x.get (i :: j :: e) else 0

/-! ### Shapes -/

theorem ravel3 (a b : ℕ) (ex e : List ℕ) (i j : ℕ) :
    ravel (a :: b :: ex) (i :: j :: e) = ravel [a, b, ex.prod] [i, j, ravel ex e] := by
  simp only [ravel, List.prod_cons, List.prod_nil, mul_one, add_zero]

theorem ravel2 (a : ℕ) (ex e : List ℕ) (i : ℕ) :
    ravel (a :: ex) (i :: e) = ravel [a, ex.prod] [i, ravel ex e] := by
  simp only [ravel, List.prod_cons, List.prod_nil, mul_one, add_zero]

theorem unravel3 {a b : ℕ} {ex : List ℕ} {i j k : ℕ} (hi : i < a) (hj : j < b) (hk : k < ex.prod) :
    unravel (a :: b :: ex) (ravel [a, b, ex.prod] [i, j, k]) = i :: j :: unravel ex k := by
  have := ravel3 a b ex (unravel ex k) i j
  rw [ravel_unravel hk] at this
  rw [← this]
  exact unravel_ravel (s := a :: b :: ex) (is := i :: j :: unravel ex k) ⟨hi, hj, unravel_inB hk⟩

theorem unravel2 {a : ℕ} {ex : List ℕ} {i k : ℕ} (hi : i < a) (hk : k < ex.prod) :
    unravel (a :: ex) (ravel [a, ex.prod] [i, k]) = i :: unravel ex k := by
  have := ravel2 a ex (unravel ex k) i
  rw [ravel_unravel hk] at this
  rw [← this]
  exact unravel_ravel (s := a :: ex) (is := i :: unravel ex k) ⟨hi, unravel_inB hk⟩

variable {I : Inst} {extra : List ℕ}

theorem validateGrid_ok {x : NDArr ℝ} (h : x.shape = I.nlat :: I.nlon :: extra) :
    ∃ y, validateGrid I x = .ok (extra, y) ∧
      ∀ e, InB extra e → sliceOf I y (ravel extra e) = Spec.cut I.nlat I.nlon x e := by
  have hp : [I.nlat, I.nlon, extra.prod].prod = x.shape.prod := by rw [h]; simp [List.prod_cons]
  refine ⟨⟨[I.nlat, I.nlon, extra.prod], fun idx => x.get (unravel x.shape (ravel [I.nlat, I.nlon, extra.prod] idx))⟩, ?_, ?_⟩
  · unfold validateGrid
    rw [h]
    simp only [ne_eq, not_true_eq_false, or_self, if_false]
    unfold NDArr.reshape
    rw [if_pos hp]
    simp only [*]
  · intro e he
    funext i j
    unfold sliceOf Spec.cut
    by_cases hij : i < I.nlat ∧ j < I.nlon
    · rw [if_pos hij, if_pos hij]
      show x.get _ = _
      rw [h, unravel3 hij.1 hij.2 (ravel_lt he), unravel_ravel he]
    · rw [if_neg hij, if_neg hij]

theorem restoreGrid_ok {f : ℕ → ℕ → ℕ → ℝ} :
    ∃ r, restoreGrid I extra (ofSlices I extra.prod f) = .ok r ∧
      Spec.IsGrid I.nlat I.nlon extra r fun e i j => f (ravel extra e) i j := by
  unfold restoreGrid
  by_cases hx : extra = []
  · subst hx
    refine ⟨_, if_pos rfl, rfl, ?_⟩
    intro e he i j hi hj
    have : e = [] := by
      cases e with
      | nil => rfl
      | cons => simp [InB] at he
    subst this
    rfl
  · rw [if_neg hx]
    have hp : (I.nlat :: I.nlon :: extra).prod = (ofSlices I extra.prod f).shape.prod := by
      simp [ofSlices, List.prod_cons]
    unfold NDArr.reshape
    rw [if_pos hp]
    refine ⟨_, rfl, rfl, ?_⟩
    intro e he i j hi hj
    show (ofSlices I extra.prod f).get (unravel [I.nlat, I.nlon, extra.prod] _) = _
    rw [ravel3, unravel_ravel (show InB [I.nlat, I.nlon, extra.prod] [i, j, ravel extra e] from ⟨hi, hj, ravel_lt he, trivial⟩)]
    rfl

theorem validateSpec_ok {s : NDArr ℂ} {T : ℕ} {x : List ℕ → ℕ → ℕ → ℂ} (h : Spec.IsSpectrum T extra s x)
    (hT : T < I.nlat) :
    ∃ y, validateSpec I s = .ok (specLen T, extra, y) ∧
      ∀ e, InB extra e → ∀ m n, m ≤ n → n ≤ T →
        toF y (Spectral.Spec.index T m n + 1, ravel extra e + 1) = x e m n := by
  have hs : s.shape = specLen T :: extra := h.1
  have hp : [specLen T, extra.prod].prod = s.shape.prod := by rw [hs]; simp [List.prod_cons]
  refine ⟨⟨[specLen T, extra.prod], fun idx => s.get (unravel s.shape (ravel [specLen T, extra.prod] idx))⟩, ?_, ?_⟩
  · unfold validateSpec
    rw [hs]
    have : ntruncOf (specLen T) = T := C44_truncation T
    simp only [this]
    rw [if_neg (by omega)]
    unfold NDArr.reshape
    rw [if_pos hp]
    simp only [*]
  · intro e he m n h1 h2
    show s.get (unravel s.shape (ravel [specLen T, extra.prod] [Spectral.Spec.index T m n, ravel extra e])) = _
    have hi : Spectral.Spec.index T m n < specLen T := (C43_bijection T).1 (show (m, n) ∈ {p : ℕ × ℕ | p.1 ≤ p.2 ∧ p.2 ≤ T} from ⟨h1, h2⟩)
    rw [hs, unravel2 hi (ravel_lt he), unravel_ravel he]
    exact h.2 e he m n h1 h2

theorem restoreSpec_ok {T : ℕ} {f : ℕ × ℕ → ℂ} :
    ∃ r, restoreSpec (specLen T) extra (ofF (specLen T) extra.prod f) = .ok r ∧
      Spec.IsSpectrum T extra r fun e m n => f (Spectral.Spec.index T m n + 1, ravel extra e + 1) := by
  unfold restoreSpec
  by_cases hx : extra = []
  · subst hx
    refine ⟨_, if_pos rfl, rfl, ?_⟩
    intro e he m n h1 h2
    have : e = [] := by
      cases e with
      | nil => rfl
      | cons => simp [InB] at he
    subst this
    rfl
  · rw [if_neg hx]
    have hp : (specLen T :: extra).prod = (ofF (specLen T) extra.prod f).shape.prod := by
      simp [ofF, List.prod_cons]
    unfold NDArr.reshape
    rw [if_pos hp]
    refine ⟨_, rfl, rfl, ?_⟩
    intro e he m n h1 h2
    have hi : Spectral.Spec.index T m n < specLen T := (C43_bijection T).1 (show (m, n) ∈ {p : ℕ × ℕ | p.1 ≤ p.2 ∧ p.2 ≤ T} from ⟨h1, h2⟩)
    show (ofF (specLen T) extra.prod f).get (unravel [specLen T, extra.prod] _) = _
    rw [ravel2, unravel_ravel (show InB [specLen T, extra.prod] [_, ravel extra e] from ⟨hi, ravel_lt he, trivial⟩)]
    rfl

theorem Spec.IsSpectrum.congr {T : ℕ} {s : NDArr ℂ} {x y : List ℕ → ℕ → ℕ → ℂ} (h : Spec.IsSpectrum T extra s x)
    (hxy : ∀ e, InB extra e → ∀ m n, m ≤ n → n ≤ T → x e m n = y e m n) : Spec.IsSpectrum T extra s y :=
  ⟨h.1, fun e he m n h1 h2 => (h.2 e he m n h1 h2).trans (hxy e he m n h1 h2)⟩

theorem Spec.IsGrid.congr {a b : ℕ} {g : NDArr ℝ} {x y : List ℕ → ℕ → ℕ → ℝ} (h : Spec.IsGrid a b extra g x)
    (hxy : ∀ e, InB extra e → ∀ i j, i < a → j < b → x e i j = y e i j) : Spec.IsGrid a b extra g y :=
  ⟨h.1, fun e he i j h1 h2 => (h.2 e he i j h1 h2).trans (hxy e he i j h1 h2)⟩

/-! ### Sizes -/

/-- A usable instance (what `construct` accepts, C149) together with arrays small enough for the length tests
(C150). -/
structure Good (I : Inst) (extra : List ℕ) : Prop where
  lat : 3 ≤ I.nlat
  lon : 4 ≤ I.nlon
  pos : 0 < I.rsphere
  some : 1 ≤ extra.prod
  fit : I.nlat * (4 * extra.prod * I.nlon + 4 * max I.nlat I.nlon) ≤ 2147483647

theorem Good.run (h : Good I extra) (p : Part) :
    scalarAnalysis I.grid I.leg I.nlat I.nlon extra.prod = .ok () ∧
    scalarSynthesis I.grid I.leg I.nlat I.nlon extra.prod = .ok () ∧
    vectorSynthesis I.grid I.leg p I.nlat I.nlon extra.prod = .ok () ∧
    (vectorAnalysis I.grid I.leg p I.nlat I.nlon extra.prod = .ok () ↔
      ¬ (I.grid = .regular ∧ I.leg = .stored ∧ p = .div ∧ 24 < extra.prod)) := by
  obtain ⟨h1, h2, h3, h4, h5⟩ := h
  have := C150_slices_partial I.grid I.leg p I.nlat I.nlon extra.prod (by exact_mod_cast h1) (by exact_mod_cast h2)
    (by exact_mod_cast h4) (by exact_mod_cast h5)
  refine ⟨this.1, this.2.1, this.2.2.1, this.2.2.2.trans ?_⟩
  have h24 : (24 : ℤ) < (extra.prod : ℤ) ↔ 24 < extra.prod := by exact_mod_cast Iff.rfl
  rw [h24]

/-! ### Scalar transforms -/

/-- The modes of a spectrum of truncation `T` a scalar synthesis uses. -/
def usedS (I : Inst) (T : ℕ) : Finset (ℕ × ℕ) := (sModes I.nlat I.nlon).filter fun p => p.2 ≤ T

/-- The modes of a spectrum of truncation `T` a vector synthesis uses. -/
def usedV (I : Inst) (T : ℕ) : Finset (ℕ × ℕ) := (vModes I.nlat I.nlon).filter fun p => p.2 ≤ T

theorem mem_sModes {nlat nlon m n : ℕ} : (m, n) ∈ sModes nlat nlon ↔ m ≤ n ∧ n < nlat ∧ m < nlon / 2 + 1 := by
  simp only [sModes, Finset.mem_filter, Finset.mem_product, Finset.mem_range]; omega

theorem mem_vModes {nlat nlon m n : ℕ} : (m, n) ∈ vModes nlat nlon ↔
    m ≤ n ∧ 1 ≤ n ∧ n < nlat ∧ m < (nlon + 1) / 2 ∧ (n = nlat - 1 → m % 2 = 1) := by
  simp only [vModes, Finset.mem_filter, Finset.mem_product, Finset.mem_range]; omega

theorem scalarField_series (M : Finset (ℕ × ℕ)) (x : ℕ → ℕ → ℂ) (φ l : ℝ) :
    scalarField M (fun m n => 2 * (x m n).re) (fun m n => 2 * (x m n).im) φ l = Spec.seriesOn M x φ l := by
  unfold scalarField Spec.seriesOn
  refine Finset.sum_congr rfl fun p _ => ?_
  have : (x p.1 p.2 * Complex.exp (p.1 * l * Complex.I)).re
      = (x p.1 p.2).re * Real.cos (p.1 * l) - (x p.1 p.2).im * Real.sin (p.1 * l) := by
    rw [Complex.mul_re, show ((p.1 : ℂ) * l * Complex.I) = ((p.1 * l : ℝ) : ℂ) * Complex.I by push_cast; ring,
      Complex.exp_ofReal_mul_I_re, Complex.exp_ofReal_mul_I_im]
  rw [this]
  unfold half
  by_cases h : p.1 = 0
  · simp only [h, if_true]; ring
  · simp only [h, if_false]; ring

theorem scalarField_filter (M : Finset (ℕ × ℕ)) (T : ℕ) (a b a' b' : ℕ → ℕ → ℝ) (φ l : ℝ)
    (h0 : ∀ p ∈ M, T < p.2 → a p.1 p.2 = 0 ∧ b p.1 p.2 = 0)
    (h1 : ∀ p ∈ M, p.2 ≤ T → a p.1 p.2 = a' p.1 p.2 ∧ b p.1 p.2 = b' p.1 p.2) :
    scalarField M a b φ l = scalarField (M.filter fun p => p.2 ≤ T) a' b' φ l := by
  unfold scalarField
  rw [Finset.sum_filter]
  refine Finset.sum_congr rfl fun p hp => ?_
  by_cases h : p.2 ≤ T
  · rw [if_pos h, (h1 p hp h).1, (h1 p hp h).2]
  · rw [if_neg h, (h0 p hp (by omega)).1, (h0 p hp (by omega)).2]; ring

theorem spectogrd_ok {s : NDArr ℂ} {T : ℕ} {x : List ℕ → ℕ → ℕ → ℂ} (hG : Good I extra)
    (h : Spec.IsSpectrum T extra s x) (hT : T < I.nlat) :
    ∃ g, spectogrd I s = .ok g ∧
      Spec.IsGrid I.nlat I.nlon extra g fun e i j => Spec.seriesOn (usedS I T) (x e) (I.lat i) (I.lon j) := by
  obtain ⟨y, e1, hy⟩ := validateSpec_ok (I := I) h hT
  have hw : waves (specLen T) = T + 1 := waves_specLen T
  obtain ⟨a, b, e2, ha, hb⟩ := onedtotwod_closed (nlat := I.nlat) (N := specLen T) (nt := extra.prod)
    (by rw [hw]; omega) (toF y)
  rw [hw] at ha hb
  obtain ⟨r, e3, hr⟩ := restoreGrid_ok (I := I) (extra := extra) (f := fun k i j =>
    scalarField (sModes I.nlat I.nlon) (fun m n => a (m + 1, n + 1, k + 1)) (fun m n => b (m + 1, n + 1, k + 1))
      (I.lat i) (I.lon j))
  refine ⟨r, ?_, hr.congr fun e he i j _ _ => ?_⟩
  · unfold spectogrd
    rw [e1]
    simp only [bind, Except.bind, e2, inside, (hG.run .both).2.1, raise]
    exact e3
  · have hk := ravel_lt he
    rw [scalarField_filter (sModes I.nlat I.nlon) T _ _ (fun m n => 2 * (x e m n).re) (fun m n => 2 * (x e m n).im)]
    · exact scalarField_series _ _ _ _
    · rintro ⟨m, n⟩ hp hn
      have hno : ∀ t ∈ Tri extra.prod (T + 1), adG t ≠ (m + 1, n + 1, ravel extra e + 1) := by
        rintro ⟨i', m', n'⟩ ht heq
        have := mem_Tri.mp ht
        simp only [adG, Prod.mk.injEq] at heq
        simp only at hn
        omega
      exact ⟨ha.2 _ hno, hb.2 _ hno⟩
    · rintro ⟨m, n⟩ hp hn
      have hm := mem_sModes.mp hp
      simp only at hn
      have ht : (ravel extra e + 1, m + 1, n + 1) ∈ Tri extra.prod (T + 1) := mem_Tri.mpr (by omega)
      have h1 := ha.1 _ ht
      have h2 := hb.1 _ ht
      simp only [adG, adS, pos_eq_index hm.1 hn, hy e he m n hm.1 hn] at h1 h2
      exact ⟨h1, h2⟩

theorem validateNtrunc_ok {T : ℕ} (hT : T < I.nlat) : validateNtrunc I (some (T : ℤ)) = .ok T := by
  unfold validateNtrunc
  simp only
  rw [if_neg (by omega)]
  simp

theorem validateNtrunc_none : validateNtrunc I none = .ok (I.nlat - 1) := rfl

/-- The truncation a call uses. -/
def Spec.Truncation (nlat : ℕ) (ntrunc : Option ℤ) (T : ℕ) : Prop :=
  (ntrunc = none ∧ T = nlat - 1) ∨ (ntrunc = some (T : ℤ) ∧ T < nlat)

theorem ntrunc_ok {t : Option ℤ} {T : ℕ} (h : Spec.Truncation I.nlat t T) : validateNtrunc I t = .ok T := by
  rcases h with ⟨rfl, rfl⟩ | ⟨rfl, h⟩
  · rfl
  · exact validateNtrunc_ok h

theorem grdtospec_ok {x : NDArr ℝ} {t : Option ℤ} {T : ℕ} (hG : Good I extra)
    (hx : x.shape = I.nlat :: I.nlon :: extra) (ht : Spec.Truncation I.nlat t T) (hT : T ≤ I.nlon / 2) :
    ∃ s, grdtospec I x t = .ok s ∧
      Spec.IsSpectrum T extra s fun e m n =>
        ((0.5 : ℝ) : ℂ) * (⟨(I.anaS (Spec.cut I.nlat I.nlon x e) m n).1, (I.anaS (Spec.cut I.nlat I.nlon x e) m n).2⟩ : ℂ) := by
  have hT' : T < I.nlat := by rcases ht with ⟨-, rfl⟩ | ⟨-, h⟩; have := hG.lat; omega; exact h
  obtain ⟨y, e1, hy⟩ := validateGrid_ok (I := I) hx
  obtain ⟨z, e2, hz⟩ := twodtooned_closed (nlat := I.nlat) (nt := extra.prod) (T := T) (by omega)
    (fun p => (I.anaS (sliceOf I y (p.2.2 - 1)) (p.1 - 1) (p.2.1 - 1)).1)
    (fun p => (I.anaS (sliceOf I y (p.2.2 - 1)) (p.1 - 1) (p.2.1 - 1)).2)
  obtain ⟨r, e3, hr⟩ := restoreSpec_ok (T := T) (extra := extra) (f := z)
  refine ⟨r, ?_, hr.congr fun e he m n h1 h2 => ?_⟩
  · unfold grdtospec
    rw [e1]
    simp only [bind, Except.bind, ntrunc_ok ht, (hG.run .both).1, raise, e2, inside]
    rw [if_neg (by omega)]
    exact e3
  · have hk := ravel_lt he
    have ht : (ravel extra e + 1, m + 1, n + 1) ∈ Tri extra.prod (T + 1) := mem_Tri.mpr (by omega)
    have h := hz.1 _ ht
    simp only [adG, adS, pos_eq_index h1 h2, Nat.add_sub_cancel] at h
    rw [h, hy e he]

/-- Beyond the rows the analysis writes, the result is undefined. -/
theorem grdtospec_undefined {x : NDArr ℝ} {t : Option ℤ} {T : ℕ} (hG : Good I extra)
    (hx : x.shape = I.nlat :: I.nlon :: extra) (ht : Spec.Truncation I.nlat t T) (hT : I.nlon / 2 < T) :
    grdtospec I x t = .error .undefined := by
  have hT' : T < I.nlat := by rcases ht with ⟨-, rfl⟩ | ⟨-, h⟩; have := hG.lat; omega; exact h
  obtain ⟨y, e1, hy⟩ := validateGrid_ok (I := I) hx
  unfold grdtospec
  rw [e1]
  simp only [bind, Except.bind, ntrunc_ok ht, (hG.run .both).1, raise]
  rw [if_pos (by have := hG.some; omega)]
  rfl

end Skyborn.Sphere
