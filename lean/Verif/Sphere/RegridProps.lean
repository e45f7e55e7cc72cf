/-
Spectral smoothing and spectral regridding.
-/
import Verif.Sphere.WindProps5

namespace Skyborn.Sphere

open Skyborn Skyborn.Spectral

variable {I A B : Inst} {extra : List ℕ}

/-- The coefficients of `x` up to degree `T`, that of degree `n` multiplied by `w n`. -/
def Spec.weighted (w : ℕ → ℝ) (x : ℕ → ℕ → ℂ) : ℕ → ℕ → ℂ := fun m n => x m n * ((w n : ℝ) : ℂ)

/-- The statements of `specsmooth` and `regrid` that apply the weights. -/
theorem weights_ok {s : NDArr ℂ} {T L : ℕ} {x : List ℕ → ℕ → ℕ → ℂ} (h : Spec.IsSpectrum T extra s x) (hT : T < I.nlat)
    (hL : T < L) (w : NDArr ℝ) :
    ∃ y z r, validateSpec I s = .ok (specLen T, extra, y) ∧
      multsmoothfact L (specLen T) extra.prod (toF y) (fun n => w.get [n - 1]) (fun _ => 0) = some z ∧
      restoreSpec (specLen T) extra (ofF (specLen T) extra.prod z) = .ok r ∧
      Spec.IsSpectrum T extra r fun e => Spec.weighted (fun n => w.get [n]) (x e) := by
  obtain ⟨y, e1, hy⟩ := validateSpec_ok (I := I) h hT
  have hw : waves (specLen T) = T + 1 := waves_specLen T
  obtain ⟨z, e2, hz⟩ := multsmoothfact_closed (nlat := L) (N := specLen T) (nt := extra.prod) (by omega) (toF y)
    (fun n => w.get [n - 1]) fun _ => 0
  rw [hw] at hz
  obtain ⟨r, e3, hr⟩ := restoreSpec_ok (T := T) (extra := extra) (f := z)
  refine ⟨y, z, r, e1, e2, e3, hr.congr fun e he m n h1 h2 => ?_⟩
  have hk := ravel_lt he
  have h := hz.1 (ravel extra e + 1, m + 1, n + 1) (mem_Tri.mpr (by omega))
  simp only [adS, pos_eq_index h1 h2, hy e he m n h1 h2] at h
  exact h

/-- A sum of products of weights and of coefficients that vanish above degree `T`. -/
theorem series_weighted {T T' : ℕ} {w : ℕ → ℝ} (x : ℕ → ℕ → ℂ) {M : Finset (ℕ × ℕ)} (φ l : ℝ)
    (hM : ∀ m n, m ≤ n → n ≤ T → n ≤ T' → (m, n) ∈ M) (hM' : ∀ m n, (m, n) ∈ M → m ≤ n ∧ n ≤ T') :
    Spec.seriesOn M (Spec.weighted w (onlyOn (Spec.triangle T) (realMean x))) φ l =
      Spec.series (min T T') (Spec.weighted w x) φ l := by
  unfold Spec.series
  rw [← series_realMean (Spec.triangle (min T T'))]
  unfold Spec.seriesOn
  symm
  refine Finset.sum_subset_zero_on_sdiff ?_ ?_ ?_
  · rintro ⟨m, n⟩ hp
    rw [mem_triangle] at hp
    exact hM m n hp.1 (by omega) (by omega)
  · rintro ⟨m, n⟩ hp
    rw [Finset.mem_sdiff, mem_triangle] at hp
    have := hM' m n hp.1
    have : (m, n) ∉ Spec.triangle T := by rw [mem_triangle]; omega
    simp [Spec.weighted, onlyOn, this]
  · rintro ⟨m, n⟩ hp
    rw [mem_triangle] at hp
    have : (m, n) ∈ Spec.triangle T := by rw [mem_triangle]; omega
    simp only [Spec.weighted, onlyOn, this, if_true, realMean]
    by_cases hm : m = 0
    · subst hm; simp
    · simp [hm]

/-- C163: `specsmooth` multiplies the component of degree `n` of a band-limited field by `smooth[n]`. -/
theorem C163_smooth_partial (hG : Good I extra) {K T : ℕ} (hE : Spec.Exact I K) (hK : T ≤ K) (h1 : T < I.nlat) (h2 : 2 * T < I.nlon)
    (h3 : I.nlat - 1 ≤ I.nlon / 2) {g w : NDArr ℝ} {x : List ℕ → ℕ → ℕ → ℂ}
    (hg : Spec.Samples I extra g fun e => Spec.series T (x e)) (hw : w.shape = [I.nlat]) :
    ∃ g', specsmooth I g w = .ok g' ∧
      Spec.Samples I extra g' fun e => Spec.series T (fun m n => x e m n * ((w.get [n] : ℝ) : ℂ)) := by
  have hlat : 0 < I.nlat := by omega
  obtain ⟨s, e1, hs⟩ := grdtospec_exact hG hE hK h1 h2 hg (t := some ((I.nlat : ℤ) - 1)) (T' := I.nlat - 1)
    (Or.inr ⟨by congr 1; omega, by omega⟩) h3
  obtain ⟨y, z, r, e2, e3, e4, hr⟩ := weights_ok hs (by omega : I.nlat - 1 < I.nlat) (L := I.nlat) (by omega) w
  obtain ⟨g', e5, hg'⟩ := spectogrd_ok hG hr (by omega)
  obtain ⟨v, e0, -⟩ := validateGrid_ok (I := I) hg.1
  refine ⟨g', ?_, hg'.congr fun e he i j _ _ => ?_⟩
  · unfold specsmooth
    rw [e0]
    simp only [bind, Except.bind, hw, ne_eq, not_true_eq_false, if_false, e1, e2, e3, inside, e4, e5, pure, Except.pure]
  · rw [series_weighted (T := T) (T' := I.nlat - 1) (x e)]
    · rw [min_eq_left (by omega)]; rfl
    · intro m n a b c
      rw [mem_usedS]; omega
    · intro m n h
      rw [mem_usedS] at h; omega

/-- C163: with more rows than the analysis has zonal wavenumbers the smoothed field contains numbers never computed. -/
theorem C163_smooth_false (hG : Good I extra) (h3 : I.nlon / 2 < I.nlat - 1) {g w : NDArr ℝ}
    (hg : g.shape = I.nlat :: I.nlon :: extra) (hw : w.shape = [I.nlat]) : specsmooth I g w = .error .undefined := by
  have hlat := hG.lat
  obtain ⟨v, e0, -⟩ := validateGrid_ok (I := I) hg
  have e1 := grdtospec_undefined hG hg (t := some ((I.nlat : ℤ) - 1)) (T := I.nlat - 1)
    (Or.inr ⟨by congr 1; omega, by omega⟩) h3
  unfold specsmooth
  rw [e0]
  simp only [bind, Except.bind, hw, ne_eq, not_true_eq_false, if_false, e1, pure, Except.pure]

/-- The weights `regrid` applies: all ones without `smooth`. -/
noncomputable def Spec.weights : Option (NDArr ℝ) → ℕ → ℝ
  | some w, n => w.get [n]
  | none, _ => 1

/-- The truncation `regrid` uses: the one given, or the largest one both grids have. -/
def Spec.RegridTruncation (A B : Inst) (ntrunc : Option ℤ) (T : ℕ) : Prop :=
  ntrunc = some (T : ℤ) ∨ (ntrunc = none ∧ T = min (B.nlat - 1) (A.nlat - 1))

/-- C161: `regrid` takes the values on one grid of a band-limited field to the values of that field on the other grid, cut
at the truncation and with the component of degree `n` multiplied by `smooth[n]`. -/
theorem C161_regrid_partial (hA : Good A extra) (hB : Good B extra) {K T T' : ℕ} (hE : Spec.Exact A K) (hK : T ≤ K)
    (h1 : T < A.nlat) (h2 : 2 * T < A.nlon) {g : NDArr ℝ} {x : List ℕ → ℕ → ℕ → ℂ}
    (hg : Spec.Samples A extra g fun e => Spec.series T (x e)) {t : Option ℤ} (ht : Spec.RegridTruncation A B t T')
    (h3 : T' < A.nlat) (h4 : T' < B.nlat) (h5 : T' ≤ A.nlon / 2) (h6 : min T T' ≤ B.nlon / 2) {w : Option (NDArr ℝ)}
    (hw : ∀ v ∈ w, v.shape = [B.nlat]) :
    ∃ g', regrid A B g t w = .ok g' ∧
      Spec.Samples B extra g' fun e => Spec.series (min T T') (fun m n => x e m n * ((Spec.weights w n : ℝ) : ℂ)) := by
  have hAl := hA.lat
  have hBl := hB.lat
  have et : t.getD (min ((B.nlat : ℤ) - 1) ((A.nlat : ℤ) - 1)) = (T' : ℤ) := by
    rcases ht with rfl | ⟨rfl, rfl⟩
    · rfl
    · simp only [Option.getD_none]; omega
  obtain ⟨s, e1, hs⟩ := grdtospec_exact hA hE hK h1 h2 hg (t := some (T' : ℤ)) (T' := T') (Or.inr ⟨rfl, h3⟩) h5
  have hM : ∀ m n, m ≤ n → n ≤ T → n ≤ T' → (m, n) ∈ usedS B T' := by
    intro m n a b c
    rw [mem_usedS]; omega
  have hM' : ∀ m n, (m, n) ∈ usedS B T' → m ≤ n ∧ n ≤ T' := by
    intro m n h
    rw [mem_usedS] at h; omega
  cases w with
  | some w =>
    have hw' := hw w rfl
    obtain ⟨y, z, r, e2, e3, e4, hr⟩ := weights_ok (I := A) hs h3 (L := B.nlat) h4 w
    obtain ⟨g', e5, hg'⟩ := spectogrd_ok hB hr h4
    refine ⟨g', ?_, hg'.congr fun e he i j _ _ => ?_⟩
    · unfold regrid
      rw [hg.1, et]
      simp only [bind, Except.bind, hw', ne_eq, not_true_eq_false, or_self, if_false, e1, e2, e3, inside, e4, e5, pure, Except.pure]
    · exact series_weighted (T := T) (T' := T') (w := fun n => w.get [n]) (x e) _ _ hM hM'
  | none =>
    obtain ⟨g', e5, hg'⟩ := spectogrd_ok hB hs h4
    refine ⟨g', ?_, hg'.congr fun e he i j _ _ => ?_⟩
    · unfold regrid
      rw [hg.1, et]
      simp only [bind, Except.bind, ne_eq, not_true_eq_false, or_self, if_false, e1, e5, pure, Except.pure]
    · refine Eq.trans ?_ (series_weighted (T := T) (T' := T') (w := fun _ => 1) (x e) _ _ hM hM')
      congr 1
      funext m n
      simp [Spec.weighted]

/-- C161: with the truncation left to `regrid` and a source grid with few longitudes, the result contains numbers never
computed. -/
theorem C161_regrid_false (hA : Good A extra) (hBl : 3 ≤ B.nlat) (h5 : A.nlon / 2 < min (B.nlat - 1) (A.nlat - 1)) {g : NDArr ℝ}
    (hg : g.shape = A.nlat :: A.nlon :: extra) : regrid A B g none none = .error .undefined := by
  have hAl := hA.lat
  have e1 := grdtospec_undefined hA hg (t := some (min ((B.nlat : ℤ) - 1) ((A.nlat : ℤ) - 1))) (T := min (B.nlat - 1) (A.nlat - 1))
    (Or.inr ⟨by congr 1; omega, by omega⟩) h5
  unfold regrid
  rw [hg]
  simp only [bind, Except.bind, ne_eq, not_true_eq_false, or_self, if_false, Option.getD_none, e1, pure, Except.pure]

/-- A counted loop fails when one of its iterations always fails. -/
theorem doLoopM_fails {σ : Type} {lo hi k : ℕ} {f : ℕ → σ → Option σ} (h1 : lo ≤ k) (h2 : k ≤ hi) (hk : ∀ s, f k s = none) (s : σ) :
    doLoopM lo hi s f = none := by
  unfold doLoopM
  generalize hn : hi + 1 - lo = n
  have hkn : k < lo + n := by omega
  clear hn h2
  induction n generalizing lo s with
  | zero => omega
  | succ n ih =>
    rw [List.range'_succ, List.foldlM_cons]
    by_cases hlo : lo = k
    · subst hlo; rw [hk]; rfl
    · cases h : f lo s with
      | none => rfl
      | some s' => exact ih (lo := lo + 1) (by omega) s' (by omega)

/-- C161: weights for a truncation above the last degree of the target grid: the weights are read past their end (before
the synthesis would refuse the truncation). -/
theorem C161_weights_false (hA : Good A extra) {g w : NDArr ℝ} (hg : g.shape = A.nlat :: A.nlon :: extra) {T : ℕ}
    (h1 : T < A.nlat) (h2 : T ≤ A.nlon / 2) (h3 : B.nlat ≤ T) (hw : w.shape = [B.nlat]) :
    regrid A B g (some T) (some w) = .error .outOfBounds ∧
      regrid A B g (some T) none = .error (.err .validation) := by
  obtain ⟨s, e1, hs⟩ := grdtospec_ok hA hg (t := some (T : ℤ)) (T := T) (Or.inr ⟨rfl, h1⟩) h2
  obtain ⟨y, e2, hy⟩ := validateSpec_ok (I := A) hs h1
  have hW : waves (specLen T) = T + 1 := waves_specLen T
  have hp := hA.some
  constructor
  · have e3 : multsmoothfact B.nlat (specLen T) extra.prod (toF y) (fun n => w.get [n - 1]) (fun _ => 0) = none := by
      unfold multsmoothfact triScan
      refine doLoopM_fails (k := 1) le_rfl hp (fun s => ?_) _
      rw [doLoopM_fails (k := 1) le_rfl (by omega)]
      · rfl
      · intro st
        rw [doLoopM_fails (k := B.nlat + 1) (by omega) (by omega)]
        · rfl
        · intro s; simp [rd]
    unfold regrid
    rw [hg]
    simp only [bind, Except.bind, hw, ne_eq, not_true_eq_false, or_self, if_false, Option.getD_some, e1, e2, e3, inside, pure, Except.pure]
  · have e4 : spectogrd B s = .error (.err .validation) := by
      have hsh : s.shape = specLen T :: extra := hs.1
      have : ntruncOf (specLen T) = T := C44_truncation T
      unfold spectogrd validateSpec
      rw [hsh]
      simp only [bind, Except.bind, this]
      rw [if_pos (by omega)]
    unfold regrid
    rw [hg]
    simp only [bind, Except.bind, ne_eq, not_true_eq_false, or_self, if_false, Option.getD_some, e1, e4, pure, Except.pure]

/-- C162: an analysis is fully computed exactly when its truncation does not exceed half the number of longitudes; with
the default truncation, exactly when `nlat - 1 ≤ nlon / 2`. -/
theorem C162_defined_partial (hG : Good I extra) {g : NDArr ℝ} (hg : g.shape = I.nlat :: I.nlon :: extra) {t : Option ℤ} {T : ℕ}
    (ht : Spec.Truncation I.nlat t T) :
    (T ≤ I.nlon / 2 → ∃ s, grdtospec I g t = .ok s ∧ s.shape = ((T + 1) * (T + 2) / 2) :: extra) ∧
    (I.nlon / 2 < T → grdtospec I g t = .error .undefined) := by
  refine ⟨fun h => ?_, fun h => grdtospec_undefined hG hg ht h⟩
  obtain ⟨s, e, hs⟩ := grdtospec_ok hG hg ht h
  exact ⟨s, e, hs.1⟩

/-- C162: fields on grids with too few longitudes whose default analysis contains numbers never computed. -/
theorem C162_defined_false : ∃ I : Inst, Good I [] ∧ ∀ g : NDArr ℝ, g.shape = [I.nlat, I.nlon] →
    grdtospec I g none = .error .undefined := by
  refine ⟨⟨6, 4, 1, .regular, .stored, fun _ => 0, fun _ _ _ => 0, fun _ _ _ _ => 0, fun _ _ _ _ => 0, fun _ _ _ _ => 0⟩,
    ⟨by norm_num, by norm_num, by norm_num, by norm_num, by norm_num⟩, fun g hg => ?_⟩
  exact grdtospec_undefined (T := 5) ⟨by norm_num, by norm_num, by norm_num, by norm_num, by norm_num⟩ hg (Or.inl ⟨rfl, rfl⟩) (by norm_num)

/-- Non-vacuity: a 6 by 12 source grid with exact analyses up to degree 4 and a 5 by 10 target grid; the truncation 5 on the
source for `C161_weights_false`; a 6 by 4 grid for `C161_regrid_false` and `C163_smooth_false`. -/
example : ∃ A B C : Inst, Good A [3] ∧ Good B [3] ∧ Good C [3] ∧ Spec.Exact A 4 ∧ 2 * 4 < A.nlon ∧ A.nlat - 1 ≤ A.nlon / 2 ∧
    Spec.RegridTruncation A B none 4 ∧ 4 < A.nlat ∧ 4 < B.nlat ∧ 4 ≤ A.nlon / 2 ∧ min 4 4 ≤ B.nlon / 2 ∧
    (5 < A.nlat ∧ 5 ≤ A.nlon / 2 ∧ B.nlat ≤ 5) ∧ C.nlon / 2 < min (A.nlat - 1) (C.nlat - 1) := by
  set J : Inst := ⟨6, 12, 1, .regular, .stored, fun i => Real.pi / 2 - i * (Real.pi / (((6 : ℕ) : ℝ) - 1)), fun _ _ _ => 0, fun _ _ _ _ => 0,
    fun _ _ _ _ => 0, fun _ _ _ _ => 0⟩ with hJ
  have hreg : Spec.Regular J := ⟨rfl, fun _ _ => rfl⟩
  have hrows := hreg.rows (by rw [hJ]; norm_num)
  have hc := card_interior hrows
  obtain ⟨I, h1, h2, h3, h4, h5, h6, hE⟩ := exact_exists J hrows (by rw [hJ]; norm_num) (by rw [hJ]; norm_num) (K := 4)
    (by rw [hJ]; norm_num) (by simp only [hJ] at hc ⊢; omega)
  have a1 : I.nlat = 6 := h1
  have a2 : I.nlon = 12 := h2
  refine ⟨I, ⟨5, 10, 1, .regular, .stored, I.lat, I.anaS, I.anaV, I.anaDiv, I.anaVrt⟩,
    ⟨6, 4, 1, .regular, .stored, I.lat, I.anaS, I.anaV, I.anaDiv, I.anaVrt⟩,
    ⟨by omega, by omega, by rw [h3, hJ]; norm_num, by norm_num, by rw [h1, h2, hJ]; norm_num⟩,
    ⟨by norm_num, by norm_num, by norm_num, by norm_num, by norm_num⟩,
    ⟨by norm_num, by norm_num, by norm_num, by norm_num, by norm_num⟩, hE, by omega, by omega,
    Or.inr ⟨rfl, by simp only; omega⟩, by omega, by norm_num, by omega, by norm_num, ⟨by omega, by omega, by norm_num⟩, by simp only; omega⟩

end Skyborn.Sphere
