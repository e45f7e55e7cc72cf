/-
The baroclinic kernel: the problem it solves, and what it returns.
-/
import Verif.Growth.Ops
import Verif.Growth.Spectrum

namespace Skyborn.Growth

/-! ### Specification -/

/-- The conductance between levels `i` and `i + 1`: `f²` over the static stability; nothing passes the ends. -/
noncomputable def Spec.barocG (n : ℕ) (f : ℝ) (z : ℕ → ℝ) (i : ℕ) : ℝ := if 1 ≤ i ∧ i + 1 ≤ n then f ^ 2 / z i else 0

/-- The width of level `i`: half the way to both neighbours, the whole way to the only neighbour at the ends. -/
noncomputable def Spec.barocW (n : ℕ) (p : ℕ → ℝ) (i : ℕ) : ℝ :=
  if i = 1 then p 2 - p 1 else if i = n then p n - p (n - 1) else (p (i + 1) - p (i - 1)) / 2

/-- Static stability between levels `i` and `i + 1` (times their distance): `-(theta' / (rho theta))`, with density and potential temperature of
level `i`. -/
noncomputable def Spec.stability (p T theta : ℕ → ℝ) (i : ℕ) : ℝ := (theta i - theta (i + 1)) / (p i / (287.04 * T i) * theta i)

/-- A column of air: pressure increases, temperature and potential temperature are positive, potential temperature decreases with pressure. -/
structure Spec.Column (n : ℕ) (p T theta : ℕ → ℝ) : Prop where
  pos : ∀ i, 1 ≤ i → i ≤ n → 0 < p i ∧ 0 < T i ∧ 0 < theta i
  inc : ∀ i, 1 ≤ i → i + 1 ≤ n → p i < p (i + 1)
  stable : ∀ i, 1 ≤ i → i + 1 ≤ n → theta (i + 1) < theta i

/-- The gradient of potential vorticity: `beta - (f² / N² U')'`. -/
noncomputable def Spec.barocQ (n : ℕ) (f beta : ℝ) (p T theta U : ℕ → ℝ) (i : ℕ) : ℝ :=
  beta - lap (barocG n f (stability p T theta)) (barocW n p) U i

/-- The waves of wavenumber `k` in a column. -/
def Spec.BarocMode (n : ℕ) (f beta : ℝ) (p T theta U : ℕ → ℝ) (k : ℝ) (lam : ℂ) : Prop :=
  NormalMode n k (barocG n f (stability p T theta)) (barocW n p) U (barocQ n f beta p T theta U) lam

/-- The growth rate at wavenumber `k`: the greatest `Im lam`; zero at wavenumber zero, where there is no wave. -/
def Spec.BarocRate (n : ℕ) (f beta : ℝ) (p T theta U : ℕ → ℝ) (k r : ℝ) : Prop :=
  (k = 0 ∧ r = 0) ∨ (k ≠ 0 ∧ IsGreatest {x | ∃ lam, BarocMode n f beta p T theta U k lam ∧ x = lam.im} r)

/-! ### The kernel's coefficients -/

theorem dz2_eq (n : ℕ) (p : ℕ → ℝ) : dz2 n p = Spec.barocW n p := by
  funext i
  unfold dz2 Spec.barocW
  split
  · rfl
  · split
    · rfl
    · ring

theorem nz_eq (theta p T : ℕ → ℝ) : nz theta p T = Spec.stability p T theta := by
  funext i
  rw [nz, rho, gasConstantDry, Spec.stability, div_eq_mul_one_div (theta i - theta (i + 1))]
  ring

theorem barocG_mid {n i : ℕ} (h1 : 1 ≤ i) (h2 : i + 1 ≤ n) (f : ℝ) (z : ℕ → ℝ) : Spec.barocG n f z i = f ^ 2 / z i := if_pos ⟨h1, h2⟩

theorem barocG_out {n i : ℕ} (h : ¬ (1 ≤ i ∧ i + 1 ≤ n)) (f : ℝ) (z : ℕ → ℝ) : Spec.barocG n f z i = 0 := if_neg h

theorem baroc_coeffs {n : ℕ} (hn : 3 ≤ n) (f beta : ℝ) (w z u : ℕ → ℝ) : Coeffs n (Spec.barocG n f z) w u
    (fun i => beta - Spec.lap (Spec.barocG n f z) w u i)
    (barocADiag n u w z (f * f) beta) (barocALower u w z (f * f)) (barocAUpper u w z (f * f)) (barocBDiag n w z (f * f)) (barocBLower w z (f * f))
    (barocBUpper w z (f * f)) where
  aD i h1 h2 := by
    rw [Spec.lap, smul_eq_mul, smul_eq_mul, smul_eq_mul]
    by_cases e1 : i = 1
    · subst e1
      rw [barocG_mid le_rfl (by omega), barocG_out (i := 1 - 1) (by omega), barocADiag, if_pos rfl]
      ring
    · by_cases e2 : i = n
      · subst e2
        rw [barocG_out (i := i) (by omega), barocG_mid (i := i - 1) (by omega) (by omega), barocADiag, if_neg e1, if_pos rfl]
        ring
      · rw [barocG_mid h1 (by omega), barocG_mid (i := i - 1) (by omega) (by omega), barocADiag, if_neg e1, if_neg e2]
        ring
  aL i h1 h2 := by
    rw [barocALower, show i - 1 + 1 = i by omega, barocG_mid (i := i - 1) (by omega) (by omega)]
    ring
  aU i h1 h2 := by
    rw [barocAUpper, barocG_mid h1 h2]
    ring
  bD i h1 h2 := by
    rw [barocBDiag]
    by_cases e1 : i = 1
    · subst e1
      rw [barocG_mid le_rfl (by omega), barocG_out (i := 1 - 1) (by omega), if_pos rfl]
      ring
    · by_cases e2 : i = n
      · subst e2
        rw [barocG_out (i := i) (by omega), barocG_mid (i := i - 1) (by omega) (by omega), if_neg e1, if_pos rfl]
        ring
      · rw [barocG_mid h1 (by omega), barocG_mid (i := i - 1) (by omega) (by omega), if_neg e1, if_neg e2]
        ring
  bL i h1 h2 := by
    rw [barocBLower, show i - 1 + 1 = i by omega, barocG_mid (i := i - 1) (by omega) (by omega)]
    ring
  bU i h1 h2 := by
    rw [barocBUpper, barocG_mid h1 h2]
    ring

/-! ### Positivity -/

theorem barocW_pos {n : ℕ} (hn : 3 ≤ n) {p : ℕ → ℝ} (h : ∀ i, 1 ≤ i → i + 1 ≤ n → p i < p (i + 1)) {i : ℕ} (h1 : 1 ≤ i) (h2 : i ≤ n) :
    0 < Spec.barocW n p i := by
  unfold Spec.barocW
  split
  · have := h 1 le_rfl (by omega); linarith
  · split
    · have := h (n - 1) (by omega) (by omega)
      rw [show n - 1 + 1 = n by omega] at this
      linarith
    · have a := h i h1 (by omega)
      have b := h (i - 1) (by omega) (by omega)
      rw [show i - 1 + 1 = i by omega] at b
      linarith

theorem Spec.Column.stab_pos {n : ℕ} {p T theta : ℕ → ℝ} (h : Spec.Column n p T theta) {i : ℕ} (h1 : 1 ≤ i) (h2 : i + 1 ≤ n) :
    0 < Spec.stability p T theta i := by
  obtain ⟨a, b, c⟩ := h.pos i h1 (by omega)
  have := h.stable i h1 h2
  exact div_pos (by linarith) (by positivity)

theorem barocG_nonneg {n : ℕ} {f : ℝ} {p T theta : ℕ → ℝ} (h : Spec.Column n p T theta) (i : ℕ) :
    0 ≤ Spec.barocG n f (Spec.stability p T theta) i := by
  unfold Spec.barocG
  split
  · rename_i hi
    exact div_nonneg (sq_nonneg _) (h.stab_pos hi.1 hi.2).le
  · exact le_rfl

/-! ### The spectrum -/

theorem rate_unique {n : ℕ} {f beta : ℝ} {p T theta U : ℕ → ℝ} {k r r' : ℝ} (h : Spec.BarocRate n f beta p T theta U k r)
    (h' : Spec.BarocRate n f beta p T theta U k r') : r = r' := by
  rcases h with ⟨hk, h⟩ | ⟨hk, h⟩ <;> rcases h' with ⟨hk', h'⟩ | ⟨hk', h'⟩
  · rw [h, h']
  · exact absurd hk hk'
  · exact absurd hk' hk
  · exact h.unique h'

theorem baroc_sample {qz : Solver} (hq : Spec.Exact qz) {n : ℕ} (hn : 3 ≤ n) {p T theta : ℕ → ℝ} (h : Spec.Column n p T theta) (u : ℕ → ℝ) {f : ℝ}
    (hf : f ≠ 0) (beta factor : ℝ) (i : ℕ) : ∃ r, barocSpectrum qz n u (dz2 n p) (nz theta p T) f beta factor i = some r ∧
      Spec.BarocRate n f beta p T theta u (((i : ℝ) - 1) * factor) r := by
  rw [dz2_eq, nz_eq, barocSpectrum]
  set k := ((i : ℝ) - 1) * factor
  have c := baroc_coeffs hn f beta (Spec.barocW n p) (Spec.stability p T theta) u
  by_cases hk : k = 0
  · refine ⟨0, ?_, Or.inl ⟨hk, rfl⟩⟩
    rw [hk]
    refine maxImag_zero hq (fun i j _ _ _ _ => ?_) ⟨1, ⟨le_rfl, by omega⟩, ?_⟩
    · simp [aMat, tri]
    · rw [bMat, tri, if_pos rfl, c.bD 1 le_rfl (by omega), barocG_mid le_rfl (by omega), barocG_out (i := 1 - 1) (by omega)]
      have h1 := h.stab_pos (i := 1) le_rfl (by omega)
      have h2 := barocW_pos hn h.inc (i := 1) le_rfl (by omega)
      have : 0 < (f ^ 2 / Spec.stability p T theta 1) / Spec.barocW n p 1 := div_pos (div_pos (by positivity) h1) h2
      rw [mul_zero, sub_zero, add_zero, neg_div]
      linarith
  · obtain ⟨m, e, hm⟩ := maxImag_spec hq (by omega) (A := aMat k (barocADiag n u (Spec.barocW n p) (Spec.stability p T theta) (f * f) beta)
      (barocALower u (Spec.barocW n p) (Spec.stability p T theta) (f * f)) (barocAUpper u (Spec.barocW n p) (Spec.stability p T theta) (f * f)) u)
      (c.injective (k := k) (fun i h1 h2 => barocW_pos hn h.inc h1 h2) (fun i _ => barocG_nonneg h i) (Or.inl hk))
    refine ⟨m, e, Or.inr ⟨hk, ?_⟩⟩
    simp only [c.mode] at hm
    exact hm

theorem rate_nonneg {n : ℕ} {f beta : ℝ} {p T theta U : ℕ → ℝ} {k r : ℝ} (h : Spec.BarocRate n f beta p T theta U k r) : 0 ≤ r := by
  rcases h with ⟨-, rfl⟩ | ⟨-, ⟨⟨lam, ⟨psi, ⟨h0, hn⟩, ⟨j, j1, j2, hj⟩, h⟩, rfl⟩, hub⟩⟩
  · exact le_rfl
  · have hc : Spec.BarocMode n f beta p T theta U k ((starRingEnd ℂ) lam) := by
      refine ⟨fun i => (starRingEnd ℂ) (psi i), ⟨by simp [h0], by simp [hn]⟩, ⟨j, j1, j2, by simpa using hj⟩, fun i h1 h2 => ?_⟩
      have e : ∀ g w, Spec.lap g w (fun i => (starRingEnd ℂ) (psi i)) i = (starRingEnd ℂ) (Spec.lap g w psi i) := fun g w => by
        simp only [Spec.lap, Complex.real_smul, map_mul, map_sub, Complex.conj_ofReal]
      have := congrArg (starRingEnd ℂ) (h i h1 h2)
      simp only [map_mul, map_sub, map_add, map_pow, Complex.conj_ofReal] at this
      rw [e]
      exact this
    have := hub ⟨_, hc, rfl⟩
    rw [Complex.conj_im] at this
    linarith

/-- If the gradient of potential vorticity has one sign every sample is zero. -/
theorem rate_stable {n : ℕ} (hn : 3 ≤ n) {f beta : ℝ} {p T theta U : ℕ → ℝ} (hc : Spec.Column n p T theta)
    (hQ : (∀ i, 1 ≤ i → i ≤ n → 0 ≤ Spec.barocQ n f beta p T theta U i) ∨ ∀ i, 1 ≤ i → i ≤ n → Spec.barocQ n f beta p T theta U i ≤ 0)
    {k r : ℝ} (h : Spec.BarocRate n f beta p T theta U k r) : r = 0 := by
  rcases h with ⟨-, rfl⟩ | ⟨hk, ⟨lam, hl, rfl⟩, -⟩
  · rfl
  · exact no_growth (fun i h1 h2 => barocW_pos hn hc.inc h1 h2) (fun i _ => barocG_nonneg hc i) hk hQ hl

/-- Adding a constant to the wind changes no growth rate. -/
theorem rate_galilean {n : ℕ} {f beta : ℝ} {p T theta U : ℕ → ℝ} {k r : ℝ} (c : ℝ) (h : Spec.BarocRate n f beta p T theta U k r) :
    Spec.BarocRate n f beta p T theta (fun i => U i + c) k r := by
  have hQ : ∀ (V : ℕ → ℝ) (c : ℝ), Spec.barocQ n f beta p T theta (fun i => V i + c) = Spec.barocQ n f beta p T theta V := by
    intro V c
    funext i
    simp only [Spec.barocQ, Spec.lap, smul_eq_mul]
    ring
  rcases h with h | ⟨hk, ⟨lam, hl, e⟩, hub⟩
  · exact Or.inl h
  · refine Or.inr ⟨hk, ⟨lam + (k * c : ℝ), ?_, ?_⟩, ?_⟩
    · rw [Spec.BarocMode, hQ]
      exact galilean c hl
    · rw [e, Complex.add_im, Complex.ofReal_im, add_zero]
    · rintro x ⟨mu, hm, rfl⟩
      rw [Spec.BarocMode, hQ] at hm
      have := galilean (-c) hm
      simp only [add_neg_cancel_right] at this
      have := hub ⟨_, this, rfl⟩
      rwa [Complex.add_im, Complex.ofReal_im, add_zero] at this

/-! ### The final number -/

/-- Specification: the running mean of a spectrum over `window` neighbouring samples (fewer at the ends). -/
noncomputable def Spec.smooth (count window : ℕ) (s : ℕ → ℝ) (i : ℕ) : ℝ := (∑ j ∈ near count (window / 2) i, s j) / (near count (window / 2) i).card

/-- With a complete spectrum: status 300 if the smoothed spectrum never falls, else the greatest smoothed sample up to the one after the last fall. -/
theorem finalize_spec {count window : ℕ} (hw : window % 2 = 1) {g : ℕ → Option ℝ} {s : ℕ → ℝ} (hs : ∀ i, 1 ≤ i → i ≤ count → g i = some (s i)) :
    ((∀ i, 1 ≤ i → i + 1 ≤ count → Spec.smooth count window s i ≤ Spec.smooth count window s (i + 1)) → finalizeBaroc count g window = .error 300) ∧
    ∀ t, 1 ≤ t → t + 1 ≤ count → Spec.smooth count window s (t + 1) < Spec.smooth count window s t →
      (∀ i, t < i → i + 1 ≤ count → Spec.smooth count window s i ≤ Spec.smooth count window s (i + 1)) →
      ∃ v, finalizeBaroc count g window = .ok v ∧ IsGreatest {x | ∃ i, 1 ≤ i ∧ i ≤ t + 1 ∧ x = Spec.smooth count window s i} v := by
  have hm : ∀ i, 1 ≤ i → i ≤ count → runningMean count g window i = some (Spec.smooth count window s i) := fun i h1 h2 => runningMean_eq hs hw h1 h2
  have hfall : ∀ i, 1 ≤ i → i + 1 ≤ count → (Spec.Falls (runningMean count g window) i ↔ Spec.smooth count window s (i + 1) < Spec.smooth count window s i) := by
    intro i h1 h2
    unfold Spec.Falls
    rw [hm i h1 (by omega), hm (i + 1) (by omega) h2]
    constructor
    · rintro ⟨a, b, ha, hb, hab⟩
      rwa [Option.some.inj ha, Option.some.inj hb]
    · intro h
      exact ⟨_, _, rfl, rfl, h⟩
  obtain ⟨h0, h1⟩ := lastTurn_spec count (runningMean count g window)
  constructor
  · intro hnd
    unfold finalizeBaroc
    dsimp only
    refine if_pos ?_
    by_contra hne
    obtain ⟨⟨a, b⟩, hf, -⟩ := h1 hne
    exact absurd ((hfall _ a b).mp hf) (not_lt.mpr (hnd _ a b))
  · intro t t1 t2 ht hlast
    have hne : lastTurn count (runningMean count g window) ≠ 0 := fun h => h0 h t t1 t2 ((hfall t t1 t2).mpr ht)
    obtain ⟨⟨a, b⟩, hf, hl⟩ := h1 hne
    have he : lastTurn count (runningMean count g window) = t := by
      rcases Nat.lt_trichotomy (lastTurn count (runningMean count g window)) t with h | h | h
      · exact absurd ((hfall t t1 t2).mpr ht) (hl t h t2)
      · exact h
      · exact absurd ((hfall _ a b).mp hf) (not_lt.mpr (hlast _ h b))
    unfold finalizeBaroc
    dsimp only
    rw [if_neg hne, he]
    obtain ⟨v, hv⟩ := peak_some (n := t + 1) (g := runningMean count g window) (i := 1) le_rfl (by omega) (hm 1 le_rfl (by omega))
    rw [hv]
    refine ⟨v, rfl, ?_⟩
    obtain ⟨⟨i, i1, i2, hi⟩, hub⟩ := (peak_spec _ _).1 v hv
    refine ⟨⟨i, i1, i2, ?_⟩, ?_⟩
    · rw [hm i i1 (by omega)] at hi
      exact (Option.some.inj hi).symm
    · rintro x ⟨j, j1, j2, rfl⟩
      exact hub ⟨j, j1, j2, hm j j1 (by omega)⟩

/-- The checks of the kernel pass. -/
theorem dbaroc_run {qz : Solver} {n : ℕ} (hn : 3 ≤ n) {p T theta : ℕ → ℝ} (h : Spec.Column n p T theta) (u : ℕ → ℝ) (f beta : ℝ)
    {window mode count : ℕ} {len : ℝ} (hw : 1 ≤ window) (hc : 2 ≤ count) (hmode : mode = 1 ∨ (mode = 2 ∧ 0 < len)) :
    dbaroc qz n u theta p T f beta window mode count len =
      Ret.of (finalizeBaroc count (barocSpectrum qz n u (dz2 n p) (nz theta p T) f beta (waveFactor mode len)) window) := by
  unfold dbaroc
  rw [if_neg (by omega), if_neg (by omega), if_neg (by omega), if_neg (by omega), if_neg (by
    rintro ⟨a, b⟩
    rcases hmode with h | h
    · omega
    · linarith [h.2])]
  dsimp only
  rw [if_neg]
  rintro (⟨i, h1, h2, hz | hz⟩ | ⟨i, h1, h2, hz | hz⟩)
  · rw [dz2_eq] at hz
    exact (barocW_pos hn h.inc h1 h2).ne' hz
  · exact (h.pos i h1 h2).2.1.ne' hz
  · obtain ⟨a, b, c⟩ := h.pos i h1 (by omega)
    rw [rho, gasConstantDry] at hz
    have : 0 < p i / (287.04 * T i) * theta i := by positivity
    exact this.ne' hz
  · rw [nz_eq] at hz
    exact (h.stab_pos h1 (by omega)).ne' hz

end Skyborn.Growth
