/-
The barotropic kernel: the problem it solves, and what it returns.
-/
import Verif.Growth.Ops
import Verif.Growth.Spectrum

namespace Skyborn.Growth

/-! ### Specification -/

/-- Metres along the meridian at latitude `i`. -/
noncomputable def Spec.metres (lat : ℕ → ℝ) (i : ℕ) : ℝ := 6.371e6 * (lat i * (Real.pi / 180))

/-- The distance the kernel uses between latitudes `i` and `i + 1`: along the meridian, times the cosine of the middle latitude. -/
noncomputable def Spec.step (lat : ℕ → ℝ) (i : ℕ) : ℝ :=
  (metres lat (i + 1) - metres lat i) * Real.cos ((lat i + lat (i + 1)) / 2 * (Real.pi / 180))

/-- One over the distance to the next latitude; the first and the last step are repeated beyond the ends. -/
noncomputable def Spec.barotG (n : ℕ) (lat : ℕ → ℝ) (i : ℕ) : ℝ := 1 / step lat (max 1 (min i (n - 1)))

/-- The width belonging to latitude `i`: half the way to both neighbours, one step at the ends. -/
noncomputable def Spec.barotW (n : ℕ) (lat : ℕ → ℝ) (i : ℕ) : ℝ :=
  if i = 1 then step lat 1 else if i = n then step lat (n - 1) else (metres lat (i + 1) - metres lat (i - 1)) / 2

/-- A profile continued by zeros. -/
noncomputable def Spec.inside (n : ℕ) (U : ℕ → ℝ) (i : ℕ) : ℝ := if 1 ≤ i ∧ i ≤ n then U i else 0

/-- The meridional gradient of absolute vorticity: `beta - U''`. -/
noncomputable def Spec.barotQ (n : ℕ) (lat U : ℕ → ℝ) (i : ℕ) : ℝ :=
  2 * 7.292e-5 * Real.cos (lat i * (Real.pi / 180)) / 6.371e6 - lap (barotG n lat) (barotW n lat) (inside n U) i

/-- The growing or neutral waves of wavenumber `k` on the profile. -/
def Spec.BarotMode (n : ℕ) (lat U : ℕ → ℝ) (k : ℝ) (lam : ℂ) : Prop :=
  NormalMode n k (barotG n lat) (barotW n lat) U (barotQ n lat U) lam

/-- Latitudes from south to north, pole to pole at most. -/
structure Spec.Northward (n : ℕ) (lat : ℕ → ℝ) : Prop where
  inc : ∀ i, 1 ≤ i → i + 1 ≤ n → lat i < lat (i + 1)
  south : -90 ≤ lat 1
  north : lat n ≤ 90

/-! ### The kernel's coefficients -/

theorem dy_eq (lat : ℕ → ℝ) (i : ℕ) : dy lat i = Spec.step lat i := by
  simp only [dy, Spec.step, yOf, Spec.metres, deg, radius]
  congr 1
  · ring
  · congr 1; ring

theorem dy2_eq (lat : ℕ → ℝ) {i : ℕ} (h : 2 ≤ i) : dy2 lat (i - 1) = (Spec.metres lat (i + 1) - Spec.metres lat (i - 1)) / 2 := by
  simp only [dy2, dy1, yOf, Spec.metres, deg, radius, show i - 1 + 1 = i by omega]
  ring

theorem beta_eq (lat : ℕ → ℝ) (i : ℕ) : betaArr lat i = 2 * 7.292e-5 * Real.cos (lat i * (Real.pi / 180)) / 6.371e6 := by
  rw [betaArr, omega, radius, deg, mul_comm (Real.pi / 180)]

theorem barotG_zero {n : ℕ} {lat : ℕ → ℝ} : Spec.barotG n lat 0 = 1 / dy lat 1 := by
  rw [Spec.barotG, dy_eq, show max 1 (min 0 (n - 1)) = 1 by omega]

theorem barotG_mid {n : ℕ} {lat : ℕ → ℝ} {i : ℕ} (h1 : 1 ≤ i) (h2 : i + 1 ≤ n) : Spec.barotG n lat i = 1 / dy lat i := by
  rw [Spec.barotG, dy_eq, show max 1 (min i (n - 1)) = i by omega]

theorem barotG_last {n : ℕ} (hn : 3 ≤ n) {lat : ℕ → ℝ} : Spec.barotG n lat n = 1 / dy lat (n - 1) := by
  rw [Spec.barotG, dy_eq, show max 1 (min n (n - 1)) = n - 1 by omega]

theorem barotW_one {n : ℕ} {lat : ℕ → ℝ} : Spec.barotW n lat 1 = dy lat 1 := by rw [Spec.barotW, if_pos rfl, dy_eq]

theorem barotW_last {n : ℕ} (hn : 3 ≤ n) {lat : ℕ → ℝ} : Spec.barotW n lat n = dy lat (n - 1) := by
  rw [Spec.barotW, if_neg (by omega), if_pos rfl, dy_eq]

theorem barotW_mid {n : ℕ} {lat : ℕ → ℝ} {i : ℕ} (h1 : 2 ≤ i) (h2 : i + 1 ≤ n) : Spec.barotW n lat i = dy2 lat (i - 1) := by
  rw [Spec.barotW, if_neg (by omega), if_neg (by omega), dy2_eq lat h1]

theorem barot_coeffs {n : ℕ} (hn : 3 ≤ n) (lat u : ℕ → ℝ) : Coeffs n (Spec.barotG n lat) (Spec.barotW n lat) u (Spec.barotQ n lat u)
    (barotADiag n lat u) (barotALower n lat u) (barotAUpper lat u) (barotBDiag n lat) (barotBLower n lat) (barotBUpper lat) where
  aD i h1 h2 := by
    have hin : ∀ j, 1 ≤ j → j ≤ n → Spec.inside n u j = u j := fun j a b => if_pos ⟨a, b⟩
    rw [Spec.barotQ, ← beta_eq, Spec.lap, smul_eq_mul, smul_eq_mul, smul_eq_mul]
    by_cases e1 : i = 1
    · subst e1
      rw [hin 1 (by omega) h2, hin (1 + 1) (by omega) (by omega), show Spec.inside n u (1 - 1) = 0 from if_neg (by omega), barotG_zero,
        barotG_mid le_rfl (by omega), barotW_one, barotADiag, if_pos rfl]
      ring
    · by_cases e2 : i = n
      · subst e2
        rw [hin i (by omega) le_rfl, hin (i - 1) (by omega) (by omega), show Spec.inside i u (i + 1) = 0 from if_neg (by omega), barotG_last hn,
          barotG_mid (i := i - 1) (by omega) (by omega), barotW_last hn, barotADiag, if_neg e1, if_pos rfl]
        ring
      · rw [hin i (by omega) h2, hin (i - 1) (by omega) (by omega), hin (i + 1) (by omega) (by omega), barotG_mid h1 (by omega),
          barotG_mid (i := i - 1) (by omega) (by omega), barotW_mid (by omega) (by omega), barotADiag, if_neg e1, if_neg e2]
        ring
  aL i h1 h2 := by
    rw [barotALower, show i - 1 + 1 = i by omega, barotG_mid (i := i - 1) (by omega) (by omega)]
    by_cases e2 : i = n
    · subst e2; rw [if_pos rfl, barotW_last hn]; ring
    · rw [if_neg e2, barotW_mid h1 (by omega)]; ring
  aU i h1 h2 := by
    rw [barotAUpper, barotG_mid h1 h2]
    by_cases e1 : i = 1
    · subst e1; rw [if_pos rfl, barotW_one]; ring
    · rw [if_neg e1, barotW_mid (by omega) h2]; ring
  bD i h1 h2 := by
    rw [barotBDiag]
    by_cases e1 : i = 1
    · subst e1
      rw [barotG_zero, barotG_mid le_rfl (by omega), barotW_one, if_pos rfl]
      ring
    · by_cases e2 : i = n
      · subst e2
        rw [barotG_last hn, barotG_mid (i := i - 1) (by omega) (by omega), barotW_last hn, if_neg e1, if_pos rfl]
        ring
      · rw [barotG_mid h1 (by omega), barotG_mid (i := i - 1) (by omega) (by omega), barotW_mid (by omega) (by omega), if_neg e1, if_neg e2]
        ring
  bL i h1 h2 := by
    rw [barotBLower, show i - 1 + 1 = i by omega, barotG_mid (i := i - 1) (by omega) (by omega)]
    by_cases e2 : i = n
    · subst e2; rw [if_pos rfl, barotW_last hn]; ring
    · rw [if_neg e2, barotW_mid h1 (by omega)]; ring
  bU i h1 h2 := by
    rw [barotBUpper, barotG_mid h1 h2]
    by_cases e1 : i = 1
    · subst e1; rw [if_pos rfl, barotW_one]; ring
    · rw [if_neg e1, barotW_mid (by omega) h2]; ring

/-! ### Positivity -/

theorem Spec.Northward.mono {n : ℕ} {lat : ℕ → ℝ} (h : Spec.Northward n lat) {i j : ℕ} (hi : 1 ≤ i) (hij : i ≤ j) (hj : j ≤ n) : lat i ≤ lat j := by
  induction j with
  | zero => omega
  | succ m ih =>
    by_cases e : i = m + 1
    · rw [e]
    · exact (ih (by omega) (by omega)).trans (h.inc m (by omega) hj).le

theorem step_pos {n : ℕ} {lat : ℕ → ℝ} (h : Spec.Northward n lat) {i : ℕ} (h1 : 1 ≤ i) (h2 : i + 1 ≤ n) : 0 < Spec.step lat i := by
  have a := h.inc i h1 h2
  have b := h.mono le_rfl h1 (by omega : i ≤ n)
  have c := h.mono (i := i + 1) (by omega) h2 le_rfl
  have d := h.south
  have e := h.north
  have hp := Real.pi_pos
  rw [Spec.step]
  refine mul_pos ?_ (Real.cos_pos_of_mem_Ioo ⟨?_, ?_⟩)
  · rw [Spec.metres, Spec.metres, sub_pos]
    have : lat i * (Real.pi / 180) < lat (i + 1) * (Real.pi / 180) := mul_lt_mul_of_pos_right a (by positivity)
    linarith [mul_lt_mul_of_pos_left this (by norm_num : (0 : ℝ) < 6.371e6)]
  · have : -90 * (Real.pi / 180) < (lat i + lat (i + 1)) / 2 * (Real.pi / 180) := mul_lt_mul_of_pos_right (by linarith) (by positivity)
    linarith
  · have : (lat i + lat (i + 1)) / 2 * (Real.pi / 180) < 90 * (Real.pi / 180) := mul_lt_mul_of_pos_right (by linarith) (by positivity)
    linarith

theorem barotG_pos {n : ℕ} (hn : 3 ≤ n) {lat : ℕ → ℝ} (h : Spec.Northward n lat) (i : ℕ) : 0 < Spec.barotG n lat i :=
  one_div_pos.mpr (step_pos h (by omega) (by omega))

theorem barotW_pos {n : ℕ} (hn : 3 ≤ n) {lat : ℕ → ℝ} (h : Spec.Northward n lat) {i : ℕ} (h1 : 1 ≤ i) (h2 : i ≤ n) : 0 < Spec.barotW n lat i := by
  rw [Spec.barotW]
  split
  · exact step_pos h le_rfl (by omega)
  · split
    · exact step_pos h (by omega) (by omega)
    · have a := h.inc i h1 (by omega)
      have b := h.inc (i - 1) (by omega) (by omega)
      rw [show i - 1 + 1 = i by omega] at b
      have hp := Real.pi_pos
      have : lat (i - 1) * (Real.pi / 180) < lat (i + 1) * (Real.pi / 180) := mul_lt_mul_of_pos_right (b.trans a) (by positivity)
      have := mul_lt_mul_of_pos_left this (by norm_num : (0 : ℝ) < 6.371e6)
      rw [Spec.metres, Spec.metres]
      linarith

/-! ### The kernel's result -/

/-- The growth rates over all sampled wavenumbers `0, 1e-7, .., 199e-7` per metre. -/
def Spec.BarotRates (n : ℕ) (lat U : ℕ → ℝ) : Set ℝ := {x | ∃ k : ℕ, k < 200 ∧ ∃ lam, BarotMode n lat U (k * 1e-7) lam ∧ x = lam.im}

theorem barot_sample {qz : Solver} (hq : Spec.Exact qz) {n : ℕ} (hn : 3 ≤ n) {lat : ℕ → ℝ} (h : Spec.Northward n lat) (u : ℕ → ℝ) (k : ℕ) :
    ∃ m, barotSpectrum qz n lat u (k + 1) = some m ∧ IsGreatest {x | ∃ lam, Spec.BarotMode n lat u (k * 1e-7) lam ∧ x = lam.im} m := by
  have hinj := (barot_coeffs hn lat u).injective (k := (((k + 1 : ℕ) : ℝ) - 1) * wavenumberStep) (fun i h1 h2 => barotW_pos hn h h1 h2)
    (fun i _ => (barotG_pos hn h i).le) (Or.inr fun i _ => barotG_pos hn h i)
  obtain ⟨m, e, hm⟩ := maxImag_spec hq (by omega) (A := aMat ((((k + 1 : ℕ) : ℝ) - 1) * wavenumberStep) (barotADiag n lat u) (barotALower n lat u)
    (barotAUpper lat u) u) hinj
  refine ⟨m, e, ?_⟩
  have hk : (((k + 1 : ℕ) : ℝ) - 1) * wavenumberStep = k * 1e-7 := by rw [wavenumberStep]; push_cast; ring
  simp only [(barot_coeffs hn lat u).mode, hk] at hm
  exact hm

/-- The kernel returns the greatest growth rate. -/
theorem dbarot_value {qz : Solver} (hq : Spec.Exact qz) {n : ℕ} (hn : 3 ≤ n) {lat : ℕ → ℝ} (h : Spec.Northward n lat) (u : ℕ → ℝ) :
    ∃ v, dbarot qz n lat u = .value v ∧ IsGreatest (Spec.BarotRates n lat u) v := by
  rw [dbarot, if_neg (by omega), if_neg (by
    rintro (⟨i, h1, h2, hi⟩ | ⟨i, h1, h2, hi⟩)
    · rw [dy_eq] at hi
      exact (step_pos h h1 (by omega)).ne' hi
    · have := barotW_pos hn h (i := i + 1) (by omega) (by omega)
      rw [barotW_mid (by omega) (by omega), show i + 1 - 1 = i by omega, hi] at this
      exact lt_irrefl _ this)]
  obtain ⟨m1, e1, -⟩ := barot_sample hq hn h u 0
  obtain ⟨v, hv⟩ := peak_some (n := nwavenumbers) (g := barotSpectrum qz n lat u) (i := 1) le_rfl (by simp [nwavenumbers]) e1
  refine ⟨v, by rw [finalizeBarot, hv]; rfl, ?_⟩
  obtain ⟨⟨i, i1, i2, hi⟩, hub⟩ := (peak_spec _ _).1 v hv
  constructor
  · obtain ⟨m, e, hm⟩ := barot_sample hq hn h u (i - 1)
    rw [show i - 1 + 1 = i by omega, hi] at e
    obtain rfl := Option.some.inj e
    obtain ⟨lam, hl, e⟩ := hm.1
    exact ⟨i - 1, by simp [nwavenumbers] at i2; omega, lam, hl, e⟩
  · rintro x ⟨k, hk, lam, hl, rfl⟩
    obtain ⟨m, e, hm⟩ := barot_sample hq hn h u k
    exact (hm.2 ⟨lam, hl, rfl⟩).trans (hub ⟨k + 1, by omega, by simp [nwavenumbers]; omega, e⟩)

end Skyborn.Growth
