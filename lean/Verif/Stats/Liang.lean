/- C113-C115: `liang` / `liang_causality`. -/
import Verif.Stats.Model
import Verif.Stats.Spec
import Mathlib.Tactic.NormNum
import Mathlib.Tactic.LinearCombination

namespace Skyborn.Stats
open scoped BigOperators Classical
open Spec

/-- Forward difference quotient over `npt` steps. -/
noncomputable def Spec.diffQuot (npt : ℕ) (y : ℕ → ℝ) (t : ℕ) : ℝ := (y (t + npt) - y t) / npt

/-- Sum of squared residuals of the tendency `g` of series 1 against the plane `f + a y1 + b y2`. -/
noncomputable def Spec.sse2 (N : ℕ) (g y1 y2 : ℕ → ℝ) (f a b : ℝ) : ℝ := ∑ t ∈ Finset.range N, (g t - (f + a * y1 t + b * y2 t)) ^ 2

theorem mean_eq (n : ℕ) (x : ℕ → ℝ) : mean n x = avg (Finset.range n) x := by unfold mean avg; rw [Finset.card_range]

theorem covar_eq (n : ℕ) (x y : ℕ → ℝ) : covar n x y = cov (Finset.range n) x y / ((n : ℝ) - 1) := by
  unfold covar cov; simp only [mean_eq]

/-- The coefficients computed by the code solve the normal equations, hence minimise the squared residuals. -/
theorem plane_min {N : ℕ} (hN : 0 < N) {g y1 y2 : ℕ → ℝ} {a b : ℝ}
    (h1 : cov (Finset.range N) y1 g = a * cov (Finset.range N) y1 y1 + b * cov (Finset.range N) y1 y2)
    (h2 : cov (Finset.range N) y2 g = a * cov (Finset.range N) y2 y1 + b * cov (Finset.range N) y2 y2) (f' a' b' : ℝ) :
    sse2 N g y1 y2 (avg (Finset.range N) g - a * avg (Finset.range N) y1 - b * avg (Finset.range N) y2) a b ≤ sse2 N g y1 y2 f' a' b' := by
  set V := Finset.range N
  have hV : V.Nonempty := ⟨0, Finset.mem_range.mpr hN⟩
  set c := avg V g - a' * avg V y1 - b' * avg V y2 - f' with hc
  have key : sse2 N g y1 y2 f' a' b' = sse2 N g y1 y2 (avg V g - a * avg V y1 - b * avg V y2) a b +
      ∑ t ∈ V, ((a - a') * (y1 t - avg V y1) + (b - b') * (y2 t - avg V y2) + c) ^ 2 +
      2 * (a - a') * (cov V y1 g - (a * cov V y1 y1 + b * cov V y1 y2)) + 2 * (b - b') * (cov V y2 g - (a * cov V y2 y1 + b * cov V y2 y2)) +
      2 * c * (∑ t ∈ V, (g t - avg V g) - a * ∑ t ∈ V, (y1 t - avg V y1) - b * ∑ t ∈ V, (y2 t - avg V y2)) := by
    unfold sse2 cov
    simp only [show Finset.range N = V from rfl, Finset.mul_sum, ← Finset.sum_add_distrib, ← Finset.sum_sub_distrib]
    refine Finset.sum_congr rfl fun t _ => ?_
    rw [hc]; ring
  rw [key, sum_dev hV, sum_dev hV, sum_dev hV, h1, h2]
  have : 0 ≤ ∑ t ∈ V, ((a - a') * (y1 t - avg V y1) + (b - b') * (y2 t - avg V y2) + c) ^ 2 := Finset.sum_nonneg fun t _ => sq_nonneg _
  linarith

/-- Everything a successful call computes. -/
theorem liang_facts {n1 n2 npt : ℕ} {y1 y2 : ℕ → ℝ} {F : Flow} (e : liang n1 y1 n2 y2 npt = .ok F) :
    0 < npt ∧ n1 = n2 ∧ npt + 2 ≤ n1 ∧ ∃ f a b S, (0 < cov (Finset.range (n1 - npt)) y1 y1) ∧
      (0 < cov (Finset.range (n1 - npt)) y1 y1 * cov (Finset.range (n1 - npt)) y2 y2 - cov (Finset.range (n1 - npt)) y1 y2 ^ 2) ∧
      (f = avg (Finset.range (n1 - npt)) (diffQuot npt y1) - a * avg (Finset.range (n1 - npt)) y1 - b * avg (Finset.range (n1 - npt)) y2) ∧
      (cov (Finset.range (n1 - npt)) y1 (diffQuot npt y1) = a * cov (Finset.range (n1 - npt)) y1 y1 + b * cov (Finset.range (n1 - npt)) y1 y2) ∧
      (cov (Finset.range (n1 - npt)) y2 (diffQuot npt y1) = a * cov (Finset.range (n1 - npt)) y2 y1 + b * cov (Finset.range (n1 - npt)) y2 y2) ∧
      S = sse2 (n1 - npt) (diffQuot npt y1) y1 y2 f a b ∧ 0 < S ∧
      F.T21 = cov (Finset.range (n1 - npt)) y1 y2 / cov (Finset.range (n1 - npt)) y1 y1 * b ∧
      F.Z = |F.T21| + |a| + S / ((n1 - npt : ℕ) : ℝ) / (2 * (cov (Finset.range (n1 - npt)) y1 y1 / (((n1 - npt : ℕ) : ℝ) - 1))) ∧
      F.tau21 = F.T21 / F.Z ∧ F.dH1star = a / F.Z ∧
      F.dH1noise = S / ((n1 - npt : ℕ) : ℝ) / (2 * (cov (Finset.range (n1 - npt)) y1 y1 / (((n1 - npt : ℕ) : ℝ) - 1))) / F.Z := by
  unfold liang at e
  by_cases h0 : npt = 0 ∨ n1 ≠ n2
  · rw [if_pos h0] at e; simp at e
  rw [if_neg h0] at e
  push Not at h0
  obtain ⟨hnpt, h12⟩ := h0
  dsimp only at e
  simp only [mean_eq, covar_eq] at e
  set N := n1 - npt with hN
  set V := Finset.range N with hV
  set g : ℕ → ℝ := diffQuot npt y1 with hg
  have hg' : (fun t => (y1 (t + npt) - y1 t) / (npt : ℝ)) = g := rfl
  simp only [hg', show ∀ t, (y1 (t + npt) - y1 t) / (npt : ℝ) = g t from fun _ => rfl] at e
  rw [cov_comm (x := y2) (y := y1)] at e
  set A := cov V y1 y1 with hA
  set B := cov V y1 y2 with hB
  set D := cov V y2 y2 with hD
  set P := cov V y1 g with hP
  set Q := cov V y2 g with hQ
  set q : ℝ := (N : ℝ) - 1 with hq
  set a := (D / q * (P / q) - B / q * (Q / q)) / (A / q * (D / q) - B / q * (B / q)) with ha
  set b := (-(B / q) * (P / q) + A / q * (Q / q)) / (A / q * (D / q) - B / q * (B / q)) with hb
  set f := avg V g - a * avg V y1 - b * avg V y2 with hf
  set S := sse2 N g y1 y2 f a b with hS
  have hS' : ∑ t ∈ V, (g t - (f + a * y1 t + b * y2 t)) * (g t - (f + a * y1 t + b * y2 t)) = S := by
    rw [hS]; unfold sse2; exact Finset.sum_congr rfl fun t _ => by ring
  rw [hS'] at e
  by_cases h1 : N ≤ 1 ∨ A / q * (D / q) - B / q * (B / q) = 0 ∨ Real.sqrt (S * 1 / N) = 0
  · rw [if_pos h1] at e; simp at e
  rw [if_neg h1] at e
  push Not at h1
  obtain ⟨hN1, hdet, hb1⟩ := h1
  have hqpos : 0 < q := by
    have : (1 : ℝ) < N := by exact_mod_cast hN1
    rw [hq]; linarith
  have hNpos : (0 : ℝ) < N := by
    have : 0 < N := by omega
    exact_mod_cast this
  have hSn : 0 ≤ S := by rw [hS]; exact Finset.sum_nonneg fun t _ => sq_nonneg _
  have hSp : 0 < S := by
    rcases hSn.lt_or_eq with h | h
    · exact h
    · rw [← h] at hb1; simp at hb1
  have hdet' : A * D - B ^ 2 ≠ 0 := by
    intro h
    apply hdet
    have : A / q * (D / q) - B / q * (B / q) = (A * D - B ^ 2) / q ^ 2 := by field_simp
    rw [this, h, zero_div]
  have hdp : 0 < A * D - B ^ 2 := lt_of_le_of_ne (by have := cov_sq_le (V := V) (x := y1) (y := y2); linarith) (Ne.symm hdet')
  have hAp : 0 < A := by
    rcases (cov_self_nonneg (V := V) (x := y1)).lt_or_eq with h | h
    · exact h
    · exfalso
      have h' : A = 0 := h.symm
      rw [h'] at hdp
      nlinarith [sq_nonneg B]
  have ea : a = (D * P - B * Q) / (A * D - B ^ 2) := by rw [ha]; field_simp
  have eb : b = (A * Q - B * P) / (A * D - B ^ 2) := by rw [hb]; field_simp; ring
  have hsq : Real.sqrt (S * 1 / N) ^ 2 = S / N := by rw [mul_one]; exact Real.sq_sqrt (div_nonneg hSn hNpos.le)
  rw [hsq] at e
  have hnoise : 0 < S / N / (2 * (A / q)) := by positivity
  have eT : B / q / (A / q) * (-(B / q) * (P / q) + A / q * (Q / q)) / (A / q * (D / q) - B / q * (B / q)) = B / A * b := by
    rw [hb]; field_simp
  rw [eT, abs_of_pos hnoise] at e
  simp only [Except.ok.injEq] at e
  subst e
  refine ⟨by omega, h12, by omega, f, a, b, S, hAp, hdp, rfl, ?_, ?_, rfl, hSp, rfl, rfl, rfl, rfl, rfl⟩
  · rw [ea, eb, div_mul_eq_mul_div, div_mul_eq_mul_div, ← add_div, eq_div_iff hdet']; ring
  · rw [cov_comm (x := y2) (y := y1), ← hB, ea, eb, div_mul_eq_mul_div, div_mul_eq_mul_div, ← add_div, eq_div_iff hdet']; ring

/-- C113: the normalised parts returned add up to one in absolute value, the noise part is positive, and `tau21` is the share of `T21`
in the total `Z`; in particular `|tau21| < 1`. -/
theorem C113_normalised {n1 n2 npt : ℕ} {y1 y2 : ℕ → ℝ} {F : Flow} (e : liang n1 y1 n2 y2 npt = .ok F) :
    |F.tau21| + |F.dH1star| + |F.dH1noise| = 1 ∧ 0 < F.dH1noise ∧ |F.tau21| < 1 ∧ 0 < F.Z ∧ F.T21 = F.tau21 * F.Z := by
  obtain ⟨-, -, hn, f, a, b, S, hA, hdet, -, -, -, -, hS, -, hZ, ht, hs, hno⟩ := liang_facts e
  have hNp : (0 : ℝ) < ((n1 - npt : ℕ) : ℝ) := by
    have : 0 < n1 - npt := by omega
    exact_mod_cast this
  have hq : (0 : ℝ) < ((n1 - npt : ℕ) : ℝ) - 1 := by
    have : 1 < n1 - npt := by omega
    have : (1 : ℝ) < ((n1 - npt : ℕ) : ℝ) := by exact_mod_cast this
    linarith
  set x := S / ((n1 - npt : ℕ) : ℝ) / (2 * (cov (Finset.range (n1 - npt)) y1 y1 / (((n1 - npt : ℕ) : ℝ) - 1)))
  have hx : 0 < x := by positivity
  have hZp : 0 < F.Z := by rw [hZ]; positivity
  have hsum : |F.tau21| + |F.dH1star| + |F.dH1noise| = 1 := by
    rw [ht, hs, hno, abs_div, abs_div, abs_div, abs_of_pos hZp, abs_of_pos hx, ← add_div, ← add_div, ← hZ, div_self hZp.ne']
  have hnp : 0 < F.dH1noise := by rw [hno]; exact div_pos hx hZp
  refine ⟨hsum, hnp, ?_, hZp, by rw [ht]; field_simp⟩
  have : 0 < |F.dH1noise| := abs_pos.mpr hnp.ne'
  have := abs_nonneg F.dH1star
  linarith

/-- C114: the tendency of series 1 is fitted by least squares with a plane `f + a y1 + b y2`; the flow from series 2 to series 1 is `b` times
the regression coefficient of `y2` on `y1`; the other two parts are `a` and the residual variance over twice the variance of `y1`. -/
theorem C114_flow {n1 n2 npt : ℕ} {y1 y2 : ℕ → ℝ} {F : Flow} (e : liang n1 y1 n2 y2 npt = .ok F) :
    ∃ f a b, (∀ f' a' b', sse2 (n1 - npt) (diffQuot npt y1) y1 y2 f a b ≤ sse2 (n1 - npt) (diffQuot npt y1) y1 y2 f' a' b') ∧
      F.T21 = cov (Finset.range (n1 - npt)) y1 y2 / cov (Finset.range (n1 - npt)) y1 y1 * b ∧ F.dH1star * F.Z = a ∧
      F.dH1noise * F.Z = (sse2 (n1 - npt) (diffQuot npt y1) y1 y2 f a b / (n1 - npt : ℕ)) /
        (2 * (cov (Finset.range (n1 - npt)) y1 y1 / (((n1 - npt : ℕ) : ℝ) - 1))) := by
  have hZ := (C113_normalised e).2.2.2.1
  obtain ⟨-, -, hn, f, a, b, S, hA, hdet, hf, g1, g2, hS, hSp, hT, hZ', ht, hs, hno⟩ := liang_facts e
  refine ⟨f, a, b, fun f' a' b' => ?_, hT, by rw [hs]; field_simp, by rw [hno, hS]; field_simp⟩
  rw [hf]
  exact plane_min (by omega) g1 g2 f' a' b'

/-- C114: no flow from a series that is uncorrelated with the first. -/
theorem C114_uncorrelated {n1 n2 npt : ℕ} {y1 y2 : ℕ → ℝ} {F : Flow} (e : liang n1 y1 n2 y2 npt = .ok F)
    (h : cov (Finset.range (n1 - npt)) y1 y2 = 0) : F.T21 = 0 ∧ F.tau21 = 0 := by
  obtain ⟨-, -, hn, f, a, b, S, hA, hdet, hf, g1, g2, hS, hSp, hT, hZ', ht, hs, hno⟩ := liang_facts e
  have : F.T21 = 0 := by rw [hT, h]; ring
  exact ⟨this, by rw [ht, this, zero_div]⟩

/-- The plane coefficients are determined by the normal equations. -/
theorem plane_unique {A B D P Q a b a' b' : ℝ} (hd : A * D - B ^ 2 ≠ 0) (h1 : P = a * A + b * B) (h2 : Q = a * B + b * D)
    (h1' : P = a' * A + b' * B) (h2' : Q = a' * B + b' * D) : a = a' ∧ b = b' := by
  constructor
  · have : (a - a') * (A * D - B ^ 2) = 0 := by linear_combination D * h1' - D * h1 - B * h2' + B * h2
    rcases mul_eq_zero.mp this with h | h
    · linarith
    · exact absurd h hd
  · have : (b - b') * (A * D - B ^ 2) = 0 := by linear_combination A * h2' - A * h2 - B * h1' + B * h1
    rcases mul_eq_zero.mp this with h | h
    · linarith
    · exact absurd h hd

theorem units_aux {n1 n2 npt : ℕ} {y1 y2 : ℕ → ℝ} {F F' : Flow} {p q : ℝ} (hp : p ≠ 0) (hq : q ≠ 0) (r s : ℝ)
    (e : liang n1 y1 n2 y2 npt = .ok F) (e' : liang n1 (fun t => p * y1 t + r) n2 (fun t => q * y2 t + s) npt = .ok F') : F' = F := by
  obtain ⟨hpos, -, hn, f, a, b, S, hA, hdet, hf, g1, g2, hS, hSp, hT, hZ', ht, hs, hno⟩ := liang_facts e
  obtain ⟨-, -, -, f', a', b', S', hA', hdet', hf', g1', g2', hS', hSp', hT', hZ'', ht', hs', hno'⟩ := liang_facts e'
  have hnpt : (npt : ℝ) ≠ 0 := by exact_mod_cast (by omega : npt ≠ 0)
  have hV : (Finset.range (n1 - npt)).Nonempty := ⟨0, Finset.mem_range.mpr (by omega)⟩
  have eg : diffQuot npt (fun t => p * y1 t + r) = fun t => p * diffQuot npt y1 t + 0 := by
    funext t; unfold diffQuot; field_simp; ring
  rw [eg] at hf' g1' g2' hS'
  rw [cov_affine, cov_affine_right] at hA' 
  simp only [cov_affine, cov_affine_right, avg_affine hV] at hdet' hf' g1' g2' hT' hZ'' hno'
  -- coefficients
  have k1 : cov (Finset.range (n1 - npt)) y1 (diffQuot npt y1) = a' * cov (Finset.range (n1 - npt)) y1 y1 + b' * q / p * cov (Finset.range (n1 - npt)) y1 y2 := by
    have : p * p * cov (Finset.range (n1 - npt)) y1 (diffQuot npt y1) = p * p * (a' * cov (Finset.range (n1 - npt)) y1 y1 + b' * q / p * cov (Finset.range (n1 - npt)) y1 y2) := by
      rw [mul_assoc, g1']; field_simp
    exact mul_left_cancel₀ (mul_ne_zero hp hp) this
  have k2 : cov (Finset.range (n1 - npt)) y2 (diffQuot npt y1) = a' * cov (Finset.range (n1 - npt)) y2 y1 + b' * q / p * cov (Finset.range (n1 - npt)) y2 y2 := by
    have : q * p * cov (Finset.range (n1 - npt)) y2 (diffQuot npt y1) = q * p * (a' * cov (Finset.range (n1 - npt)) y2 y1 + b' * q / p * cov (Finset.range (n1 - npt)) y2 y2) := by
      rw [mul_comm q p, mul_assoc, g2']; field_simp
    exact mul_left_cancel₀ (mul_ne_zero hq hp) this
  rw [cov_comm (x := y2) (y := y1)] at g2 k2
  obtain ⟨ea, eb⟩ := plane_unique hdet.ne' g1 g2 k1 k2
  have eb' : b' = b * p / q := by rw [eb]; field_simp
  have ef' : f' = p * f - a * r - b * p / q * s := by
    rw [hf', hf, ← ea, eb']; field_simp; ring
  have eS : S' = p ^ 2 * S := by
    rw [hS', hS]
    unfold sse2
    rw [Finset.mul_sum]
    refine Finset.sum_congr rfl fun t _ => ?_
    rw [← ea, eb', ef']
    field_simp
    ring
  have eT : F'.T21 = F.T21 := by
    rw [hT', hT, eb']
    field_simp
  have en : S' / ((n1 - npt : ℕ) : ℝ) / (2 * (p * (p * cov (Finset.range (n1 - npt)) y1 y1) / (((n1 - npt : ℕ) : ℝ) - 1))) =
      S / ((n1 - npt : ℕ) : ℝ) / (2 * (cov (Finset.range (n1 - npt)) y1 y1 / (((n1 - npt : ℕ) : ℝ) - 1))) := by
    rw [eS]
    have hNp : ((n1 - npt : ℕ) : ℝ) ≠ 0 := by exact_mod_cast (by omega : n1 - npt ≠ 0)
    have hq1 : ((n1 - npt : ℕ) : ℝ) - 1 ≠ 0 := by
      have : (1 : ℝ) < ((n1 - npt : ℕ) : ℝ) := by exact_mod_cast (by omega : 1 < n1 - npt)
      linarith
    field_simp
  rw [en] at hZ'' hno'
  rw [← ea] at hZ'' hs'
  have eZ : F'.Z = F.Z := by rw [hZ'', hZ', eT]
  rw [eZ] at ht' hs' hno'
  rw [eT] at ht'
  rw [← hs] at hs'
  rw [← hno] at hno'
  rw [← ht] at ht'
  cases F; cases F'
  dsimp only at eT eZ hs' hno' ht'
  rw [eT, eZ, hs', hno', ht']

/-- Which calls succeed: at least two differences, series that are not collinear, and no plane that fits the tendency exactly. -/
theorem liang_ok {n npt : ℕ} {y1 y2 : ℕ → ℝ} (h0 : 0 < npt) (hn : npt + 2 ≤ n)
    (hd : cov (Finset.range (n - npt)) y1 y1 * cov (Finset.range (n - npt)) y2 y2 - cov (Finset.range (n - npt)) y1 y2 ^ 2 ≠ 0)
    (hS : ∀ f a b, sse2 (n - npt) (diffQuot npt y1) y1 y2 f a b ≠ 0) : ∃ F, liang n y1 n y2 npt = .ok F := by
  unfold liang
  rw [if_neg (by push Not; exact ⟨by omega, rfl⟩)]
  dsimp only
  rw [if_neg]
  · exact ⟨_, rfl⟩
  · push Not
    refine ⟨by omega, ?_, ?_⟩
    · have hq : ((n - npt : ℕ) : ℝ) - 1 ≠ 0 := by
        have : (1 : ℝ) < ((n - npt : ℕ) : ℝ) := by exact_mod_cast (by omega : 1 < n - npt)
        linarith
      simp only [covar_eq]
      rw [cov_comm (x := y2) (y := y1)]
      intro h
      apply hd
      field_simp at h
      linarith
    · have hN : (0 : ℝ) < ((n - npt : ℕ) : ℝ) := by exact_mod_cast (by omega : 0 < n - npt)
      rw [Real.sqrt_ne_zero', mul_one]
      refine div_pos ?_ hN
      refine lt_of_le_of_ne (Finset.sum_nonneg fun t _ => mul_self_nonneg _) (Ne.symm ?_)
      intro h
      have h2 := fun f a b => hS f a b
      unfold sse2 at h2
      simp only [pow_two] at h2
      exact h2 _ _ _ h

/-- C115: the result does not depend on units: rescaling (by non-zero factors, possibly negative) and shifting either series changes nothing
that is returned. -/
theorem C115_units {n1 n2 npt : ℕ} {y1 y2 : ℕ → ℝ} {F : Flow} {p q : ℝ} (hp : p ≠ 0) (hq : q ≠ 0) (r s : ℝ)
    (e : liang n1 y1 n2 y2 npt = .ok F) : liang n1 (fun t => p * y1 t + r) n2 (fun t => q * y2 t + s) npt = .ok F := by
  obtain ⟨hpos, h12, hn, f, a, b, S, hA, hdet, hf, g1, g2, hS, hSp, -⟩ := liang_facts e
  subst h12
  have hnpt : (npt : ℝ) ≠ 0 := by exact_mod_cast (by omega : npt ≠ 0)
  obtain ⟨F', e'⟩ := liang_ok (n := n1) (npt := npt) (y1 := fun t => p * y1 t + r) (y2 := fun t => q * y2 t + s) hpos hn (by
      simp only [cov_affine, cov_affine_right]
      intro h
      have h2 : (p * q) ^ 2 * (cov (Finset.range (n1 - npt)) y1 y1 * cov (Finset.range (n1 - npt)) y2 y2 - cov (Finset.range (n1 - npt)) y1 y2 ^ 2) = 0 := by
        linear_combination h
      rcases mul_eq_zero.mp h2 with h3 | h3
      · exact absurd h3 (pow_ne_zero 2 (mul_ne_zero hp hq))
      · exact absurd h3 hdet.ne') (by
      intro f' a' b'
      have e1 : sse2 (n1 - npt) (diffQuot npt fun t => p * y1 t + r) (fun t => p * y1 t + r) (fun t => q * y2 t + s) f' a' b' =
          p ^ 2 * sse2 (n1 - npt) (diffQuot npt y1) y1 y2 ((f' + a' * r + b' * s) / p) a' (b' * q / p) := by
        unfold sse2
        rw [Finset.mul_sum]
        refine Finset.sum_congr rfl fun t _ => ?_
        unfold diffQuot
        field_simp
        ring
      rw [e1]
      refine mul_ne_zero (pow_ne_zero 2 hp) (ne_of_gt (lt_of_lt_of_le hSp ?_))
      rw [hS, hf]
      exact plane_min (by omega) g1 g2 _ _ _)
  rw [e', units_aux hp hq r s e e']

/-- a call that succeeds: the hypotheses of C113-C115 are met -/
example : ∃ F, liang 5 (fun t => if t = 1 ∨ t ≥ 3 then 1 else 0) 5 (fun t => if t = 2 ∨ t = 3 then 1 else 0) 1 = .ok F := by
  refine liang_ok (by norm_num) (by norm_num) ?_ ?_
  · simp only [cov, avg, Finset.card_range, show (5 - 1 : ℕ) = 4 from rfl, Finset.sum_range_succ, Finset.sum_range_zero]
    norm_num
  · intro f a b
    simp only [sse2, diffQuot, show (5 - 1 : ℕ) = 4 from rfl, Finset.sum_range_succ, Finset.sum_range_zero]
    norm_num
    intro h
    have z : ∀ r : ℝ, r ^ 2 ≤ 0 → r = 0 := fun r hr => pow_eq_zero_iff two_ne_zero |>.mp (le_antisymm hr (sq_nonneg r))
    have h0 := z (1 - f) (by linarith [sq_nonneg (-1 - (f + a)), sq_nonneg (1 - (f + b)), sq_nonneg (-b + (-a + -f))])
    have h1 := z (-1 - (f + a)) (by linarith [sq_nonneg (1 - f), sq_nonneg (1 - (f + b)), sq_nonneg (-b + (-a + -f))])
    have h2 := z (1 - (f + b)) (by linarith [sq_nonneg (1 - f), sq_nonneg (-1 - (f + a)), sq_nonneg (-b + (-a + -f))])
    have h3 := z (-b + (-a + -f)) (by linarith [sq_nonneg (1 - f), sq_nonneg (-1 - (f + a)), sq_nonneg (1 - (f + b))])
    linarith

end Skyborn.Stats
