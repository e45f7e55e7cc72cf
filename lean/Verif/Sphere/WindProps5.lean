/-
Limits of the scalar transforms on regular grids, spectral smoothing and regridding.
-/
import Verif.Sphere.WindProps4
import Mathlib.LinearAlgebra.Matrix.ToLin
import Mathlib.LinearAlgebra.FiniteDimensional.Lemmas

namespace Skyborn.Sphere

open Skyborn Skyborn.Spectral

variable {I : Inst} {extra : List ℕ}

/-- On a regular grid some combination of the `nlat - 1` modes with `m = 1` vanishes on every row. -/
theorem hidden_mode (hR : Spec.Regular I) (hlat : 3 ≤ I.nlat) :
    ∃ c : ℕ → ℝ, (∃ n, 1 ≤ n ∧ n < I.nlat ∧ c n ≠ 0) ∧
      ∀ i < I.nlat, ∑ n ∈ Finset.Ico 1 I.nlat, c n * pbar 1 n (Real.pi / 2 - I.lat i) = 0 := by
  let A : Matrix (Fin (I.nlat - 2)) (Fin (I.nlat - 1)) ℝ := fun i k => pbar 1 (k + 1) (Real.pi / 2 - I.lat (i + 1))
  have hker : LinearMap.ker A.mulVecLin ≠ ⊥ := by
    refine LinearMap.ker_ne_bot_of_finrank_lt ?_
    simp only [Module.finrank_fin_fun]
    omega
  obtain ⟨x, hx, hne⟩ := (Submodule.ne_bot_iff _).mp hker
  have hx' : A.mulVec x = 0 := by simpa using hx
  set c : ℕ → ℝ := fun n => if h : 1 ≤ n ∧ n < I.nlat then x ⟨n - 1, by omega⟩ else 0 with hc
  have hsum : ∀ f : ℕ → ℝ, ∑ n ∈ Finset.Ico 1 I.nlat, c n * f n = ∑ k : Fin (I.nlat - 1), x k * f (k + 1) := by
    intro f
    rw [Finset.sum_Ico_eq_sum_range, Finset.sum_range]
    refine Finset.sum_congr rfl fun k _ => ?_
    have h : 1 ≤ 1 + (k : ℕ) ∧ 1 + (k : ℕ) < I.nlat := by have := k.2; omega
    simp only [hc, dif_pos h]
    rw [show (⟨1 + (k : ℕ) - 1, by omega⟩ : Fin (I.nlat - 1)) = k from Fin.ext (by simp), add_comm 1 (k : ℕ)]
  refine ⟨c, ?_, ?_⟩
  · by_contra hcon
    push Not at hcon
    refine hne (funext fun k => ?_)
    have := hcon (k + 1) (by omega) (by have := k.2; omega)
    simp only [hc] at this
    rw [dif_pos (by have := k.2; omega)] at this
    simpa using this
  · intro i hi
    have pole : Real.sin (Real.pi / 2 - I.lat i) = 0 → ∑ n ∈ Finset.Ico 1 I.nlat, c n * pbar 1 n (Real.pi / 2 - I.lat i) = 0 := by
      intro hs
      refine Finset.sum_eq_zero fun n _ => ?_
      unfold pbar
      rw [hs]; simp
    by_cases h0 : i = 0
    · refine pole ?_
      rw [h0, hR.2 0 (by omega)]; simp
    by_cases h1 : i = I.nlat - 1
    · refine pole ?_
      have hn : ((i : ℕ) : ℝ) = (I.nlat : ℝ) - 1 := by rw [h1, Nat.cast_sub (by omega)]; simp
      have hne : (I.nlat : ℝ) - 1 ≠ 0 := by
        have : (3 : ℝ) ≤ I.nlat := by exact_mod_cast hlat
        linarith
      rw [hR.2 i hi, hn, mul_div_cancel₀ _ hne]
      simp
    · rw [hsum]
      have := congrFun hx' ⟨i - 1, by omega⟩
      simp only [Matrix.mulVec, dotProduct, A, Pi.zero_apply] at this
      rw [show i - 1 + 1 = i by omega] at this
      rw [← this]
      exact Finset.sum_congr rfl fun k _ => mul_comm _ _

/-- The round trip is not the identity at the default truncation: on every regular grid there are two different spectra
(with real zonal means) that `spectogrd` turns into the same grid, so no analysis recovers both. -/
theorem C158_roundtrip_false (hG : Good I []) (hR : Spec.Regular I) (hlon : I.nlat - 1 ≤ I.nlon / 2) :
    ∃ (s s' : NDArr ℂ) (x x' : ℕ → ℕ → ℂ) (g g' : NDArr ℝ), Spec.RealMean x ∧ Spec.RealMean x' ∧
      Spec.IsSpectrum (I.nlat - 1) [] s (fun _ => x) ∧ Spec.IsSpectrum (I.nlat - 1) [] s' (fun _ => x') ∧
      spectogrd I s = .ok g ∧ spectogrd I s' = .ok g' ∧ g.Eqv g' ∧
      ∃ m n, m ≤ n ∧ n ≤ I.nlat - 1 ∧ x m n ≠ x' m n := by
  have hlat := hG.lat
  obtain ⟨c, ⟨n0, a1, a2, a3⟩, hzero⟩ := hidden_mode hR hlat
  set x : ℕ → ℕ → ℂ := fun m n => if m = 1 ∧ 1 ≤ n then (c n : ℂ) else 0 with hx
  have hs := isSpectrum_spectrum (I.nlat - 1) [] (fun _ => x)
  have hs' := isSpectrum_spectrum (I.nlat - 1) [] (fun _ => fun _ _ => 0)
  obtain ⟨g, e1, hg⟩ := spectogrd_ok hG hs (by omega)
  obtain ⟨g', e2, hg'⟩ := spectogrd_ok hG hs' (by omega)
  refine ⟨_, _, x, fun _ _ => 0, g, g', ?_, fun _ => rfl, hs, hs', e1, e2, ?_, 1, n0, a1, by omega, ?_⟩
  · intro n; simp [hx]
  · refine isGrid_eqv hg (hg'.congr fun e he i j hi hj => ?_)
    have z0 : Spec.seriesOn (usedS I (I.nlat - 1)) (fun _ _ => 0) (I.lat i) (I.lon j) = 0 := by unfold Spec.seriesOn; simp
    rw [z0, usedS_eq (by omega) hlon]
    symm
    unfold Spec.seriesOn
    have hinj : Set.InjOn (fun n : ℕ => ((1 : ℕ), n)) (Finset.Ico 1 I.nlat) := by intro a _ b _ h; simpa using h
    have hsub : (Finset.Ico 1 I.nlat).image (fun n : ℕ => ((1 : ℕ), n)) ⊆ Spec.triangle (I.nlat - 1) := by
      intro p hp
      obtain ⟨n, hn, rfl⟩ := Finset.mem_image.mp hp
      rw [Finset.mem_Ico] at hn
      exact mem_triangle.mpr (by omega)
    rw [← Finset.sum_subset hsub]
    · rw [Finset.sum_image hinj]
      have : ∀ n ∈ Finset.Ico 1 I.nlat, (if (1 : ℕ) = 0 then (1 : ℝ) else 2) * pbar 1 n (Real.pi / 2 - I.lat i) *
          (x 1 n * Complex.exp (((1 : ℕ) : ℂ) * (I.lon j) * Complex.I)).re
          = 2 * (Complex.exp (((1 : ℕ) : ℂ) * (I.lon j) * Complex.I)).re * (c n * pbar 1 n (Real.pi / 2 - I.lat i)) := by
        intro n hn
        rw [Finset.mem_Ico] at hn
        simp only [hx, hn.1, and_self, if_true, Complex.re_ofReal_mul]
        norm_num
        ring
      rw [Finset.sum_congr rfl this, ← Finset.mul_sum, hzero i hi, mul_zero]
    · rintro ⟨m, n⟩ hp hq
      rw [mem_triangle] at hp
      have : x m n = 0 := by
        simp only [hx]
        rw [if_neg]
        rintro ⟨rfl, hn⟩
        exact hq (Finset.mem_image.mpr ⟨n, Finset.mem_Ico.mpr (by omega), rfl⟩)
      simp [this]
  · simp only [hx, a1, and_self, if_true]
    exact_mod_cast a3

/-- Non-vacuity: 5 by 8. -/
example : ∃ I : Inst, Good I [] ∧ Spec.Regular I ∧ I.nlat - 1 ≤ I.nlon / 2 :=
  ⟨⟨5, 8, 1, .regular, .stored, fun i => Real.pi / 2 - i * (Real.pi / (((5 : ℕ) : ℝ) - 1)), fun _ _ _ => 0, fun _ _ _ _ => 0,
    fun _ _ _ _ => 0, fun _ _ _ _ => 0⟩, ⟨by norm_num, by norm_num, by norm_num, by norm_num, by norm_num⟩, ⟨rfl, fun _ _ => rfl⟩, by norm_num⟩

end Skyborn.Sphere
