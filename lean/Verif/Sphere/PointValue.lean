/-
`specintrp(lon, dataspec, legfuncs)` with the Legendre functions of `legendre(lat, ntrunc)`: a field at any point.
Modelled: spharm/spherical_harmonics.py:1876-1911 for one-dimensional arrays, on top of the Fortran routine (Spectral/Model) and `legendre`
(Sphere/LegFunc).
-/
import Verif.Sphere.LegFuncProps
import Verif.Sphere.WindProps

namespace Skyborn.Sphere.Leg

open Skyborn.Spectral (waves specLen specintrp ntruncOf)

/-- spherical_harmonics.py:1876-1911 `specintrp` for one-dimensional arrays, `lon` in degrees; `none`: `ValidationError`, or empty arrays, for
which the code reads outside its work array. -/
noncomputable def pointValue (lon : ℝ) (data : List ℂ) (leg : List ℝ) : Option ℝ :=
  if ntruncOf data.length ≠ ntruncOf leg.length then none
  else if ntruncOf data.length < 0 then none
  else specintrp (lon * (Real.pi / 180)) (ntruncOf data.length).toNat (fun i => data.getD (i - 1) 0) (fun i => leg.getD (i - 1) 0)

/-- The triangle of truncation `T` has this many coefficients, the one of truncation `T + 1` does not fit. -/
def Spec.Holds (N T : ℕ) : Prop := (T + 1) * (T + 2) / 2 ≤ N ∧ N < (T + 2) * (T + 3) / 2

private theorem ntrunc_holds {N T : ℕ} (h : Spec.Holds N T) : ntruncOf N = T := by
  have := Spectral.waves_spec N (T + 1) h.1 h.2
  omega

private theorem place_index {T m n : ℕ} (h1 : m ≤ n) (h2 : n ≤ T) : Spec.place T m n = Spectral.Spec.index T m n := by
  have := Spectral.pos_eq_index h1 h2
  unfold Spectral.pos Spectral.start at this
  rw [Nat.add_sub_cancel] at this
  unfold Spec.place
  omega

private theorem synthesis_series (T : ℕ) (l φ : ℝ) (x : ℕ → ℕ → ℂ) :
    Spectral.Spec.synthesis T l x (fun m n => pbar m n (Real.pi / 2 - φ)) = Spec.series T x φ l := by
  have key : ∀ (m : ℕ) (w : ℝ) (z : ℂ), w * ((∑ n ∈ Finset.Icc m T, x m n * (pbar m n (Real.pi / 2 - φ) : ℂ)) * z).re
      = ∑ n ∈ Finset.range (T + 1) with m ≤ n, w * pbar m n (Real.pi / 2 - φ) * (x m n * z).re := by
    intro m w z
    rw [Finset.sum_mul, Complex.re_sum, Finset.mul_sum]
    refine Finset.sum_congr (by ext n; simp only [Finset.mem_Icc, Finset.mem_filter, Finset.mem_range]; omega) fun n _ => ?_
    rw [show x m n * (pbar m n (Real.pi / 2 - φ) : ℂ) * z = (pbar m n (Real.pi / 2 - φ) : ℂ) * (x m n * z) by ring, Complex.re_ofReal_mul]
    ring
  unfold Spectral.Spec.synthesis Spec.series Spec.seriesOn Spec.triangle
  rw [Finset.sum_filter, Finset.sum_product]
  have e : ∀ m ∈ Finset.range (T + 1), (∑ n ∈ Finset.range (T + 1), if m ≤ n then (if m = 0 then (1 : ℝ) else 2) * pbar m n (Real.pi / 2 - φ)
      * (x m n * Complex.exp (m * l * Complex.I)).re else 0)
      = (if m = 0 then (1 : ℝ) else 2) * ((∑ n ∈ Finset.Icc m T, x m n * (pbar m n (Real.pi / 2 - φ) : ℂ)) * Complex.exp (m * l * Complex.I)).re := by
    intro m _
    rw [key, Finset.sum_filter]
  dsimp only
  rw [Finset.sum_congr rfl e, Finset.sum_range_succ', if_pos rfl, add_comm]
  congr 1
  · symm
    refine Finset.sum_bij (fun k _ => k + 1) (fun k hk => ?_) (fun a _ b _ h => by simpa using h) (fun k hk => ?_) fun k _ => ?_
    · rw [Finset.mem_range] at hk; rw [Finset.mem_Icc]; omega
    · rw [Finset.mem_Icc] at hk
      exact ⟨k - 1, Finset.mem_range.2 (by omega), by omega⟩
    · rw [if_neg (by omega)]; simp
  · simp

/-- C314: with the functions `legendre(lat, T)`, `specintrp` gives at every longitude the value at that point of the field with these coefficients:
the sum of `P(m,n)(colatitude) x(m,n) e^(im lon)` over `0 <= m <= n <= T`, with the conjugate for `-m`. -/
theorem C314_point (lon lat : ℝ) (T : ℕ) (data : List ℂ) (leg : List ℝ) (cp0 leg0 : ℕ → ℝ) (hd : data.length = (T + 1) * (T + 2) / 2)
    (hl : legendre lat T cp0 leg0 = some leg) :
    pointValue lon data leg = some (Spec.series T (fun m n => data.getD (Spectral.Spec.index T m n) 0) (lat * (Real.pi / 180)) (lon * (Real.pi / 180))) := by
  have hlat : -90 ≤ lat ∧ lat ≤ 90 := by
    by_contra hn
    have := (C313_errors lat T cp0 leg0).2 (by
      by_contra h
      push Not at h
      exact hn ⟨h.1, h.2.1⟩)
    rw [hl] at this; cases this
  obtain ⟨r, h1, h2, h3, -⟩ := C312_legendre lat T cp0 leg0 hlat.1 hlat.2
  obtain rfl : leg = r := Option.some.inj (hl.symm.trans h1)
  have hN : Spec.Holds ((T + 1) * (T + 2) / 2) T := by
    refine ⟨le_rfl, ?_⟩
    have a : 2 ∣ (T + 1) * (T + 2) := (Nat.even_mul_succ_self (T + 1)).two_dvd
    have b : 2 ∣ (T + 2) * (T + 3) := (Nat.even_mul_succ_self (T + 2)).two_dvd
    have : (T + 1) * (T + 2) < (T + 2) * (T + 3) := by nlinarith
    omega
  unfold pointValue
  rw [hd, h2, ntrunc_holds hN, if_neg (not_not.2 rfl), if_neg (by omega), Int.toNat_natCast, Spectral.C57_specintrp, ← synthesis_series]
  congr 1
  unfold Spectral.Spec.synthesis
  have hp : ∀ m n, m ≤ n → n ≤ T → leg.getD (Spectral.Spec.index T m n + 1 - 1) 0 = pbar m n (Real.pi / 2 - lat * (Real.pi / 180)) := by
    intro m n hm hn
    rw [Nat.add_sub_cancel, List.getD_eq_getElem?_getD, ← place_index hm hn, h3 m n hm hn, Option.getD_some]
    congr 1
    unfold Spec.colat
    ring
  congr 1
  · congr 1
    refine Finset.sum_congr rfl fun n hn => ?_
    rw [Finset.mem_Icc] at hn
    dsimp only
    rw [hp 0 n (by omega) hn.2, Nat.add_sub_cancel]
  · refine Finset.sum_congr rfl fun m _ => ?_
    congr 3
    refine Finset.sum_congr rfl fun n hn => ?_
    rw [Finset.mem_Icc] at hn
    dsimp only
    rw [hp m n hn.1 hn.2, Nat.add_sub_cancel]

/-- C315: at the points of a grid that holds all its waves, `specintrp` with `legendre` and `spectogrd` agree. -/
theorem C315_grid {I : Inst} (hG : Good I []) (T : ℕ) (s : NDArr ℂ) (data : List ℂ) (h1 : T < I.nlat) (h2 : T ≤ I.nlon / 2)
    (hs : s.shape = [(T + 1) * (T + 2) / 2]) (hd : data.length = (T + 1) * (T + 2) / 2) (hsd : ∀ k < data.length, s.get [k] = data.getD k 0)
    (i j : ℕ) (hi : i < I.nlat) (hj : j < I.nlon) (leg : List ℝ) (cp0 leg0 : ℕ → ℝ)
    (hl : legendre (I.lat i * (180 / Real.pi)) T cp0 leg0 = some leg) :
    ∃ g, spectogrd I s = .ok g ∧ pointValue (I.lon j * (180 / Real.pi)) data leg = some (g.get [i, j]) := by
  have hx : Spec.IsSpectrum T [] s (fun _ m n => data.getD (Spectral.Spec.index T m n) 0) := by
    refine ⟨hs, fun e he m n hm hn => ?_⟩
    have he' : e = [] := by
      cases e with
      | nil => rfl
      | cons a e => exact absurd he (by simp [InB])
    subst he'
    refine hsd _ ?_
    rw [hd, ← place_index hm hn]
    have := place_lt hm hn
    have h3 := start_mono T (show m + 1 ≤ T + 1 by omega)
    rw [total] at h3
    omega
  obtain ⟨g, e, -, hg⟩ := spectogrd_ok hG hx h1
  refine ⟨g, e, ?_⟩
  have hpi : Real.pi ≠ 0 := Real.pi_ne_zero
  rw [C314_point _ _ T data leg cp0 leg0 hd hl]
  have := hg [] (by simp [InB]) i j hi hj
  rw [this, usedS_eq h1 h2]
  unfold Spec.series
  congr 2 <;> field_simp

/-- C316: arrays are refused exactly if they do not hold the same truncation (or hold none). -/
theorem C316_refused (lon : ℝ) (data : List ℂ) (leg : List ℝ) :
    pointValue lon data leg ≠ none ↔ ∃ T, Spec.Holds data.length T ∧ Spec.Holds leg.length T := by
  have hex : ∀ N : ℕ, (∃ T, Spec.Holds N T ∧ ntruncOf N = T) ∨ (N = 0 ∧ ntruncOf N = -1) := by
    intro N
    obtain ⟨T1, a, b⟩ := Spectral.exists_waves N
    have hw := Spectral.waves_spec N T1 a b
    cases T1 with
    | zero =>
      right
      constructor
      · omega
      · simpa using hw
    | succ T =>
      left
      exact ⟨T, ⟨a, b⟩, by omega⟩
  unfold pointValue
  constructor
  · intro h
    split_ifs at h with h1 h2
    · exact absurd rfl h
    · exact absurd rfl h
    · rcases hex data.length with ⟨T, hT, e⟩ | ⟨-, e⟩
      · rcases hex leg.length with ⟨T', hT', e'⟩ | ⟨-, e'⟩
        · rw [not_not, e, e'] at h1
          have : T = T' := by exact_mod_cast h1
          subst this
          exact ⟨T, hT, hT'⟩
        · omega
      · omega
  · rintro ⟨T, h1, h2⟩
    rw [ntrunc_holds h1, ntrunc_holds h2, if_neg (not_not.2 rfl), if_neg (by omega), Int.toNat_natCast, Spectral.C57_specintrp]
    simp

/-- The hypotheses of C315 (and C314) are met: truncation 1 on a regular grid of 5 rows and 8 columns, second row, third column. -/
example : ∃ (I : Inst) (s : NDArr ℂ) (leg : List ℝ) (g : NDArr ℝ), Good I [] ∧ spectogrd I s = .ok g ∧
    legendre (I.lat 1 * (180 / Real.pi)) 1 (fun _ => 0) (fun _ => 0) = some leg ∧
    pointValue (I.lon 2 * (180 / Real.pi)) [1, 2, 3 + Complex.I] leg = some (g.get [1, 2]) := by
  set J : Inst := ⟨5, 8, 1, .regular, .stored, fun i => Real.pi / 2 - i * (Real.pi / (((5 : ℕ) : ℝ) - 1)), fun _ _ _ => 0, fun _ _ _ _ => 0,
    fun _ _ _ _ => 0, fun _ _ _ _ => 0⟩ with hJ
  have hG : Good J [] := ⟨by norm_num [hJ], by norm_num [hJ], by norm_num [hJ], by simp, by norm_num [hJ]⟩
  have hlat : J.lat 1 * (180 / Real.pi) = 45 := by
    have := Real.pi_ne_zero
    simp only [hJ]
    field_simp
    norm_num
  obtain ⟨leg, hl, -⟩ := C312_legendre (J.lat 1 * (180 / Real.pi)) 1 (fun _ => 0) (fun _ => 0) (by rw [hlat]; norm_num) (by rw [hlat]; norm_num)
  obtain ⟨g, e, hg⟩ := C315_grid hG 1 ⟨[3], fun idx => [1, 2, 3 + Complex.I].getD (idx.getD 0 0) 0⟩ [1, 2, 3 + Complex.I] (by norm_num [hJ])
    (by norm_num [hJ]) rfl rfl (fun k _ => rfl) 1 2 (by norm_num [hJ]) (by norm_num [hJ]) leg _ _ hl
  exact ⟨J, _, leg, g, hG, e, hl, hg⟩

/-- C316: six and seven coefficients hold the same truncation. -/
example : Spec.Holds 6 2 ∧ Spec.Holds 7 2 ∧ ¬ Spec.Holds 10 2 := by unfold Spec.Holds; omega

end Skyborn.Sphere.Leg
