import Verif.MK.PyModel
import Verif.MK.KernelProps
import Mathlib.Algebra.BigOperators.Field

namespace Skyborn.MK.Py

open Skyborn Skyborn.MK Finset Spec

theorem sum_Icc_eq_range {M : Type*} [AddCommMonoid M] (n : ℕ) (f : ℕ → M) :
    ∑ i ∈ Icc 1 n, f i = ∑ i ∈ range n, f (i + 1) := by
  refine Finset.sum_nbij' (fun i => i - 1) (fun i => i + 1) ?_ ?_ ?_ ?_ ?_
  · intro i hi; simp at hi ⊢; omega
  · intro i hi; simp at hi ⊢; omega
  · intro i hi; simp at hi ⊢; omega
  · intro i hi; simp
  · intro i hi; simp at hi; simp [show i - 1 + 1 = i by omega]

theorem columns_ok {β : Type} {m : ℕ} (init : ℕ → β) {k : ℕ → Option β} {g : ℕ → β} (h : ∀ j, j < m → k j = some (g j)) :
    ∃ out, columns m init k = some out ∧ ∀ j, j < m → out j = g j := by
  unfold columns
  obtain ⟨s, e, p⟩ := doLoopM_inv (lo := 1) (hi := m) (by omega) (s := init)
    (f := fun col out => do
      let r ← k (col - 1)
      wr m out col r)
    (fun i out => ∀ j, j + 1 < i → out (j + 1) = g j) (by intro j hj; omega)
    (by
      intro i s i1 i2 hs
      rw [h (i - 1) (by omega)]
      refine ⟨_, by simp only [Option.bind_eq_bind, Option.bind_some]; exact wr_ok i1 i2, ?_⟩
      intro j hj
      by_cases hji : j + 1 = i
      · subst hji; simp
      · rw [Function.update_of_ne hji]; exact hs j (by omega))
  refine ⟨fun j => s (j + 1), ?_, fun j hj => p j (by omega)⟩
  simp only [Option.bind_eq_bind] at e ⊢
  rw [e]; rfl

theorem columns_none {β : Type} {m : ℕ} (init : ℕ → β) {k : ℕ → Option β} (hm : 0 < m) (h : ∀ j, j < m → k j = none) :
    columns m init k = none := by
  unfold columns doLoopM
  rw [show m + 1 - 1 = (m - 1) + 1 by omega, List.range'_succ, List.foldlM_cons]
  simp [h 0 hm]

theorem sgn_int (x : ℝ) : ∃ z : ℤ, sgn x = (z : ℝ) := by
  rcases lt_trichotomy x 0 with h | h | h
  · exact ⟨-1, by rw [sgn_neg h]; simp⟩
  · subst h; exact ⟨0, by rw [sgn_zero]; simp⟩
  · exact ⟨1, by rw [sgn_pos h]; simp⟩

theorem score_int (n : ℕ) (y : ℕ → ℝ) : ∃ z : ℤ, score n y = (z : ℝ) := by
  choose f hf using sgn_int
  refine ⟨∑ p ∈ pairs n, f (y p.2 - y p.1), ?_⟩
  unfold score; push_cast
  exact Finset.sum_congr rfl fun p _ => hf _

theorem rint_int (z : ℤ) : rint (z : ℝ) = z := by simp [rint]

theorem rint_score (n : ℕ) (y : ℕ → ℝ) : rint (score n y) = score n y := by
  obtain ⟨z, hz⟩ := score_int n y
  rw [hz, rint_int]

theorem rint_zero : rint 0 = 0 := by simpa using rint_int 0

theorem mean_add {n : ℕ} (hn : 0 < n) (v : ℕ → ℝ) (c : ℝ) : mean n (fun i => v i + c) = mean n v + c := by
  unfold mean
  rw [Finset.sum_add_distrib, Finset.sum_const, card_range, nsmul_eq_mul]
  have : (n : ℝ) ≠ 0 := by exact_mod_cast hn.ne'
  field_simp

/-- the standard deviation does not see a common shift -/
theorem std_add {n : ℕ} (hn : 0 < n) (v : ℕ → ℝ) (c : ℝ) : std n (fun i => v i + c) = std n v := by
  unfold std
  rw [mean_add hn]
  simp

theorem std_shift {n : ℕ} (hn : 0 < n) {v w : ℕ → ℝ} (c : ℝ) (h : ∀ i, i < n → w i = v i + c) : std n w = std n v := by
  have e : std n w = std n (fun i => v i + c) := by
    unfold std mean
    have h1 : ∑ i ∈ range n, w i = ∑ i ∈ range n, (v i + c) :=
      Finset.sum_congr rfl fun i hi => h i (by simpa using hi)
    rw [h1]
    congr 2
    exact Finset.sum_congr rfl fun i hi => by rw [h i (by simpa using hi)]
  rw [e, std_add hn]

theorem zBatch_eq (s : ℝ) (var : Option ℝ) : zBatch s var = zContinuity s var := by
  unfold zBatch zContinuity
  rcases lt_trichotomy s 0 with h | h | h
  · rw [if_pos h, if_neg h.not_gt, if_neg h.ne]
  · subst h; simp
  · rw [if_neg h.not_gt, if_pos h, if_pos h]

/-! ### kernels in closed form -/

theorem baseVar_buf (n : ℕ) (y : ℕ → ℝ) : baseVariance n (buf y) = some (tieVariance (values n (buf y))) :=
  baseVariance_ok n _

/-- Yue-Wang variance, textbook form on the 0-based series: base variance times
`1 + 2 ∑_{l ≤ L} (1 - l/n) r_l` with the lag-`l` autocorrelations `r_l` of the detrended series; undefined (NaN) for a
detrended series of zero variance. -/
noncomputable def Spec.yueWang (n : ℕ) (y : ℕ → ℝ) (slope : ℝ) (L : ℕ) : Option ℝ :=
  let base := tieVariance (values n (buf y))
  let d : ℕ → ℝ := fun i => y i - ((i : ℝ) + 1) * slope
  let c : ℕ → ℝ := fun i => d i - mean n d
  let denom := ∑ i ∈ range n, c i * c i
  if L = 0 then some base
  else if denom = 0 then none
  else some (base * (1 + 2 * ∑ l ∈ Icc 1 L, (1 - (l : ℝ) / (n : ℝ)) * ((∑ i ∈ range (n - l), c i * c (i + l)) / denom)))

theorem lagSum_eq (n lag : ℕ) (c : ℕ → ℝ) : lagSum n lag c = ∑ i ∈ range (n - lag), c (i + 1) * c (i + 1 + lag) := by
  unfold lagSum
  rw [doLoop_add, zero_add, sum_Icc_eq_range]

theorem yueWangVariance_eq (n : ℕ) (y : ℕ → ℝ) (slope : ℝ) (L : ℕ) :
    yueWangVariance n (buf y) slope L = some (Spec.yueWang n y slope L) := by
  unfold yueWangVariance Spec.yueWang
  rw [baseVar_buf]
  simp only [Option.bind_eq_bind, Option.bind_some, doLoop_add, zero_add, sum_Icc_eq_range n, lagSum_eq]
  by_cases hL : L = 0
  · simp [hL]
  · simp only [hL, if_false]
    have hm : mean n (fun i => y i - ((i : ℝ) + 1) * slope) =
        (∑ i ∈ range n, (buf y (i + 1) - ((i + 1 : ℕ) : ℝ) * slope)) / (n : ℝ) := by
      unfold mean buf; simp
    simp only [← hm]
    have hb : ∀ i, buf y (i + 1) - ((i + 1 : ℕ) : ℝ) * slope = y i - ((i : ℝ) + 1) * slope := by
      intro i; simp [buf]
    have hb2 : ∀ i l, buf y (i + 1 + l) - ((i + 1 + l : ℕ) : ℝ) * slope = y (i + l) - (((i + l : ℕ) : ℝ) + 1) * slope := by
      intro i l
      rw [show i + 1 + l = (i + l) + 1 by omega]; exact hb _
    simp only [hb, hb2]
    split_ifs with h0
    · rfl
    · congr 4
      rw [Finset.mul_sum]
      exact Finset.sum_congr rfl fun l _ => by ring

/-- Hamed-Rao variance, textbook form: base variance times
`1 + 2/(n(n-1)(n-2)) ∑ (n-l)(n-l-1)(n-l-2) r_l` over the lags `l ≤ L` whose rank autocorrelation `r_l` is significant. -/
noncomputable def Spec.hamedRao (n : ℕ) (y : ℕ → ℝ) (slope interval : ℝ) (L : ℕ) : Option ℝ :=
  let base := tieVariance (values n (buf y))
  let r := rankdata n fun i => y i - ((i : ℝ) + 1) * slope
  let c : ℕ → ℝ := fun i => r i - ((n : ℝ) + 1) / 2
  let denom := ∑ i ∈ range n, c i * c i
  if L = 0 then some base
  else if denom = 0 then none
  else some (base * (1 + 2 * (∑ l ∈ Icc 1 L,
      let acf := (∑ i ∈ range (n - l), c i * c (i + l)) / denom
      if acf ≤ interval ∧ acf ≥ -interval then 0 else ((n : ℝ) - l) * ((n : ℝ) - l - 1) * ((n : ℝ) - l - 2) * acf)
      / ((n : ℝ) * ((n : ℝ) - 1) * ((n : ℝ) - 2))))

theorem midRank_congr {n : ℕ} {v w : ℕ → ℝ} (h : ∀ i, 1 ≤ i → i ≤ n → v i = w i) {i : ℕ} (h1 : 1 ≤ i) (h2 : i ≤ n) :
    midRank n v i = midRank n w i := by
  unfold midRank
  have e1 : ((Icc 1 n).filter fun k => v k < v i) = (Icc 1 n).filter fun k => w k < w i := by
    apply Finset.filter_congr; intro k hk; rw [Finset.mem_Icc] at hk; rw [h k hk.1 hk.2, h i h1 h2]
  have e2 : ((Icc 1 n).filter fun k => v k = v i) = (Icc 1 n).filter fun k => w k = w i := by
    apply Finset.filter_congr; intro k hk; rw [Finset.mem_Icc] at hk; rw [h k hk.1 hk.2, h i h1 h2]
  rw [e1, e2]

theorem hamedRaoVariance_eq (n : ℕ) (hn : 3 ≤ n) (y : ℕ → ℝ) (slope interval : ℝ) (L : ℕ) (hL : L < n) (W : ℕ → ℝ) :
    hamedRaoVariance n (buf y) slope interval L W = some (Spec.hamedRao n y slope interval L) := by
  unfold hamedRaoVariance Spec.hamedRao
  rw [baseVar_buf]
  simp only [Option.bind_eq_bind, Option.bind_some]
  by_cases h0 : L = 0
  · simp [h0]
  · obtain ⟨rk, er, hr⟩ := averageRanks_ok n (fun i => buf y i - (i : ℝ) * slope) W
    rw [if_neg (by omega), er]
    simp only [Option.bind_some, doLoop_add, zero_add, sum_Icc_eq_range n, lagSum_eq, h0, if_false]
    set c : ℕ → ℝ := fun i => rankdata n (fun i => y i - ((i : ℝ) + 1) * slope) i - ((n : ℝ) + 1) / 2 with hc
    have hrk : ∀ i, i < n → rk (i + 1) - (1 / 2 : ℝ) * ((n + 1 : ℕ) : ℝ) = c i := by
      intro i hi
      rw [hr (i + 1) (by omega) (by omega), hc]
      unfold rankdata
      rw [midRank_congr (w := buf fun i => y i - ((i : ℝ) + 1) * slope) _ (by omega) (by omega)]
      · push_cast; ring
      · intro k k1 k2
        show y (k - 1) - (k : ℝ) * slope = y (k - 1) - (((k - 1 : ℕ) : ℝ) + 1) * slope
        rw [show ((k - 1 : ℕ) : ℝ) + 1 = (k : ℝ) by
          rw [← Nat.cast_succ, show (k - 1).succ = k by omega]]
    have hden : ∑ i ∈ range n, (rk (i + 1) - (1 / 2 : ℝ) * ((n + 1 : ℕ) : ℝ)) * (rk (i + 1) - (1 / 2 : ℝ) * ((n + 1 : ℕ) : ℝ)) =
        ∑ i ∈ range n, c i * c i :=
      Finset.sum_congr rfl fun i hi => by rw [hrk i (by simpa using hi)]
    have hlag : ∀ l, 1 ≤ l → ∑ i ∈ range (n - l), (rk (i + 1) - (1 / 2 : ℝ) * ((n + 1 : ℕ) : ℝ)) *
        (rk (i + 1 + l) - (1 / 2 : ℝ) * ((n + 1 : ℕ) : ℝ)) = ∑ i ∈ range (n - l), c i * c (i + l) := by
      intro l _
      refine Finset.sum_congr rfl fun i hi => ?_
      have hi' : i < n - l := by simpa using hi
      rw [hrk i (by omega), show i + 1 + l = (i + l) + 1 by omega, hrk (i + l) (by omega)]
    rw [hden]
    by_cases hd : ∑ i ∈ range n, c i * c i = 0
    · rw [if_pos hd]
      exact congrArg some (if_pos hd).symm
    · rw [if_neg hd]
      refine Eq.trans ?_ (congrArg some (if_neg hd).symm)
      have hloop : (doLoop 1 L (0 : ℝ) fun lag s =>
          if (∑ i ∈ range (n - lag), (rk (i + 1) - (1 / 2 : ℝ) * ((n + 1 : ℕ) : ℝ)) *
              (rk (i + 1 + lag) - (1 / 2 : ℝ) * ((n + 1 : ℕ) : ℝ))) / ∑ i ∈ range n, c i * c i < -interval ∨
            (∑ i ∈ range (n - lag), (rk (i + 1) - (1 / 2 : ℝ) * ((n + 1 : ℕ) : ℝ)) *
              (rk (i + 1 + lag) - (1 / 2 : ℝ) * ((n + 1 : ℕ) : ℝ))) / ∑ i ∈ range n, c i * c i > interval then
            s + ((((n : ℤ) - lag) * ((n : ℤ) - lag - 1) * ((n : ℤ) - lag - 2) : ℤ) : ℝ) *
              ((∑ i ∈ range (n - lag), (rk (i + 1) - (1 / 2 : ℝ) * ((n + 1 : ℕ) : ℝ)) *
                (rk (i + 1 + lag) - (1 / 2 : ℝ) * ((n + 1 : ℕ) : ℝ))) / ∑ i ∈ range n, c i * c i)
          else s) = ∑ l ∈ Icc 1 L,
            if (∑ i ∈ range (n - l), c i * c (i + l)) / (∑ i ∈ range n, c i * c i) ≤ interval ∧
              (∑ i ∈ range (n - l), c i * c (i + l)) / (∑ i ∈ range n, c i * c i) ≥ -interval then 0
            else ((n : ℝ) - l) * ((n : ℝ) - l - 1) * ((n : ℝ) - l - 2) *
              ((∑ i ∈ range (n - l), c i * c (i + l)) / (∑ i ∈ range n, c i * c i)) := by
        rw [← zero_add (∑ l ∈ Icc 1 L, _), ← doLoop_add]
        apply doLoop_congr
        intro l s l1 l2
        rw [hlag l l1]
        set acf := (∑ i ∈ range (n - l), c i * c (i + l)) / (∑ i ∈ range n, c i * c i)
        by_cases ha : acf ≤ interval ∧ acf ≥ -interval
        · rw [if_pos ha, if_neg, add_zero]
          rintro (h | h)
          · exact absurd ha.2 (not_le.mpr h)
          · exact absurd ha.1 (not_le.mpr h)
        · rw [if_neg ha, if_pos]
          · push_cast; rfl
          · by_contra hh
            push Not at hh
            exact ha ⟨hh.2, hh.1⟩
      rw [hloop]
      have hcast : ((n * (n - 1) * (n - 2) : ℕ) : ℝ) = (n : ℝ) * ((n : ℝ) - 1) * ((n : ℝ) - 2) := by
        obtain ⟨k, rfl⟩ : ∃ k, n = k + 2 := ⟨n - 2, by omega⟩
        rw [show k + 2 - 1 = k + 1 by omega, show k + 2 - 2 = k by omega]
        push_cast; ring
      rw [hcast]
      rfl

end Skyborn.MK.Py
