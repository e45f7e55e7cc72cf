/-
C65: what the serial-correlation variants of the test (pre-whitening, trend-free pre-whitening, Yue-Wang, Hamed-Rao) compute,
stated on the result of `mann_kendall_test` in textbook terms.
-/
import Verif.MK.PyProps

namespace Skyborn.MK.Py

open Skyborn Skyborn.MK Finset Spec

variable (E : Env)

/-- `r` is the lag-`l` autocorrelation of `x 0 … x (n-1)`. -/
def Spec.IsAcf (n : ℕ) (x : ℕ → ℝ) (l : ℕ) (r : ℝ) : Prop :=
  ∃ m : ℝ, m * n = ∑ i ∈ range n, x i ∧ ∑ i ∈ range n, (x i - m) ^ 2 ≠ 0 ∧
    r * ∑ i ∈ range n, (x i - m) ^ 2 = ∑ i ∈ range (n - l), (x i - m) * (x (i + l) - m)

/-- The reported statistics belong to a Kendall score `S` of variance `V` on `m` samples: tau = S / (m(m-1)/2); z = 0 for a zero
score, otherwise the score moved by one towards zero over the square root of the variance. -/
def Spec.Reports (res : Res) (S V : ℝ) (m : ℕ) : Prop :=
  res.tau = some (S / ((m : ℝ) * ((m : ℝ) - 1) / 2)) ∧ (S = 0 → res.z = .fin 0) ∧
    (0 < V → 0 < S → res.z = .fin ((S - 1) / Real.sqrt V)) ∧ (0 < V → S < 0 → res.z = .fin ((S + 1) / Real.sqrt V))

theorem reports_of (cfg : Cfg) (n : ℕ) (y : ℕ → ℝ) (S V : ℝ) (m : ℕ) : Spec.Reports (toRes E cfg n y (S, some V, m)) S V m := by
  refine ⟨?_, fun h => ?_, fun hV hS => ?_, fun hV hS => ?_⟩
  · simp only [toRes]; congr 2; ring
  · simp only [toRes, zContinuity]; rw [if_neg (by rw [h]; exact lt_irrefl _), if_pos h]
  · simp only [toRes, zContinuity]; rw [if_pos hS]; simp only [divSqrt]; rw [if_neg hV.not_gt, if_neg hV.ne']
  · simp only [toRes, zContinuity]; rw [if_neg hS.not_gt, if_neg hS.ne]; simp only [divSqrt]; rw [if_neg hV.not_gt, if_neg hV.ne']

theorem acf_eq {n : ℕ} (hn : 0 < n) {x : ℕ → ℝ} {l : ℕ} {r : ℝ} (h : Spec.IsAcf n x l r) :
    ∑ i ∈ range n, (x i - mean n x) * (x i - mean n x) ≠ 0 ∧
      (∑ i ∈ range (n - l), (x i - mean n x) * (x (i + l) - mean n x)) / ∑ i ∈ range n, (x i - mean n x) * (x i - mean n x) = r := by
  obtain ⟨m, hm, h0, hr⟩ := h
  have hn' : (n : ℝ) ≠ 0 := by exact_mod_cast hn.ne'
  have : mean n x = m := by unfold mean; rw [← hm]; field_simp
  rw [this]
  simp only [← pow_two]
  exact ⟨h0, by rw [← hr]; field_simp⟩

/-- C65, pre-whitening: with `r` the lag-1 autocorrelation of the finite samples, the statistics are those of the Kendall score and tie
variance of the `n - 1` values `y_{i+1} - r y_i`. -/
theorem C65_pre_whitening (cfg : Cfg) (ht : cfg.test = .preWhitening) (vals : List (Option ℝ)) (W : ℕ → ℝ) (hn : 3 ≤ vals.reduceOption.length)
    {r : ℝ} (hr : Spec.IsAcf vals.reduceOption.length (fun i => vals.reduceOption.getD i 0) 1 r) {w : ℕ → ℝ}
    (hw : ∀ i, w (i + 1) = vals.reduceOption.getD (i + 1) 0 - r * vals.reduceOption.getD i 0) :
    ∃ res, mkTest E cfg vals W = some res ∧ Spec.Reports res (score (vals.reduceOption.length - 1) w)
      (tieVariance (values (vals.reduceOption.length - 1) w)) (vals.reduceOption.length - 1) := by
  rw [mkPlain_eq E cfg (by rw [ht]; simp) vals W hn]
  set n := vals.reduceOption.length
  have he : elems vals.reduceOption = fun i => vals.reduceOption.getD i 0 := rfl
  rw [he]
  set y : ℕ → ℝ := fun i => vals.reduceOption.getD i 0 with hy
  obtain ⟨h0, h1⟩ := acf_eq (by omega) hr
  have hl : lag1Autocorr n y = some r := by
    unfold lag1Autocorr
    dsimp only
    rw [if_neg h0, h1]
  have hb : ∀ i, 1 ≤ i → buf (fun i => y (i + 1) - y i * r) i = w i := by
    intro i hi
    obtain ⟨i, rfl⟩ : ∃ j, i = j + 1 := ⟨i - 1, by omega⟩
    simp only [buf, Nat.add_sub_cancel]
    rw [hw i]; ring
  have hs : sc (n - 1) (fun i => y (i + 1) - y i * r) = score (n - 1) w := by
    unfold sc score
    refine Finset.sum_congr rfl fun p hp => ?_
    rw [mem_pairs] at hp
    rw [hb _ (by omega), hb _ (by omega)]
  have hv : tv (n - 1) (fun i => y (i + 1) - y i * r) = tieVariance (values (n - 1) w) := by
    unfold tv
    congr 1
    unfold values
    refine Multiset.map_congr rfl fun i hi => hb i ?_
    exact (Finset.mem_Icc.mp hi).1
  simp only [colStats, ht, Option.map_some, Option.some.injEq, exists_eq_left', pwStats, hl]
  rw [hs, hv]
  exact reports_of E cfg n y _ _ _

/-- C65, trend-free pre-whitening: with `b` the reported trend, `d_i = y_i - b(i+1)` and `r` the lag-1 autocorrelation of `d`, the statistics are
those of `d_{i+1} - r d_i + b(i+1)`. -/
theorem C65_trend_free (cfg : Cfg) (ht : cfg.test = .trendFreePreWhitening) (vals : List (Option ℝ)) (W : ℕ → ℝ)
    (hn : 3 ≤ vals.reduceOption.length) : ∃ res b, mkTest E cfg vals W = some res ∧ res.trend = some b ∧
      ∀ (d w : ℕ → ℝ) (r : ℝ), (∀ i, d i = vals.reduceOption.getD i 0 - b * (i + 1)) → Spec.IsAcf vals.reduceOption.length d 1 r →
        (∀ i, w (i + 1) = d (i + 1) - r * d i + b * (i + 1)) → Spec.Reports res (score (vals.reduceOption.length - 1) w)
          (tieVariance (values (vals.reduceOption.length - 1) w)) (vals.reduceOption.length - 1) := by
  rw [mkPlain_eq E cfg (by rw [ht]; simp) vals W hn]
  set n := vals.reduceOption.length
  have he : elems vals.reduceOption = fun i => vals.reduceOption.getD i 0 := rfl
  rw [he]
  set y : ℕ → ℝ := fun i => vals.reduceOption.getD i 0 with hy
  simp only [colStats, ht, Option.map_some]
  refine ⟨_, slopeOf cfg n y, rfl, rfl, fun d w r hd hr hw => ?_⟩
  obtain ⟨h0, h1⟩ := acf_eq (by omega) hr
  have hdd : (fun i => y i - ((i : ℝ) + 1) * slopeOf cfg n y) = d := by
    funext i; rw [hd i]; ring
  have hl : lag1Autocorr n d = some r := by
    unfold lag1Autocorr
    dsimp only
    rw [if_neg h0, h1]
  have hb : ∀ i, 1 ≤ i → buf (fun i => d (i + 1) - d i * r + ((i : ℝ) + 1) * slopeOf cfg n y) i = w i := by
    intro i hi
    obtain ⟨i, rfl⟩ : ∃ j, i = j + 1 := ⟨i - 1, by omega⟩
    simp only [buf, Nat.add_sub_cancel]
    rw [hw i]; ring
  have hs : sc (n - 1) (fun i => d (i + 1) - d i * r + ((i : ℝ) + 1) * slopeOf cfg n y) = score (n - 1) w := by
    unfold sc score
    refine Finset.sum_congr rfl fun p hp => ?_
    rw [mem_pairs] at hp
    rw [hb _ (by omega), hb _ (by omega)]
  have hv : tv (n - 1) (fun i => d (i + 1) - d i * r + ((i : ℝ) + 1) * slopeOf cfg n y) = tieVariance (values (n - 1) w) := by
    unfold tv
    congr 1
    unfold values
    refine Multiset.map_congr rfl fun i hi => hb i ?_
    exact (Finset.mem_Icc.mp hi).1
  have ht' : tfpwStats n y (slopeOf cfg n y) = (score (n - 1) w, some (tieVariance (values (n - 1) w))) := by
    unfold tfpwStats
    dsimp only
    have hd' : ∀ i, y i - ((i : ℝ) + 1) * slopeOf cfg n y = d i := congrFun hdd
    have hd'' : ∀ i, y (i + 1) - (((i + 1 : ℕ) : ℝ) + 1) * slopeOf cfg n y = d (i + 1) := fun i => hd' (i + 1)
    simp only [hd', hd'']
    rw [show (fun i => d i) = d from rfl, hl]
    dsimp only
    rw [hs, hv]
  rw [ht']
  exact reports_of E cfg n y _ _ _

/-- C65: pre-whitening of a constant series gives z = 0 and tau = 0 rather than a division by zero. -/
theorem C65_degenerate (cfg : Cfg) (ht : cfg.test = .preWhitening) (vals : List (Option ℝ)) (W : ℕ → ℝ) (hn : 3 ≤ vals.reduceOption.length)
    {c : ℝ} (hc : ∀ v ∈ vals.reduceOption, v = c) : ∃ res, mkTest E cfg vals W = some res ∧ res.z = .fin 0 ∧ res.tau = some 0 := by
  rw [mkPlain_eq E cfg (by rw [ht]; simp) vals W hn]
  set n := vals.reduceOption.length with hnn
  have hy : ∀ i, i < n → elems vals.reduceOption i = c := by
    intro i hi
    unfold elems
    rw [List.getD_eq_getElem _ _ hi]
    exact hc _ (List.getElem_mem hi)
  have hm : mean n (elems vals.reduceOption) = c := by
    unfold mean
    rw [Finset.sum_congr rfl fun i hi => hy i (Finset.mem_range.mp hi), Finset.sum_const, card_range, nsmul_eq_mul]
    have : (n : ℝ) ≠ 0 := by exact_mod_cast (show n ≠ 0 by omega)
    field_simp
  have hl : lag1Autocorr n (elems vals.reduceOption) = none := by
    unfold lag1Autocorr
    dsimp only
    rw [hm, if_pos]
    refine Finset.sum_eq_zero fun i hi => ?_
    rw [hy i (Finset.mem_range.mp hi)]; ring
  simp only [colStats, ht, Option.map_some, Option.some.injEq, exists_eq_left', pwStats, hl]
  constructor
  · simp [toRes, zContinuity]
  · simp [toRes]

/-- C65, Yue-Wang: score of the finite samples, variance = tie variance times `1 + 2 sum_{l=1..L} (1 - l/n) r_l` with `r_l` the autocorrelations of the
samples minus the Theil-Sen line, `L` the lag limit (`n - 1` by default). -/
theorem C65_yue_wang (cfg : Cfg) (ht : cfg.test = .yueWang) (vals : List (Option ℝ)) (W : ℕ → ℝ) (hn : 3 ≤ vals.reduceOption.length)
    {L : ℕ} (hL : autocorrLagLimit vals.reduceOption.length cfg.lag = some L) (hL0 : 0 < L) {b : ℝ}
    (hb : b = median (pairSlopes vals.reduceOption.length (buf fun i => vals.reduceOption.getD i 0))) {r : ℕ → ℝ}
    (hr : ∀ l, 1 ≤ l → l ≤ L → Spec.IsAcf vals.reduceOption.length (fun i => vals.reduceOption.getD i 0 - b * (i + 1)) l (r l)) :
    ∃ res, mkTest E cfg vals W = some res ∧ Spec.Reports res (score vals.reduceOption.length (buf fun i => vals.reduceOption.getD i 0))
      (tieVariance (values vals.reduceOption.length (buf fun i => vals.reduceOption.getD i 0)) *
        (1 + 2 * ∑ l ∈ Icc 1 L, (1 - (l : ℝ) / vals.reduceOption.length) * r l)) vals.reduceOption.length := by
  rw [mkPlain_eq E cfg (by rw [ht]; simp) vals W hn]
  set n := vals.reduceOption.length
  have he : elems vals.reduceOption = fun i => vals.reduceOption.getD i 0 := rfl
  rw [he]
  set y : ℕ → ℝ := fun i => vals.reduceOption.getD i 0 with hy
  have hd : (fun i => y i - ((i : ℝ) + 1) * sen n y) = fun i => y i - b * (i + 1) := by
    funext i; rw [hb]; unfold sen; ring
  have hv : Spec.yueWang n y (sen n y) L = some (tieVariance (values n (buf y)) * (1 + 2 * ∑ l ∈ Icc 1 L, (1 - (l : ℝ) / n) * r l)) := by
    unfold Spec.yueWang
    dsimp only
    rw [if_neg (by omega)]
    have hd' : ∀ i, y i - ((i : ℝ) + 1) * sen n y = y i - b * (i + 1) := fun i => congrFun hd i
    simp only [hd']
    rw [if_neg (acf_eq (by omega) (hr 1 le_rfl (by omega))).1]
    congr 4
    refine Finset.sum_congr rfl fun l hl => ?_
    rw [Finset.mem_Icc] at hl
    rw [(acf_eq (by omega) (hr l hl.1 hl.2)).2]
  simp only [colStats, ht, hL, Option.map_some, Option.some.injEq, exists_eq_left', hv]
  exact reports_of E cfg n y _ _ _

/-- C65, Hamed-Rao: variance = tie variance times `1 + 2/(n(n-1)(n-2)) sum (n-l)(n-l-1)(n-l-2) r_l` over the lags `1..L` whose autocorrelation `r_l` of the
mid-ranks of the samples minus the Theil-Sen line is outside the confidence band `± ppf(1 - alpha/2)/sqrt n`. -/
theorem C65_hamed_rao (cfg : Cfg) (ht : cfg.test = .hamedRao) (vals : List (Option ℝ)) (W : ℕ → ℝ) (hn : 3 ≤ vals.reduceOption.length)
    {L : ℕ} (hL : autocorrLagLimit vals.reduceOption.length cfg.lag = some L) (hL0 : 0 < L) {b : ℝ}
    (hb : b = median (pairSlopes vals.reduceOption.length (buf fun i => vals.reduceOption.getD i 0))) {r : ℕ → ℝ}
    (hr : ∀ l, 1 ≤ l → l ≤ L → Spec.IsAcf vals.reduceOption.length
      (fun i => midRank vals.reduceOption.length (buf fun i => vals.reduceOption.getD i 0 - b * (i + 1)) (i + 1)) l (r l)) :
    ∃ res, mkTest E cfg vals W = some res ∧ Spec.Reports res (score vals.reduceOption.length (buf fun i => vals.reduceOption.getD i 0))
      (tieVariance (values vals.reduceOption.length (buf fun i => vals.reduceOption.getD i 0)) *
        (1 + 2 / ((vals.reduceOption.length : ℝ) * (vals.reduceOption.length - 1) * (vals.reduceOption.length - 2)) *
          ∑ l ∈ (Icc 1 L).filter (fun l => E.ppf (1 - cfg.alpha / 2) / Real.sqrt vals.reduceOption.length < |r l|),
            ((vals.reduceOption.length : ℝ) - l) * (vals.reduceOption.length - l - 1) * (vals.reduceOption.length - l - 2) * r l))
      vals.reduceOption.length := by
  rw [mkPlain_eq E cfg (by rw [ht]; simp) vals W hn]
  set n := vals.reduceOption.length
  have he : elems vals.reduceOption = fun i => vals.reduceOption.getD i 0 := rfl
  rw [he]
  set y : ℕ → ℝ := fun i => vals.reduceOption.getD i 0 with hy
  have hd : (fun i => y i - ((i : ℝ) + 1) * sen n y) = fun i => y i - b * (i + 1) := by
    funext i; rw [hb]; unfold sen; ring
  generalize hI : E.ppf (1 - cfg.alpha / 2) / Real.sqrt n = I
  have hrk : ∀ i, midRank n (buf fun i => y i - b * (i + 1)) (i + 1) = rankdata n (fun i => y i - ((i : ℝ) + 1) * sen n y) i := by
    intro i; rw [hd]; rfl
  have hmean : mean n (fun i => midRank n (buf fun i => y i - b * (i + 1)) (i + 1)) = ((n : ℝ) + 1) / 2 := by
    rw [← mean_rank (by omega) (fun i => y i - b * (i + 1))]; rfl
  have hv : Spec.hamedRao n y (sen n y) I L = some (tieVariance (values n (buf y)) * (1 + 2 / ((n : ℝ) * (n - 1) * (n - 2)) *
      ∑ l ∈ (Icc 1 L).filter (fun l => I < |r l|), ((n : ℝ) - l) * (n - l - 1) * (n - l - 2) * r l)) := by
    unfold Spec.hamedRao
    dsimp only
    rw [if_neg (by omega)]
    simp only [← hrk]
    have hA := fun (l : ℕ) (h1 : 1 ≤ l) (h2 : l ≤ L) => acf_eq (show 0 < n by omega) (hr l h1 h2)
    beta_reduce at hA
    rw [hmean] at hA
    rw [if_neg (hA 1 le_rfl (by omega)).1]
    congr 3
    rw [Finset.sum_filter, mul_comm (2 : ℝ), mul_div_assoc, mul_comm]
    congr 1
    refine Finset.sum_congr rfl fun l hl => ?_
    rw [Finset.mem_Icc] at hl
    rw [(hA l hl.1 hl.2).2]
    by_cases h : I < |r l|
    · rw [if_pos h, if_neg]
      rintro ⟨h1, h2⟩
      exact absurd (abs_le.mpr ⟨by linarith, h1⟩) (not_le.mpr h)
    · rw [if_neg h, if_pos]
      obtain ⟨h1, h2⟩ := abs_le.mp (not_lt.mp h)
      exact ⟨h2, h1⟩
  simp only [colStats, ht, hL, hI, Option.map_some, Option.some.injEq, exists_eq_left', hv]
  exact reports_of E cfg n y _ _ _

/-- The hypotheses are met: samples 0, 1, 0, 1 (one missing), lag-1 autocorrelation -3/4, whitened values 1, 3/4, 1. -/
example : Spec.IsAcf ([some 0, some 1, none, some 0, some 1] : List (Option ℝ)).reduceOption.length
    (fun i => ([some 0, some 1, none, some 0, some 1] : List (Option ℝ)).reduceOption.getD i 0) 1 (-3 / 4) := by
  refine ⟨1 / 2, ?_, ?_, ?_⟩ <;> simp [List.reduceOption, Finset.sum_range_succ] <;> norm_num

end Skyborn.MK.Py
