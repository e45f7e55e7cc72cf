import Verif.MK.PyProps

/-! C11, C52: witnesses of behaviour that contradicts the expected property, and what does hold for `linregress`. -/

namespace Skyborn.MK.Py

open Skyborn Skyborn.MK Finset Spec

variable (E : Env)

/-- The four samples `0, missing, 1, 2` in one grid column. -/
noncomputable def gapData : NDArr (Option ℝ) :=
  ⟨[4, 1], fun idx => [some 0, none, some 1, some 2].getD (idx.headD 0) none⟩

/-- Correlated seasonal test with two seasons and Theil-Sen slopes. -/
noncomputable def gapCfg : Cfg := ⟨1 / 20, .theilslopes, .correlatedSeasonal, 2, none⟩

theorem gap_series : Spec.series gapData 0 [0] = [some 0, none, some 1, some 2] := by
  simp [Spec.series, gapData, List.range_succ]

theorem seasonPairs_four : seasonPairs 4 2 = {(1, 3), (2, 4)} := by decide

theorem seasonPairs_three : seasonPairs 3 2 = {(1, 3)} := by decide

theorem median_singleton' (a : ℝ) : median ({a} : Multiset ℝ) = a := by
  simp [median]

theorem gaps_trend : seasonalSlopeScalar [some 0, none, some 1, some 2] (2 : ℤ) = some (some 1) := by
  have h := C13_slope [some 0, none, some 1, some 2] 2 (by norm_num)
  have e : Spec.seasonSlopesGaps [some 0, none, some 1, some 2] 2 = {1} := by
    unfold Spec.seasonSlopesGaps
    rw [show ([some 0, none, some 1, some 2] : List (Option ℝ)).length = 4 from rfl, seasonPairs_four]
    rw [show (({(1, 3), (2, 4)} : Finset (ℕ × ℕ)).filter fun p => present [some 0, none, some 1, some 2] p.1 ∧
      present [some 0, none, some 1, some 2] p.2) = {(1, 3)} from by
        ext ⟨a, b⟩
        simp only [Finset.mem_filter, Finset.mem_insert, Finset.mem_singleton, Prod.mk.injEq]
        constructor
        · rintro ⟨⟨rfl, rfl⟩ | ⟨rfl, rfl⟩, h1, h2⟩
          · exact ⟨rfl, rfl⟩
          · simp [present] at h1
        · rintro ⟨rfl, rfl⟩
          simp [present]]
    simp [valAt]
    norm_num
  rw [e] at h
  simpa [median_singleton'] using h

theorem closed_trend : seasonalSlopeScalar [some 0, some 1, some 2] (2 : ℤ) = some (some 2) := by
  have h := C13_slope [some 0, some 1, some 2] 2 (by norm_num)
  have e : Spec.seasonSlopesGaps [some 0, some 1, some 2] 2 = {2} := by
    unfold Spec.seasonSlopesGaps
    rw [show ([some 0, some 1, some 2] : List (Option ℝ)).length = 3 from rfl, seasonPairs_three]
    rw [show (({(1, 3)} : Finset (ℕ × ℕ)).filter fun p => present [some 0, some 1, some 2] p.1 ∧
      present [some 0, some 1, some 2] p.2) = {(1, 3)} from by
        ext ⟨a, b⟩
        simp only [Finset.mem_filter, Finset.mem_singleton, Prod.mk.injEq]
        constructor
        · rintro ⟨h, -⟩; exact h
        · rintro ⟨rfl, rfl⟩
          simp [present]]
    simp [valAt]
    norm_num
  rw [e] at h
  simpa [median_singleton'] using h

/-- trend of the correlated seasonal test -/
theorem trend_correlated (vals : List (Option ℝ)) (b : ℝ) (W : ℕ → ℝ) (hn : 3 ≤ vals.reduceOption.length)
    (h : seasonalSlopeScalar vals 2 = some (some b)) :
    ∃ r, mkTest E gapCfg vals W = some r ∧ r.trend = some b := by
  unfold mkTest
  rw [if_pos (Or.inr (show gapCfg.test = .correlatedSeasonal from rfl))]
  unfold mkSeasonal
  rw [if_neg (by omega)]
  simp only [gapCfg, h]
  obtain ⟨M, e, -⟩ := reshapeSeasonal_eq vals (p := 2) (by norm_num)
  simp only [correlatedSeasonalScalar]
  rw [show ((2 : ℕ) : ℤ) = 2 from rfl] at e
  rw [e]
  simp

/-- C11 is false of the code: a gridded `correlated_seasonal` analysis of one column `0, missing, 1, 2` with period 2 succeeds
and reports trend 2 (gap closed, seasons shifted), while `mann_kendall_test` of the same series reports trend 1. -/
theorem C11_false (W : ℕ → ℝ) :
    ∃ out r, mkMultidim E gapCfg gapData 0 none W = some out ∧
      mkTest E gapCfg (Spec.series gapData 0 [0]) W = some r ∧
      (out.get [0]).trend = some 2 ∧ r.trend = some 1 := by
  have hc : Covered gapCfg := fun _ => ⟨rfl, by simp [gapCfg]⟩
  obtain ⟨r, er, hr⟩ := trend_correlated E _ 1 W (by rw [gap_series]; simp [List.reduceOption]) (gap_series ▸ gaps_trend)
  rcases multidim_ok E gapCfg hc gapData 0 0 ⟨by simp [gapData], Or.inl rfl⟩ none (by simp) (by simp [gapData]) W with
    ⟨-, idx, hidx, hcp, -⟩ | ⟨out, eo, -, ho⟩
  · exfalso
    have : idx = [0] := by
      match idx, hidx with
      | [a], h => simp [gapData, InB] at h; rw [h]
      | [], h => simp [gapData, InB] at h
      | _ :: _ :: _, h => simp [gapData, InB] at h
    subst this
    rw [gap_series] at hcp
    obtain ⟨-, h2⟩ := hcp
    simp [List.reduceOption] at h2
  · refine ⟨out, r, eo, er, ?_, hr⟩
    obtain ⟨r', er', hr'⟩ := trend_correlated E [some 0, some 1, some 2] 2 W (by simp [List.reduceOption]) closed_trend
    have := (C11_partial E gapCfg hc rfl gapData 0 0 ⟨by simp [gapData], Or.inl rfl⟩ none (by simp) (by simp [gapData]) W out eo
      [0] (by simp [gapData, InB])).1
    rw [this, gap_series]
    rw [show ([some 0, none, some 1, some 2] : List (Option ℝ)).reduceOption.map some = [some 0, some 1, some 2] by
      simp [List.reduceOption], er']
    exact hr'

/-! ### seasonal families with `linregress` -/

/-- The batch path of the seasonal families with `linregress`: every field but the standard error is the one of the 1-D test;
the standard error is that of the regression against the sample index, the 1-D test's that of the slope times index/period. -/
theorem batch_season_lin (cfg : Cfg) (hs : cfg.test = .seasonal ∨ cfg.test = .correlatedSeasonal)
    (hmeth : cfg.method = .linregress) (hper : 0 < cfg.period) {n m : ℕ}
    (hn : 3 ≤ n) (hm : 0 < m) (l : ℕ → List ℝ) (hl : ∀ j, j < m → (l j).length = n) (W : ℕ → ℝ) :
    ∃ st, batchStats E cfg n m (fun j => elems (l j)) W = some st ∧ ∀ j, j < m → ∃ r,
      mkTest E cfg ((l j).map some) W = some r ∧
      r.stdError = some (resStdErr n (fun i => arange i / (cfg.period : ℝ)) (elems (l j)) (linregress n arange (elems (l j))).1) ∧
      batchRes E cfg n (fun j => elems (l j)) st j =
        { r with stdError := some (resStdErr n arange (elems (l j)) (linregress n arange (elems (l j))).1) } := by
  obtain ⟨p, hp⟩ : ∃ p : ℕ, cfg.period = (p : ℤ) := ⟨cfg.period.toNat, by omega⟩
  have hp0 : 0 < p := by omega
  have hred : ∀ j, ((l j).map some).reduceOption = l j := fun j => reduceOption_map_some _
  have hmean : ∀ (f g : ℕ → ℝ), (∀ i, i < n → f i = g i) → mean n f = mean n g := by
    intro f g h
    unfold mean; rw [Finset.sum_congr rfl fun i hi => h i (by simpa using hi)]
  have hstd : ∀ (f g : ℕ → ℝ), (∀ i, i < n → f i = g i) → std n f = std n g := by
    intro f g h
    unfold std; rw [hmean f g h, Finset.sum_congr rfl fun i hi => by rw [h i (by simpa using hi)]]
  have hidx : ∀ i, i < n → (((List.range n).getD i 0 : ℕ) : ℝ) = arange i := by
    intro i hi
    rw [List.getD_eq_getElem _ _ (by simpa using hi), List.getElem_range]; rfl
  have hlin : ∀ j, linregress n (fun i => (((List.range n).getD i 0 : ℕ) : ℝ)) (elems (l j)) = linregress n arange (elems (l j)) := by
    intro j
    have e := hmean (fun i => (((List.range n).getD i 0 : ℕ) : ℝ)) arange hidx
    unfold linregress
    simp only [e]
    congr 1
    · congr 1 <;> exact Finset.sum_congr rfl fun i hi => by rw [hidx i (by simpa using hi)]
    · congr 3 <;> exact Finset.sum_congr rfl fun i hi => by rw [hidx i (by simpa using hi)]
  have hse : ∀ j, ∀ b a : ℝ, stdErrorScalar n (fun i => (((List.range n).getD i 0 : ℕ) : ℝ) / (p : ℝ)) (elems (l j)) (some b) (some a)
      = some (resStdErr n (fun i => arange i / (p : ℝ)) (elems (l j)) b) := by
    intro j b a
    rw [stdErrorScalar_eq (by omega)]
    unfold resStdErr
    rw [hstd _ (fun i => elems (l j) i - arange i / (p : ℝ) * b) fun i hi => by simp only [hidx i hi]]
  rcases hs with ht | ht
  · obtain ⟨st, est, h1, h2, h3⟩ := seasonalScoreVarBatch_eq (n := n) (m := m) (fun j => elems (l j)) hp0 W
    refine ⟨_, by simp only [batchStats, ht, hmeth]; rw [hp, est]; rfl, fun j hj => ?_⟩
    unfold mkTest
    rw [if_pos (Or.inl ht)]
    unfold mkSeasonal
    simp only [hred, hl j hj, finiteIdx_clean]
    rw [if_neg (by omega)]
    simp only [hmeth, ht, if_true]
    rw [hp, seasonalScoreVarScalar_clean _ hp0]
    simp only [Option.bind_eq_bind, Option.bind_some, hl j hj, hlin, Int.cast_natCast, hse]
    refine ⟨_, rfl, rfl, ?_⟩
    unfold batchRes stdErrorBatch
    simp only [ht, zBatch_eq, h1 j hj, h2 j hj, h3, hmeth, linregressStdErrorBatch_eq (n := n) (by omega : 0 < n),
      linSlope_eq (n := n) (by omega : 0 < n)]
    split_ifs <;> simp_all
  · obtain ⟨st, est, h1⟩ := columns_ok (m := m) (fun _ => ((0 : ℝ), (0 : ℝ), (0 : ℝ)))
      (k := fun j => some (correlatedGroupedStats n cfg.period.toNat (buf (elems (l j))))) (fun j _ => rfl)
    refine ⟨_, by simp only [batchStats, ht, hmeth, Option.bind_eq_bind, Option.bind_some]; rw [est]; rfl,
      fun j hj => ?_⟩
    unfold mkTest
    rw [if_pos (Or.inr ht)]
    unfold mkSeasonal
    simp only [hred, hl j hj, finiteIdx_clean]
    rw [if_neg (by omega)]
    simp only [hmeth, ht, reduceCtorEq, if_false]
    rw [hp, correlatedSeasonalScalar_clean _ hp0]
    simp only [Option.bind_eq_bind, Option.bind_some, hl j hj, hlin, Int.cast_natCast, hse]
    refine ⟨_, rfl, rfl, ?_⟩
    unfold batchRes stdErrorBatch
    have hd : (correlatedGroupedStats n p (buf (elems (l 0)))).2.2 = (correlatedGroupedStats n p (buf (elems (l j)))).2.2 := by
      rw [C50_correlated_closed_form, C50_correlated_closed_form]
    simp only [ht, h1 j hj, h1 0 hm, if_true, hp, Int.toNat_natCast, hmeth,
      linregressStdErrorBatch_eq (n := n) (by omega : 0 < n), linSlope_eq (n := n) (by omega : 0 < n)]
    rw [hd]
    split_ifs <;> simp_all

/-- C52, partial: with `linregress`, the gridded seasonal families report for every complete column the same trend, h, p, z and
tau as the 1-D test (missing: `std_error`, which differs, see `C52_false`). -/
theorem C52_partial (cfg : Cfg) (hs : cfg.test = .seasonal ∨ cfg.test = .correlatedSeasonal)
    (hmeth : cfg.method = .linregress) (hper : 0 < cfg.period) {n m : ℕ}
    (hn : 3 ≤ n) (hm : 0 < m) (l : ℕ → List ℝ) (hl : ∀ j, j < m → (l j).length = n) (W : ℕ → ℝ) :
    ∃ st, batchStats E cfg n m (fun j => elems (l j)) W = some st ∧ ∀ j, j < m → ∃ r,
      mkTest E cfg ((l j).map some) W = some r ∧
      let b := batchRes E cfg n (fun j => elems (l j)) st j;
      b.trend = r.trend ∧ b.h = r.h ∧ b.p = r.p ∧ b.z = r.z ∧ b.tau = r.tau := by
  obtain ⟨st, e, h⟩ := batch_season_lin E cfg hs hmeth hper hn hm l hl W
  refine ⟨st, e, fun j hj => ?_⟩
  obtain ⟨r, e1, -, e2⟩ := h j hj
  exact ⟨r, e1, by rw [e2]; exact ⟨rfl, rfl, rfl, rfl, rfl⟩⟩

/-- C52 is false of the code: for the complete series `0, 1, 2` with period 2 the gridded seasonal test with `linregress`
reports a standard error of 0 and the 1-D test a positive one. -/
theorem C52_false (W : ℕ → ℝ) :
    ∃ out r, vectorizedMk E ⟨1 / 20, .linregress, .seasonal, 2, none⟩ 3 1 (fun _ => [some 0, some 1, some 2]) W = some out ∧
      mkTest E ⟨1 / 20, .linregress, .seasonal, 2, none⟩ [some 0, some 1, some 2] W = some r ∧
      (out 0).stdError = some 0 ∧ ∃ e, r.stdError = some e ∧ 0 < e := by
  obtain ⟨st, e, h⟩ := batch_season_lin E ⟨1 / 20, .linregress, .seasonal, 2, none⟩ (Or.inl rfl) rfl (by norm_num)
    (n := 3) (m := 1) le_rfl one_pos (fun _ => [0, 1, 2]) (fun _ _ => rfl) W
  obtain ⟨r, e1, e2, e3⟩ := h 0 one_pos
  have hlin : (linregress 3 arange (elems [0, 1, 2])).1 = 1 := by
    simp [linregress, mean, arange, elems, Finset.sum_range_succ]
    norm_num
  rw [hlin] at e2 e3
  have hout : ∃ out, vectorizedMk E ⟨1 / 20, .linregress, .seasonal, 2, none⟩ 3 1 (fun _ => [some 0, some 1, some 2]) W = some out ∧
      out 0 = batchRes E ⟨1 / 20, .linregress, .seasonal, 2, none⟩ 3 (fun _ => elems [0, 1, 2]) st 0 := by
    have hred : ([some 0, some 1, some 2] : List (Option ℝ)).reduceOption = [0, 1, 2] := by simp [List.reduceOption]
    unfold vectorizedMk
    simp [hred, scatter, -one_div, e]
  obtain ⟨out, eo, ho⟩ := hout
  refine ⟨out, r, eo, e1, ?_, _, e2, ?_⟩
  · rw [ho, e3]
    simp only [Option.some.injEq]
    simp [resStdErr, std, mean, arange, elems, Finset.sum_range_succ]
  · unfold resStdErr
    apply div_pos _ (Real.sqrt_pos.mpr (by norm_num))
    unfold std
    apply Real.sqrt_pos.mpr
    simp [mean, arange, elems, Finset.sum_range_succ]
    norm_num

/-- Hypotheses of C10 on a concrete case: two dimensions, time axis given as `-2`, original test, incomplete data; the gridded
result exists and is the 1-D result. -/
example (W : ℕ → ℝ) : ∃ out, mkMultidim E ⟨1 / 20, .theilslopes, .original, 12, none⟩ gapData (-2) (some 1) W = some out ∧
    out.get [0] = (mkTest E ⟨1 / 20, .theilslopes, .original, 12, none⟩ [some 0, none, some 1, some 2] W).getD Res.nan := by
  rcases C10_grid_point E ⟨1 / 20, .theilslopes, .original, 12, none⟩ (by simp [Covered]) (by simp) gapData (-2) 0
    ⟨by simp [gapData], Or.inr (by simp [gapData])⟩ (some 1) (by simp) (by simp) W with ⟨-, idx, -, hcp, hnone⟩ | ⟨out, e, -, h⟩
  · exfalso
    obtain ⟨r, -, -, er, -⟩ := C54_original_defined E ⟨1 / 20, .theilslopes, .original, 12, none⟩ rfl _ W
      (by rw [hcp.2]; exact hcp.1)
    rw [er] at hnone; simp at hnone
  · exact ⟨out, e, by rw [(h [0] (by simp [gapData, InB])).1, gap_series]⟩

end Skyborn.MK.Py
