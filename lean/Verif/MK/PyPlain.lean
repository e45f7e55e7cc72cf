import Verif.MK.PyLemmas

namespace Skyborn.MK.Py

open Skyborn Skyborn.MK Finset Spec

/-- Theil-Sen slope of a 0-based series -/
noncomputable def sen (n : ℕ) (y : ℕ → ℝ) : ℝ := median (pairSlopes n (buf y))

/-- tie-corrected variance of a 0-based series -/
noncomputable def tv (n : ℕ) (y : ℕ → ℝ) : ℝ := tieVariance (values n (buf y))

/-- score of a 0-based series -/
noncomputable def sc (n : ℕ) (y : ℕ → ℝ) : ℝ := score n (buf y)

theorem rint_sc (n : ℕ) (y : ℕ → ℝ) : rint (sc n y) = sc n y := rint_score n _

theorem scoreVar_false (n : ℕ) (y W : ℕ → ℝ) : scoreVar n y false W = some (sc n y, some (tv n y)) := by
  unfold scoreVar
  rw [baseVar_buf]
  simp [sValue_eq_score, sc, tv]

theorem scoreVar_true {n : ℕ} (hn : 2 ≤ n) (y W : ℕ → ℝ) :
    scoreVar n y true W = some (sc n y, Spec.yueWang n y (sen n y) (n - 1)) := by
  unfold scoreVar
  rw [senSlope_ok hn]
  simp [sValue_eq_score, sc, yueWangWithSlope, yueWangVariance_eq, sen]

theorem scoreVarSen_false {n : ℕ} (hn : 2 ≤ n) (y W : ℕ → ℝ) :
    scoreVarSen n y false W = some (sc n y, some (tv n y), some (sen n y)) := by
  unfold scoreVarSen
  rw [sValueAndSenSlope_ok hn, baseVar_buf]
  simp [sc, tv, sen]

theorem scoreVarSen_true {n : ℕ} (hn : 2 ≤ n) (y W : ℕ → ℝ) :
    scoreVarSen n y true W = some (sc n y, Spec.yueWang n y (sen n y) (n - 1), some (sen n y)) := by
  unfold scoreVarSen
  rw [sValueAndSenSlope_ok hn]
  simp [sc, yueWangWithSlope, yueWangVariance_eq, sen]

theorem yueWangKernel_eq {n : ℕ} (hn : 2 ≤ n) (y W : ℕ → ℝ) (L : ℕ) :
    yueWangKernel n y L W = some (sc n y, Spec.yueWang n y (sen n y) L, some (sen n y)) := by
  unfold yueWangKernel
  rw [sValueAndSenSlope_ok hn]
  simp [sc, yueWangWithSlope, yueWangVariance_eq, sen]

theorem hamedRaoKernel_eq {n : ℕ} (hn : 3 ≤ n) (y W : ℕ → ℝ) (interval : ℝ) {L : ℕ} (hL : L < n) :
    hamedRaoKernel n y interval L W =
      some (sc n y, Spec.hamedRao n y (sen n y) interval L, some (sen n y)) := by
  unfold hamedRaoKernel
  rw [sValueAndSenSlope_ok (by omega)]
  simp [sc, hamedRaoVariance_eq n hn y _ interval L hL, sen]

theorem senSlope_sen {n : ℕ} (hn : 2 ≤ n) (y W : ℕ → ℝ) : senSlope n (buf y) W = some (some (sen n y)) :=
  senSlope_ok hn _ _

theorem autocorrLagLimit_lt {n : ℕ} {lag : Option ℤ} {L : ℕ} (hn : 0 < n) (h : autocorrLagLimit n lag = some L) : L < n := by
  unfold autocorrLagLimit at h
  split_ifs at h with h1
  · simp at h; omega
  · cases lag with
    | none => simp at h; omega
    | some l =>
      simp only at h
      split_ifs at h with h2 h3
      · simp at h; omega
      · simp at h; omega

theorem mean_rank {n : ℕ} (hn : 0 < n) (v : ℕ → ℝ) : mean n (rankdata n v) = ((n : ℝ) + 1) / 2 := by
  unfold mean rankdata
  rw [← sum_Icc_eq_range n (fun i => midRank n (buf v) i), sum_midRank]
  have : (n : ℝ) ≠ 0 := by exact_mod_cast hn.ne'
  field_simp

theorem hamedRaoBatch_eq (E : Env) (alpha : ℝ) {n : ℕ} (hn : 3 ≤ n) (y : ℕ → ℝ) (slope : ℝ) (lag : Option ℤ) :
    hamedRaoBatch E alpha n y (tv n y) slope lag =
      (autocorrLagLimit n lag).map fun L => Spec.hamedRao n y slope (E.ppf (1 - alpha / 2) / Real.sqrt n) L := by
  unfold hamedRaoBatch Spec.hamedRao
  cases h : autocorrLagLimit n lag with
  | none => simp
  | some L =>
    simp only [Option.bind_eq_bind, Option.bind_some, Option.map_some]
    rw [if_neg (by omega), mean_rank (by omega)]
    split_ifs with h1 h2 h3
    · simp [tv]
    · rfl
    · subst h3; simp [doLoop_zero, tv]
    · simp only [doLoop_add, zero_add]; rfl

theorem yueWangBatch_eq {n m : ℕ} (hn : 3 ≤ n) (y : ℕ → ℕ → ℝ) (base slope : ℕ → ℝ) (lag : Option ℤ)
    (hb : ∀ j, j < m → base j = tv n (y j)) {L : ℕ} (hL : autocorrLagLimit n lag = some L) :
    ∃ out, yueWangBatch n m y base slope lag = some out ∧ ∀ j, j < m → out j = Spec.yueWang n (y j) (slope j) L := by
  unfold yueWangBatch
  rw [hL]
  simp only [Option.bind_eq_bind, Option.bind_some]
  by_cases h0 : L = 0
  · rw [if_pos (Or.inr h0)]
    exact ⟨_, rfl, fun j hj => by simp [Spec.yueWang, h0, hb j hj, tv]⟩
  · rw [if_neg (by omega)]
    split_ifs with h1
    · refine ⟨_, rfl, fun j hj => ?_⟩
      have := h1 j hj
      unfold yueWangDenom yueWangCentered at this
      simp only [Spec.yueWang, h0, if_false]
      rw [if_pos this]
    · refine ⟨_, rfl, fun j hj => ?_⟩
      by_cases hd : yueWangDenom n (y j) (slope j) = 0
      · have hd' := hd
        unfold yueWangDenom yueWangCentered at hd'
        simp only [Spec.yueWang, h0, if_false]
        rw [if_pos hd', if_neg (by simpa using hd)]
      · have hd' := hd
        unfold yueWangDenom yueWangCentered at hd'
        simp only [Spec.yueWang, h0, if_false]
        rw [if_neg hd', if_pos hd]
        simp only [ne_eq, hd, not_false_eq_true, if_true, doLoop_add, zero_add]
        rw [hb j hj]
        rfl

theorem yueWangBatch_none {n m : ℕ} (y : ℕ → ℕ → ℝ) (base slope : ℕ → ℝ) (lag : Option ℤ)
    (hL : autocorrLagLimit n lag = none) : yueWangBatch n m y base slope lag = none := by
  unfold yueWangBatch
  rw [hL]; rfl

theorem mean_arange_center {n : ℕ} (hn : 0 < n) (x : ℕ → ℝ) : ∑ i ∈ range n, (x i - mean n x) = 0 := by
  rw [Finset.sum_sub_distrib, Finset.sum_const, card_range, nsmul_eq_mul]
  unfold mean
  have : (n : ℝ) ≠ 0 := by exact_mod_cast hn.ne'
  field_simp
  ring

theorem linregress_slope {n : ℕ} (hn : 0 < n) (x y : ℕ → ℝ) : (linregress n x y).1 = linregressSlopeBatch n x y := by
  unfold linregress linregressSlopeBatch
  simp only
  congr 1
  have : ∀ i, (x i - mean n x) * (y i - mean n y) = (x i - mean n x) * y i - (x i - mean n x) * mean n y := by
    intro i; ring
  simp only [this]
  rw [Finset.sum_sub_distrib, ← Finset.sum_mul, mean_arange_center hn]
  ring

/-- slope used by the non-seasonal tests -/
noncomputable def slopeOf (cfg : Cfg) (n : ℕ) (y : ℕ → ℝ) : ℝ :=
  match cfg.method with
  | .theilslopes => sen n y
  | .linregress => (linregress n arange y).1

/-- standard deviation of the residuals about a line of the given slope (whatever its intercept) over `sqrt n` -/
noncomputable def resStdErr (n : ℕ) (x y : ℕ → ℝ) (slope : ℝ) : ℝ := std n (fun i => y i - x i * slope) / Real.sqrt n

theorem stdErrorScalar_eq {n : ℕ} (hn : 0 < n) (x y : ℕ → ℝ) (b a : ℝ) :
    stdErrorScalar n x y (some b) (some a) = some (resStdErr n x y b) := by
  unfold stdErrorScalar resStdErr
  have : std n (fun i => y i - (x i * b + a)) = std n (fun i => y i - x i * b) :=
    std_shift hn (-a) fun i _ => by ring
  simp only [this]

theorem theilStdErrorBatch_eq {n : ℕ} (hn : 0 < n) (x y : ℕ → ℝ) (b : ℝ) :
    theilStdErrorBatch n x y b = resStdErr n x y b := by
  unfold theilStdErrorBatch resStdErr
  simp only
  rw [std_shift hn (v := fun i => y i - x i * b) (-(medianN n fun i => x i * b * (-1) + y i))]
  intro i _; ring

theorem linregressStdErrorBatch_eq {n : ℕ} (hn : 0 < n) (x y : ℕ → ℝ) (b : ℝ) :
    linregressStdErrorBatch n x y b = resStdErr n x y b := by
  unfold linregressStdErrorBatch resStdErr
  simp only
  rw [std_shift hn (v := fun i => y i - x i * b) (-(mean n y - b * mean n x))]
  intro i _; ring

/-- pre-whitened score and variance in closed form -/
noncomputable def pwStats (n : ℕ) (y : ℕ → ℝ) : ℝ × Option ℝ :=
  match lag1Autocorr n y with
  | none => (0, some (varianceWithoutTies (n - 1)))
  | some a => (sc (n - 1) fun i => y (i + 1) - y i * a, some (tv (n - 1) fun i => y (i + 1) - y i * a))

/-- trend-free pre-whitened score and variance in closed form -/
noncomputable def tfpwStats (n : ℕ) (y : ℕ → ℝ) (slope : ℝ) : ℝ × Option ℝ :=
  let d : ℕ → ℝ := fun i => y i - ((i : ℝ) + 1) * slope
  match lag1Autocorr n d with
  | none => (0, some (varianceWithoutTies (n - 1)))
  | some a => (sc (n - 1) fun i => d (i + 1) - d i * a + ((i : ℝ) + 1) * slope,
      some (tv (n - 1) fun i => d (i + 1) - d i * a + ((i : ℝ) + 1) * slope))

theorem preWhitenScoreVar_eq (n : ℕ) (y W : ℕ → ℝ) : preWhitenScoreVar n y W = some (pwStats n y) := by
  unfold preWhitenScoreVar pwStats
  cases lag1Autocorr n y <;> simp [scoreVar_false]

theorem tfpwScoreVar_eq (n : ℕ) (y : ℕ → ℝ) (slope : ℝ) (W : ℕ → ℝ) : tfpwScoreVar n y slope W = some (tfpwStats n y slope) := by
  unfold tfpwScoreVar tfpwStats
  simp only
  cases lag1Autocorr n (fun i => y i - ((i : ℝ) + 1) * slope) <;> simp [scoreVar_false]

theorem rint_pw (n : ℕ) (y : ℕ → ℝ) : rint (pwStats n y).1 = (pwStats n y).1 := by
  unfold pwStats
  split
  · simp [rint_zero]
  · simp [rint_sc]

theorem rint_tfpw (n : ℕ) (y : ℕ → ℝ) (slope : ℝ) : rint (tfpwStats n y slope).1 = (tfpwStats n y slope).1 := by
  unfold tfpwStats
  simp only
  split
  · simp [rint_zero]
  · simp [rint_sc]

/-- Closed form of the statistics `(S, var, stat_n)` of the non-seasonal tests. -/
noncomputable def colStats (E : Env) (cfg : Cfg) (n : ℕ) (y : ℕ → ℝ) : Option (ℝ × Option ℝ × ℕ) :=
  match cfg.test with
  | .preWhitening => some ((pwStats n y).1, (pwStats n y).2, n - 1)
  | .trendFreePreWhitening => some ((tfpwStats n y (slopeOf cfg n y)).1, (tfpwStats n y (slopeOf cfg n y)).2, n - 1)
  | .yueWang => (autocorrLagLimit n cfg.lag).map fun L => (sc n y, Spec.yueWang n y (sen n y) L, n)
  | .hamedRao => (autocorrLagLimit n cfg.lag).map fun L =>
      (sc n y, Spec.hamedRao n y (sen n y) (E.ppf (1 - cfg.alpha / 2) / Real.sqrt n) L, n)
  | _ => some (sc n y, some (tv n y), n)

/-- Result built from the closed-form statistics. -/
noncomputable def toRes (E : Env) (cfg : Cfg) (n : ℕ) (y : ℕ → ℝ) (c : ℝ × Option ℝ × ℕ) : Res :=
  let z := zContinuity c.1 c.2.1
  { trend := some (slopeOf cfg n y)
    h := hypothesis E cfg.alpha z
    p := pValue E z
    z := z
    tau := some (c.1 / ((1 / 2 : ℝ) * (c.2.2 : ℝ) * ((c.2.2 : ℝ) - 1)))
    stdError := some (resStdErr n arange y (slopeOf cfg n y)) }

theorem slopeIntercept_eq (cfg : Cfg) {n : ℕ} (hn : 2 ≤ n) (y W : ℕ → ℝ) :
    ∃ a, slopeIntercept cfg n y W = some (some (slopeOf cfg n y), some a) := by
  unfold slopeIntercept slopeOf
  cases cfg.method with
  | theilslopes =>
    simp only
    rw [senSlope_sen hn]
    exact ⟨_, rfl⟩
  | linregress => exact ⟨_, rfl⟩

theorem useKernelSlope_eq (cfg : Cfg) {n : ℕ} (y : ℕ → ℝ) (a : ℝ) :
    ∃ a', useKernelSlope cfg n y (some (slopeOf cfg n y), some a) (some (sen n y)) = (some (slopeOf cfg n y), some a') := by
  unfold useKernelSlope slopeOf
  cases cfg.method with
  | theilslopes => exact ⟨_, rfl⟩
  | linregress => exact ⟨_, rfl⟩

theorem autocorrLagLimit_none {n : ℕ} (hn : 2 ≤ n) : autocorrLagLimit n none = some (n - 1) := by
  simp [autocorrLagLimit, show ¬ n ≤ 1 by omega]

theorem ungroupedStats_eq (E : Env) (cfg : Cfg) (hs : cfg.test ≠ .seasonal ∧ cfg.test ≠ .correlatedSeasonal) {n : ℕ}
    (hn : 3 ≤ n) (y W : ℕ → ℝ) (a : ℝ) :
    ∃ a' : (ℝ × Option ℝ × ℕ) → ℝ, ungroupedStats E cfg n y W (some (slopeOf cfg n y), some a) =
      (colStats E cfg n y).map fun c => (c.1, c.2.1, (some (slopeOf cfg n y), some (a' c)), c.2.2) := by
  have h2 : 2 ≤ n := by omega
  obtain ⟨alpha, method, test, period, lag⟩ := cfg
  cases test with
  | original =>
    refine ⟨fun _ => a, ?_⟩
    cases method <;> simp [ungroupedStats, colStats, scoreVar_false, scoreVarSen_false h2, rint_sc]
  | preWhitening =>
    refine ⟨fun _ => a, ?_⟩
    simp [ungroupedStats, colStats, preWhitenScoreVar_eq, rint_pw]
  | trendFreePreWhitening =>
    refine ⟨fun _ => a, ?_⟩
    simp [ungroupedStats, colStats, tfpwScoreVar_eq, rint_tfpw]
  | yueWang =>
    obtain ⟨a', ha'⟩ := useKernelSlope_eq ⟨alpha, method, .yueWang, period, lag⟩ (n := n) y a
    cases lag with
    | none =>
      refine ⟨fun _ => a, ?_⟩
      cases method <;>
        simp [ungroupedStats, colStats, autocorrLagLimit_none h2, scoreVar_true h2, scoreVarSen_true h2, rint_sc]
    | some l =>
      refine ⟨fun _ => a', ?_⟩
      simp only [ungroupedStats, colStats]
      cases autocorrLagLimit n (some l) with
      | none => simp
      | some L => simp [yueWangKernel_eq h2, rint_sc, ha']
  | hamedRao =>
    obtain ⟨a', ha'⟩ := useKernelSlope_eq ⟨alpha, method, .hamedRao, period, lag⟩ (n := n) y a
    refine ⟨fun _ => a', ?_⟩
    simp only [ungroupedStats, colStats]
    cases h : autocorrLagLimit n lag with
    | none => simp
    | some L => simp [hamedRaoKernel_eq hn y W _ (autocorrLagLimit_lt (by omega) h), rint_sc, ha']
  | seasonal => exact absurd rfl hs.1
  | correlatedSeasonal => exact absurd rfl hs.2

/-- The 1-D test, non-seasonal families, in closed form. -/
theorem mkPlain_eq (E : Env) (cfg : Cfg) (hs : cfg.test ≠ .seasonal ∧ cfg.test ≠ .correlatedSeasonal)
    (vals : List (Option ℝ)) (W : ℕ → ℝ) (hn : 3 ≤ vals.reduceOption.length) :
    mkTest E cfg vals W = (colStats E cfg vals.reduceOption.length (elems vals.reduceOption)).map
      (toRes E cfg vals.reduceOption.length (elems vals.reduceOption)) := by
  unfold mkTest
  rw [if_neg (by rintro (h | h); exacts [hs.1 h, hs.2 h])]
  unfold mkPlain
  simp only
  rw [if_neg (by omega)]
  obtain ⟨a, ha⟩ := slopeIntercept_eq cfg (show 2 ≤ vals.reduceOption.length by omega) (elems vals.reduceOption) W
  rw [ha]
  obtain ⟨a', ha'⟩ := ungroupedStats_eq E cfg hs hn (elems vals.reduceOption) W a
  simp only [Option.bind_eq_bind, Option.bind_some, ha']
  cases colStats E cfg vals.reduceOption.length (elems vals.reduceOption) with
  | none => rfl
  | some c =>
    simp only [Option.map_some, Option.bind_some]
    rw [stdErrorScalar_eq (by omega)]
    rfl

theorem mkPlain_short (E : Env) (cfg : Cfg) (vals : List (Option ℝ)) (W : ℕ → ℝ) (hn : vals.reduceOption.length < 3) :
    mkTest E cfg vals W = some Res.nan := by
  unfold mkTest mkPlain mkSeasonal
  simp [hn]

theorem linSlope_eq {n : ℕ} (hn : 0 < n) (y : ℕ → ℝ) : linregressSlopeBatch n arange y = (linregress n arange y).1 :=
  (linregress_slope hn _ _).symm

/-- Outcome of the batch statistics for the non-seasonal families, column by column. -/
theorem batchStats_plain (E : Env) (cfg : Cfg) (hs : cfg.test ≠ .seasonal ∧ cfg.test ≠ .correlatedSeasonal) {n m : ℕ}
    (hn : 3 ≤ n) (hm : 0 < m) (y : ℕ → ℕ → ℝ) (W : ℕ → ℝ) :
    (∃ st, batchStats E cfg n m y W = some st ∧ ∀ j, j < m → ∃ c, colStats E cfg n (y j) = some c ∧
      st.s j = c.1 ∧ st.var j = c.2.1 ∧ st.slope j = some (slopeOf cfg n (y j)) ∧
      st.denom = some ((1 / 2 : ℝ) * (c.2.2 : ℝ) * ((c.2.2 : ℝ) - 1))) ∨
    (batchStats E cfg n m y W = none ∧ ∀ j, j < m → colStats E cfg n (y j) = none) := by
  have h2 : 2 ≤ n := by omega
  have h0 : 0 < n := by omega
  obtain ⟨alpha, method, test, period, lag⟩ := cfg
  obtain ⟨sb, esb, hsb⟩ := columns_ok (m := m) (fun _ => (none : Option ℝ)) (k := fun j => senSlope n (buf (y j)) W)
    (g := fun j => some (sen n (y j))) (fun j _ => senSlope_sen h2 _ _)
  obtain ⟨c2, ec2, hc2⟩ := columns_ok (m := m) (fun _ => ((0 : ℝ), (none : Option ℝ)))
    (k := fun j => scoreVar n (y j) false W) (fun j _ => scoreVar_false n (y j) W)
  obtain ⟨c3, ec3, hc3⟩ := columns_ok (m := m) (fun _ => ((0 : ℝ), (none : Option ℝ), (none : Option ℝ)))
    (k := fun j => scoreVarSen n (y j) false W) (fun j _ => scoreVarSen_false h2 (y j) W)
  cases test with
  | original =>
    left
    cases method with
    | theilslopes =>
      refine ⟨_, by simp only [batchStats, ec3]; rfl, fun j hj => ⟨_, rfl, ?_⟩⟩
      simp [hc3 j hj, slopeOf]
    | linregress =>
      refine ⟨_, by simp only [batchStats, ec2]; rfl, fun j hj => ⟨_, rfl, ?_⟩⟩
      simp [hc2 j hj, slopeOf, linSlope_eq h0]
  | preWhitening =>
    left
    obtain ⟨w, ew, hw⟩ := columns_ok (m := m) (fun _ => ((0 : ℝ), (none : Option ℝ)))
      (k := fun j => preWhitenScoreVar n (y j) W) (fun j _ => preWhitenScoreVar_eq n (y j) W)
    cases method with
    | theilslopes =>
      refine ⟨_, by simp only [batchStats, esb, ew]; rfl, fun j hj => ⟨_, rfl, ?_⟩⟩
      simp [hw j hj, hsb j hj, slopeOf]
    | linregress =>
      refine ⟨_, by simp only [batchStats, ew]; rfl, fun j hj => ⟨_, rfl, ?_⟩⟩
      simp [hw j hj, slopeOf, linSlope_eq h0]
  | trendFreePreWhitening =>
    left
    cases method with
    | theilslopes =>
      obtain ⟨w, ew, hw⟩ := columns_ok (m := m) (fun _ => ((0 : ℝ), (none : Option ℝ)))
        (k := fun j => tfpwScoreVar n (y j) ((sb j).getD 0) W) (fun j _ => tfpwScoreVar_eq n (y j) _ W)
      refine ⟨_, by simp only [batchStats, esb, Option.bind_eq_bind, Option.bind_some, ew]; rfl, fun j hj => ⟨_, rfl, ?_⟩⟩
      simp [hw j hj, hsb j hj, slopeOf]
    | linregress =>
      obtain ⟨w, ew, hw⟩ := columns_ok (m := m) (fun _ => ((0 : ℝ), (none : Option ℝ)))
        (k := fun j => tfpwScoreVar n (y j) ((some (linregressSlopeBatch n arange (y j))).getD 0) W)
        (fun j _ => tfpwScoreVar_eq n (y j) _ W)
      refine ⟨_, by simp only [batchStats, Option.bind_eq_bind, Option.bind_some, ew]; rfl, fun j hj => ⟨_, rfl, ?_⟩⟩
      simp [hw j hj, slopeOf, linSlope_eq h0]
  | hamedRao =>
    cases hL : autocorrLagLimit n lag with
    | none =>
      right
      refine ⟨?_, fun j _ => by simp [colStats, hL]⟩
      cases method with
      | theilslopes =>
        simp only [batchStats, ec3, Option.bind_eq_bind, Option.bind_some]
        rw [columns_none _ hm]
        · rfl
        · intro j hj
          rw [hc3 j hj]
          simp [hamedRaoBatch_eq E alpha hn, hL]
      | linregress =>
        simp only [batchStats, ec2, esb, Option.bind_eq_bind, Option.bind_some]
        rw [columns_none _ hm]
        · rfl
        · intro j hj
          rw [hc2 j hj]
          simp [hamedRaoBatch_eq E alpha hn, hL]
    | some L =>
      left
      cases method with
      | theilslopes =>
        obtain ⟨w, ew, hw⟩ := columns_ok (m := m) (fun _ => (none : Option ℝ))
          (k := fun j => hamedRaoBatch E alpha n (y j) ((c3 j).2.1.getD 0) ((c3 j).2.2.getD 0) lag)
          (g := fun j => Spec.hamedRao n (y j) (sen n (y j)) (E.ppf (1 - alpha / 2) / Real.sqrt n) L)
          (fun j hj => by rw [hc3 j hj]; simp [hamedRaoBatch_eq E alpha hn, hL])
        refine ⟨_, by simp only [batchStats, ec3, Option.bind_eq_bind, Option.bind_some, ew]; rfl, fun j hj => ?_⟩
        simp [hw j hj, hc3 j hj, slopeOf, colStats, hL]
      | linregress =>
        obtain ⟨w, ew, hw⟩ := columns_ok (m := m) (fun _ => (none : Option ℝ))
          (k := fun j => hamedRaoBatch E alpha n (y j) ((c2 j).2.getD 0) ((sb j).getD 0) lag)
          (g := fun j => Spec.hamedRao n (y j) (sen n (y j)) (E.ppf (1 - alpha / 2) / Real.sqrt n) L)
          (fun j hj => by rw [hc2 j hj, hsb j hj]; simp [hamedRaoBatch_eq E alpha hn, hL])
        refine ⟨_, by simp only [batchStats, ec2, esb, Option.bind_eq_bind, Option.bind_some, ew]; rfl, fun j hj => ?_⟩
        simp [hw j hj, hc2 j hj, slopeOf, linSlope_eq h0, colStats, hL]
  | yueWang =>
    cases lag with
    | none =>
      left
      cases method with
      | theilslopes =>
        obtain ⟨w, ew, hw⟩ := columns_ok (m := m) (fun _ => ((0 : ℝ), (none : Option ℝ), (none : Option ℝ)))
          (k := fun j => scoreVarSen n (y j) true W) (fun j _ => scoreVarSen_true h2 (y j) W)
        refine ⟨_, by simp only [batchStats, ew]; rfl, fun j hj => ?_⟩
        simp [hw j hj, slopeOf, colStats, autocorrLagLimit_none h2]
      | linregress =>
        obtain ⟨w, ew, hw⟩ := columns_ok (m := m) (fun _ => ((0 : ℝ), (none : Option ℝ)))
          (k := fun j => scoreVar n (y j) true W) (fun j _ => scoreVar_true h2 (y j) W)
        refine ⟨_, by simp only [batchStats, ew]; rfl, fun j hj => ?_⟩
        simp [hw j hj, slopeOf, linSlope_eq h0, colStats, autocorrLagLimit_none h2]
    | some l =>
      cases hL : autocorrLagLimit n (some l) with
      | none =>
        right
        refine ⟨?_, fun j _ => by simp [colStats, hL]⟩
        cases method with
        | theilslopes =>
          simp only [batchStats, ec3, Option.bind_eq_bind, Option.bind_some, yueWangBatch_none _ _ _ _ hL, Option.bind_none]
        | linregress =>
          simp only [batchStats, ec2, esb, Option.bind_eq_bind, Option.bind_some, yueWangBatch_none _ _ _ _ hL, Option.bind_none]
      | some L =>
        left
        cases method with
        | theilslopes =>
          obtain ⟨w, ew, hw⟩ := yueWangBatch_eq hn y (fun j => (c3 j).2.1.getD 0) (fun j => (c3 j).2.2.getD 0) (some l)
            (m := m) (fun j hj => by simp [hc3 j hj]) hL
          refine ⟨_, by simp only [batchStats, ec3, Option.bind_eq_bind, Option.bind_some, ew]; rfl, fun j hj => ?_⟩
          simp [hw j hj, hc3 j hj, slopeOf, colStats, hL]
        | linregress =>
          obtain ⟨w, ew, hw⟩ := yueWangBatch_eq hn y (fun j => (c2 j).2.getD 0) (fun j => (sb j).getD 0) (some l)
            (m := m) (fun j hj => by simp [hc2 j hj]) hL
          refine ⟨_, by simp only [batchStats, ec2, esb, Option.bind_eq_bind, Option.bind_some, ew]; rfl, fun j hj => ?_⟩
          simp [hw j hj, hc2 j hj, hsb j hj, slopeOf, linSlope_eq h0, colStats, hL]
  | seasonal => exact absurd rfl hs.1
  | correlatedSeasonal => exact absurd rfl hs.2

theorem reduceOption_map_some (l : List ℝ) : (l.map some).reduceOption = l := by
  induction l with
  | nil => rfl
  | cons a l ih => rw [List.map_cons, List.reduceOption_cons_of_some, ih]

/-- Non-seasonal families: the batch path gives each clean column the result of the 1-D test. -/
theorem batch_plain_ok (E : Env) (cfg : Cfg) (hs : cfg.test ≠ .seasonal ∧ cfg.test ≠ .correlatedSeasonal) {n m : ℕ}
    (hn : 3 ≤ n) (hm : 0 < m) (l : ℕ → List ℝ) (hl : ∀ j, j < m → (l j).length = n) (W : ℕ → ℝ) :
    (∃ st, batchStats E cfg n m (fun j => elems (l j)) W = some st ∧ ∀ j, j < m →
      mkTest E cfg ((l j).map some) W = some (batchRes E cfg n (fun j => elems (l j)) st j)) ∨
    (batchStats E cfg n m (fun j => elems (l j)) W = none ∧ ∀ j, j < m → mkTest E cfg ((l j).map some) W = none) := by
  have hcfg : ¬ (cfg.test = .seasonal ∨ cfg.test = .correlatedSeasonal) := by
    rintro (h | h); exacts [hs.1 h, hs.2 h]
  rcases batchStats_plain E cfg hs hn hm (fun j => elems (l j)) W with ⟨st, e, h⟩ | ⟨e, h⟩
  · refine Or.inl ⟨st, e, fun j hj => ?_⟩
    obtain ⟨c, ec, h1, h2, h3, h4⟩ := h j hj
    rw [mkPlain_eq E cfg hs _ W (by rw [reduceOption_map_some, hl j hj]; exact hn), reduceOption_map_some, hl j hj, ec]
    simp only [Option.map_some, Option.some.injEq]
    unfold batchRes toRes
    simp only [hs.2, if_false, h1, h2, h3, h4, zBatch_eq, Option.map_some]
    congr 1
    unfold stdErrorBatch
    simp only [hcfg, if_false]
    cases cfg.method with
    | theilslopes => simp [theilStdErrorBatch_eq (show 0 < n by omega)]
    | linregress => simp [linregressStdErrorBatch_eq (show 0 < n by omega)]
  · refine Or.inr ⟨e, fun j hj => ?_⟩
    rw [mkPlain_eq E cfg hs _ W (by rw [reduceOption_map_some, hl j hj]; exact hn), reduceOption_map_some, hl j hj, h j hj]
    rfl

end Skyborn.MK.Py
