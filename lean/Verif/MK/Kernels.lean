/-
Model of the statistical kernels of
/repo/src/skyborn/calc/mann_kendall/fortran/mann_kendall_core.f90.

Real numbers are elements of an arbitrary linearly ordered field `K` (no rounding). Result type
`Option (Option K)`: outer `none` = out-of-bounds access or non-termination, inner `none` = NaN.
Work buffers are modelled with exactly the minimal length their documentation asks for.
-/
import Verif.MK.SortModel
import Mathlib.Algebra.Order.Field.Basic

namespace Skyborn.MK

open Skyborn

variable {K : Type} [Field K] [LinearOrder K]

/-- mann_kendall_core.f90:350-369 `compute_s_value`; `n = size(y)`. -/
def sValue (n : ℕ) (y : ℕ → K) : K :=
  doLoop 1 (n - 1) 0 fun i s =>
    doLoop (i + 1) n s fun j s =>
      if y j > y i then s + 1 else if y j < y i then s - 1 else s

/-- mann_kendall_core.f90:403-406 and 411-415: contribution of a finished run of ties. -/
def addRun (tie : K) (run : ℕ) : K :=
  if run > 1 then tie + (run : K) * ((run : K) - 1) * (2 * (run : K) + 5) else tie

/-- mann_kendall_core.f90:383-420 `compute_base_variance_from_sorted`. -/
def baseVarianceFromSorted (a : ℕ → K) (n : ℕ) : K :=
  if n ≤ 1 then 0
  else
    let st := doLoop 2 n ((0 : K), 1) fun i (st : K × ℕ) =>
      if a i = a (i - 1) then (st.1, st.2 + 1) else (addRun st.1 st.2, 1)
    let tie := addRun st.1 st.2
    ((n : K) * ((n : K) - 1) * (2 * (n : K) + 5) - tie) / 18

/-- mann_kendall_core.f90:438-450 `compute_base_variance`: sort a copy, then scan it. -/
def baseVariance (n : ℕ) (y : ℕ → K) : Option K := do
  let a ← sortRealInplace n y
  return baseVarianceFromSorted a n

/-- mann_kendall_core.f90:463-477 `compute_grouped_slope_count`. -/
def groupedSlopeCount (n period : ℕ) : ℕ :=
  if n < 2 ∨ period = 0 then 0
  else doLoop 1 (min period n) 0 fun g s =>
    let c := 1 + (n - g) / period
    if c > 1 then s + c * (c - 1) / 2 else s

/-- mann_kendall_core.f90:568-571 / 1158-1161: `lower_median = slope_work(1)` followed by a running-maximum
loop over positions `2..mid`; also models `maxval(slope_work(:mid))` (633, 1046). -/
def runningMax (n : ℕ) (a : ℕ → K) (mid : ℕ) : Option K := do
  let v ← rd n a 1
  doLoopM 2 mid v fun i m => do
    let w ← rd n a i
    return if w > m then w else m

/-- mann_kendall_core.f90:563-576 / 629-638 / 1041-1051 / 1153-1167: median of a filled slope buffer of
length `nslopes` by one quickselect. -/
def medianByselect (nslopes : ℕ) (a : ℕ → K) : Option K :=
  let mid := nslopes / 2
  if nslopes % 2 = 0 then do
    let b ← selectKth nslopes a (mid + 1)
    let upper ← rd nslopes b (mid + 1)
    let lower ← runningMax nslopes b mid
    return (1 / 2 : K) * (lower + upper)
  else do
    let b ← selectKth nslopes a (mid + 1)
    rd nslopes b (mid + 1)

/-- mann_kendall_core.f90:503-512 etc.: `inv_lag(lag) = 1 / lag`. -/
def invLag (lag : ℕ) : K := 1 / (lag : K)

/-- mann_kendall_core.f90:553-561: pairwise slopes, lag band by lag band, into a buffer of length
`n(n-1)/2`. `y` is read with bounds checks as well. -/
def senFill (n : ℕ) (y : ℕ → K) (work : ℕ → K) : Option (ℕ → K) :=
  let nslopes := n * (n - 1) / 2
  doLoopM 1 (n - 1) work fun lag work => do
    let factor ← rd (n - 1) (invLag (K := K)) lag
    let bandStart := 1 + (lag - 1) * (2 * n - lag) / 2
    doLoopM 1 (n - lag) work fun i work => do
      let y2 ← rd n y (i + lag)
      let y1 ← rd n y i
      wr nslopes work (bandStart + i - 1) ((y2 - y1) * factor)

/-- mann_kendall_core.f90:495-577 `compute_sen_slope` / `compute_sen_slope_with_inv_lag`.
`work` is the (arbitrary) previous content of the work buffer. -/
def senSlope (n : ℕ) (y work : ℕ → K) : Option (Option K) :=
  if n < 2 then some none
  else do
    let a ← senFill n y work
    let m ← medianByselect (n * (n - 1) / 2) a
    return some m

/-- mann_kendall_core.f90:1113-1168 `compute_s_value_and_sen_slope_with_inv_lag`: one scan, lag by lag,
filling the slopes and counting signs (the integer counter `s_count` is converted at the end). -/
def sValueAndSenSlope (n : ℕ) (y work : ℕ → K) : Option (K × Option K) :=
  if n < 2 then some (0, none)
  else do
    let nslopes := n * (n - 1) / 2
    let st ← doLoopM 1 (n - 1) (work, (0 : ℤ)) fun lag (st : (ℕ → K) × ℤ) => do
      let factor ← rd (n - 1) (invLag (K := K)) lag
      let bandStart := 1 + (lag - 1) * (2 * n - lag) / 2
      doLoopM 1 (n - lag) st fun i (st : (ℕ → K) × ℤ) => do
        let y2 ← rd n y (i + lag)
        let y1 ← rd n y i
        let dy := y2 - y1
        let w ← wr nslopes st.1 (bandStart + i - 1) (dy * factor)
        return (w, if dy > 0 then st.2 + 1 else if dy < 0 then st.2 - 1 else st.2)
    let m ← medianByselect nslopes st.1
    return ((st.2 : K), some m)

/-- mann_kendall_core.f90:596-642 `compute_grouped_sen_slope_with_inv_lag`: fill part, state
`(slope_work, slope_index)`; buffer length = announced count. -/
def groupedSenFill (n period : ℕ) (y work : ℕ → K) : Option ((ℕ → K) × ℕ) :=
  let nslopes := groupedSlopeCount n period
  doLoopM 1 (min period n) (work, 0) fun g (st : (ℕ → K) × ℕ) =>
    let c := 1 + (n - g) / period
    doLoopM 1 (c - 1) st fun lag (st : (ℕ → K) × ℕ) => 
      doLoopM 1 (c - lag) st fun i (st : (ℕ → K) × ℕ) => do
        let y2 ← rd n y (g + (i - 1 + lag) * period)
        let y1 ← rd n y (g + (i - 1) * period)
        let w ← wr nslopes st.1 (st.2 + 1) ((y2 - y1) * invLag lag)
        return (w, st.2 + 1)

/-- mann_kendall_core.f90:596-642 `compute_grouped_sen_slope_with_inv_lag`. -/
def groupedSenSlope (n period : ℕ) (y work : ℕ → K) : Option (Option K) :=
  if n < 2 ∨ period = 0 then some none
  else
    let nslopes := groupedSlopeCount n period
    if nslopes = 0 then some none
    else do
      let st ← groupedSenFill n period y work
      let m ← medianByselect nslopes st.1
      return some m

/-- mann_kendall_core.f90:676-679: extend a run of equal values. -/
def runEnd (n : ℕ) (v : ℕ → K) (idx : ℕ → ℕ) (start e : ℕ) : Option ℕ :=
  if e < n then do
    let i1 ← rd n idx (e + 1)
    let w1 ← rd n v i1
    let i0 ← rd n idx start
    let w0 ← rd n v i0
    if w1 ≠ w0 then some e else runEnd n v idx start (e + 1)
  else some e
partial_fixpoint

/-- mann_kendall_core.f90:673-688: outer run loop of `compute_average_ranks`, state `(rank_work, run_start)`. -/
def rankRuns (n : ℕ) (v : ℕ → K) (idx : ℕ → ℕ) (rank : ℕ → K) (start : ℕ) : Option (ℕ → K) :=
  if start ≤ n then do
    let e ← runEnd n v idx start start
    let avg : K := (1 / 2 : K) * ((start + e : ℕ) : K)
    let rank' ← doLoopM start e rank fun i rank => do
      let k ← rd n idx i
      wr n rank k avg
    rankRuns n v idx rank' (e + 1)
  else some rank
partial_fixpoint

/-- mann_kendall_core.f90:660-689 `compute_average_ranks`. -/
def averageRanks (n : ℕ) (v : ℕ → K) (rank : ℕ → K) : Option (ℕ → K) :=
  if n = 0 then some rank
  else do
    let idx ← sortIndicesByValues v n
    rankRuns n v idx rank 1

/-- mann_kendall_core.f90:702-722 `compute_rank_vector`: rank of position `j`. -/
def rankVector (n : ℕ) (v : ℕ → K) (j : ℕ) : K :=
  let s : ℤ := doLoop 1 n 0 fun i s => if v j > v i then s + 1 else if v j < v i then s - 1 else s
  (1 / 2 : K) * (((n : ℤ) + 1 + s : ℤ) : K)

/-- mann_kendall_core.f90:736-758 `compute_k_stat`. -/
def kStat (n : ℕ) (l r : ℕ → K) : K :=
  if n ≤ 1 then 0
  else doLoop 1 (n - 1) 0 fun i k =>
    doLoop (i + 1) n k fun j k =>
      let product := (l j - l i) * (r j - r i)
      if product > 0 then k + 1 else if product < 0 then k - 1 else k

/-- mann_kendall_core.f90:831-833 / 837-839: covariance term of two groups. -/
def groupGamma (m : ℕ) (l r : ℕ → K) : K :=
  let rankSum := doLoop 1 m 0 fun c s => s + rankVector m l c * rankVector m r c
  (kStat m l r + 4 * rankSum - (m : K) * ((m : K) + 1) ^ 2) / 3

/-- mann_kendall_core.f90:779-843 `compute_correlated_grouped_stats`: `(s_value, var_s, denom)`.
Group `g` is the sub-series `c ↦ y(g + (c-1) period)`, `c = 1..n/period`. -/
def correlatedGroupedStats (n period : ℕ) (y : ℕ → K) : K × K × K :=
  if period = 0 then (0, 0, 0)
  else
    let m := n / period
    if m = 0 then (0, 0, 0)
    else
      let grp : ℕ → ℕ → K := fun g c => y (g + (c - 1) * period)
      let sd : K × K :=
        if m > 1 then
          doLoop 1 period (0, 0) fun g (st : K × K) =>
            (st.1 + sValue m (grp g), st.2 + (1 / 2 : K) * ((m * (m - 1) : ℕ) : K))
        else (0, 0)
      let var := doLoop 1 period (0 : K) fun gi v =>
        doLoop 1 (gi - 1) (v + groupGamma m (grp gi) (grp gi)) fun gj v =>
          v + 2 * groupGamma m (grp gi) (grp gj)
      (sd.1, var, sd.2)

/-- mann_kendall_core.f90:893-899 (and 904-910, 1008-1014, 1019-1025): three-way sign of a difference. -/
def signOf (d : K) : K := if d > 0 then 1 else if d < 0 then -1 else 0

/-- Accumulators of the partial-test pair scans. -/
structure PartialAcc (K : Type) where
  /-- `x_score` -/ xs : K
  /-- `y_score` -/ ys : K
  /-- `k_value` -/ k : K
  /-- `rank_x` -/ rx : ℕ → K
  /-- `rank_y` -/ ry : ℕ → K

/-- mann_kendall_core.f90:891-917 (and 1003-1032): update for one pair `i < j`. -/
def partialStep (x y : ℕ → K) (i j : ℕ) (a : PartialAcc K) : PartialAcc K :=
  let sx := signOf (x j - x i)
  let sy := signOf (y j - y i)
  let rx1 := Function.update a.rx i (a.rx i - sx)
  let ry1 := Function.update a.ry i (a.ry i - sy)
  { xs := a.xs + sx, ys := a.ys + sy, k := a.k + sx * sy
    rx := Function.update rx1 j (rx1 j + sx)
    ry := Function.update ry1 j (ry1 j + sy) }

/-- mann_kendall_core.f90:920-933 (and 1035-1039): turn the accumulators into `(s_value, var_s, tau)`. -/
def partialFinish (n : ℕ) (a : PartialAcc K) : K × K × K :=
  let varNoTies : K := (n : K) * ((n : K) - 1) * (2 * (n : K) + 5) / 18
  let rx : ℕ → K := fun i => ((n : K) + 1 + a.rx i) / 2
  let ry : ℕ → K := fun i => ((n : K) + 1 + a.ry i) / 2
  let sigma := (a.k + 4 * (doLoop 1 n 0 fun i s => s + rx i * ry i) - (n : K) * ((n : K) + 1) ^ 2) / 3
  let rho := sigma / varNoTies
  (a.xs - rho * a.ys, (1 - rho * rho) * varNoTies, a.xs / ((1 / 2 : K) * (n : K) * ((n : K) - 1)))

/-- Zeroed accumulators, mann_kendall_core.f90:882-886. -/
def partialInit : PartialAcc K := ⟨0, 0, 0, fun _ => 0, fun _ => 0⟩

/-- mann_kendall_core.f90:861-934 `compute_partial_stats` for series of equal length `n`. -/
def partialStats (n : ℕ) (x y : ℕ → K) : K × K × K :=
  if n < 3 then (0, 0, 0)
  else partialFinish n <|
    doLoop 1 (n - 1) partialInit fun i a => doLoop (i + 1) n a fun j a => partialStep x y i j a

/-- mann_kendall_core.f90:953-1052 `compute_partial_stats_and_sen_slope_with_inv_lag` for series of equal
length: `(s_value, var_s, tau, slope)`. State of the scan: accumulators, `slope_work`, `slope_index`. -/
def partialStatsAndSen (n : ℕ) (x y work : ℕ → K) : Option ((K × K × K) × Option K) :=
  if n < 2 then some ((0, 0, 0), none)
  else do
    let nslopes := n * (n - 1) / 2
    let st ← doLoopM 1 (n - 1) (partialInit, work, 0) fun lag (st : PartialAcc K × (ℕ → K) × ℕ) => do
      let factor ← rd (n - 1) (invLag (K := K)) lag
      doLoopM 1 (n - lag) st fun i (st : PartialAcc K × (ℕ → K) × ℕ) => do
        let x2 ← rd n x (i + lag)
        let x1 ← rd n x i
        let w ← wr nslopes st.2.1 (st.2.2 + 1) ((x2 - x1) * factor)
        return (partialStep x y i (i + lag) st.1, w, st.2.2 + 1)
    let m ← medianByselect nslopes st.2.1
    return (partialFinish n st.1, some m)

/-- mann_kendall_core.f90:1206-1209: `sum(c(1:n-lag) * c(1+lag:n))`. -/
def lagSum (n lag : ℕ) (c : ℕ → K) : K := doLoop 1 (n - lag) 0 fun i s => s + c i * c (i + lag)

/-- mann_kendall_core.f90:1183-1224 `compute_modified_variance_with_slope_lag` (Yue-Wang).
`maxLag ≤ 0` is `maxLag = 0`; inner `none` = NaN. -/
def yueWangVariance (n : ℕ) (y : ℕ → K) (slope : K) (maxLag : ℕ) : Option (Option K) := do
  let base ← baseVariance n y
  if maxLag = 0 then return some base
  else
    let detr : ℕ → K := fun i => y i - (i : K) * slope
    let mean := (doLoop 1 n 0 fun i s => s + detr i) / (n : K)
    let c : ℕ → K := fun i => detr i - mean
    let denom := doLoop 1 n 0 fun i s => s + c i * c i
    if denom = 0 then return none
    else
      let nStar := doLoop 1 maxLag (1 : K) fun lag s =>
        s + 2 * (1 - (lag : K) / (n : K)) * (lagSum n lag c / denom)
      return some (base * nStar)

/-- mann_kendall_core.f90:1304-1355 `compute_hamed_rao_variance_with_slope_lag`. The loop only runs for lags
`≤ n-1` in practice (`_autocorr_lag_limit`), so the integer products `(n-lag)(n-lag-1)(n-lag-2)` are formed in `ℤ`. -/
def hamedRaoVariance (n : ℕ) (y : ℕ → K) (slope interval : K) (maxLag : ℕ) (rank : ℕ → K) :
    Option (Option K) := do
  let base ← baseVariance n y
  if n < 3 ∨ maxLag = 0 then return some base
  else
    let detr : ℕ → K := fun i => y i - (i : K) * slope
    let rk ← averageRanks n detr rank
    let c : ℕ → K := fun i => rk i - (1 / 2 : K) * ((n + 1 : ℕ) : K)
    let denom := doLoop 1 n 0 fun i s => s + c i * c i
    if denom = 0 then return none
    else
      let sni := doLoop 1 maxLag (0 : K) fun lag s =>
        let acf := lagSum n lag c / denom
        if acf < -interval ∨ acf > interval then
          s + ((((n : ℤ) - lag) * ((n : ℤ) - lag - 1) * ((n : ℤ) - lag - 2) : ℤ) : K) * acf
        else s
      let nNs := 1 + 2 * sni / ((n * (n - 1) * (n - 2) : ℕ) : K)
      return some (base * nNs)

end Skyborn.MK
