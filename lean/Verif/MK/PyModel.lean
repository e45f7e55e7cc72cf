/-
Model of the Python layer of the Mann-Kendall test:
/repo/src/skyborn/calc/mann_kendall/core.py, variants.py, regression.py, and of the batch entry points of
fortran/mann_kendall_core.f90.

Conventions
* a series is a `List (Option ℝ)`; `none` = a non-finite sample (NaN or ±inf; the two are not distinguished);
* `Option` as result monad: `none` = a Python exception (or a kernel that leaves its buffers / never returns);
* NaN results are `Option ℝ`; `z` can also be infinite: type `Flt`;
* `scipy.stats.norm.cdf` / `ppf` are arbitrary functions (structure `Env`);
* `scipy.stats.linregress` and `scipy.stats.rankdata` are external and modelled by their textbook formulas;
* `W` is the (arbitrary) initial content of the work buffers of the compiled kernels;
* `warnings.warn` has no effect on results and is not modelled.
-/
import Verif.MK.Kernels
import Verif.MK.Spec
import Verif.Common.ND
import Mathlib.Analysis.SpecialFunctions.Sqrt
import Mathlib.Data.List.ReduceOption

namespace Skyborn.MK.Py

open Skyborn Skyborn.MK Finset

/-- The normal distribution functions of scipy. -/
structure Env where
  /-- `stats.norm.cdf` -/ cdf : ℝ → ℝ
  /-- `stats.norm.ppf` -/ ppf : ℝ → ℝ

/-- A double that may be NaN or infinite. -/
inductive Flt where
  | nan
  /-- `inf true = -inf`, `inf false = +inf` -/
  | inf (neg : Bool)
  | fin (x : ℝ)

/-- core.py:402-405, 472-475, 535-536: accepted values of `method`. -/
inductive Method where
  | theilslopes | linregress
  deriving DecidableEq

/-- core.py:108-142 `_normalize_test_name`: canonical labels of the ungrouped families (string parsing not modelled). -/
inductive Test where
  | original | yueWang | seasonal | correlatedSeasonal | hamedRao | preWhitening | trendFreePreWhitening
  deriving DecidableEq

/-- Arguments of the test. `period` is the effective period after `_resolve_seasonal_period` (core.py:145-149). -/
structure Cfg where
  alpha : ℝ
  method : Method
  test : Test
  period : ℤ
  lag : Option ℤ

/-- core.py:145-149 `_resolve_seasonal_period`: default 12 for the seasonal families (other families ignore it). -/
def resolveSeasonalPeriod (period : Option ℤ) : ℤ := period.getD 12

/-- The result dictionary. -/
structure Res where
  trend : Option ℝ
  h : Bool
  p : Option ℝ
  z : Flt
  tau : Option ℝ
  stdError : Option ℝ

/-- core.py:524-533 (393-400, 463-470): the NaN result; also one entry of the initial arrays of core.py:947-954, 1030-1037. -/
def Res.nan : Res := ⟨none, false, none, .nan, none, none⟩

/-! ### statistics helpers -/

/-- 1-based kernel buffer of a 0-based Python series. -/
def buf (y : ℕ → ℝ) : ℕ → ℝ := fun i => y (i - 1)

/-- `np.mean` -/
noncomputable def mean (n : ℕ) (v : ℕ → ℝ) : ℝ := (∑ i ∈ range n, v i) / n

/-- `np.std` -/
noncomputable def std (n : ℕ) (v : ℕ → ℝ) : ℝ := Real.sqrt ((∑ i ∈ range n, (v i - mean n v) ^ 2) / n)

/-- `np.median` -/
noncomputable def medianN (n : ℕ) (v : ℕ → ℝ) : ℝ := Spec.median ((Multiset.range n).map v)

/-- `a / np.sqrt(var)` in IEEE arithmetic, `var = none` meaning NaN. -/
noncomputable def divSqrt (a : ℝ) : Option ℝ → Flt
  | none => .nan
  | some v =>
    if v < 0 then .nan
    else if v = 0 then (if a = 0 then .nan else .inf (decide (a < 0)))
    else .fin (a / Real.sqrt v)

/-- core.py:601-606 (and 425-430, 491-496): continuity-corrected z. -/
noncomputable def zContinuity (s : ℝ) (var : Option ℝ) : Flt :=
  if s > 0 then divSqrt (s - 1) var else if s = 0 then .fin 0 else divSqrt (s + 1) var

/-- core.py:608 `2 * (1 - stats.norm.cdf(abs(z)))`; `cdf(inf) = 1`. -/
noncomputable def pValue (E : Env) : Flt → Option ℝ
  | .nan => none
  | .inf _ => some 0
  | .fin x => some (2 * (1 - E.cdf |x|))

/-- core.py:609 `abs(z) > stats.norm.ppf(1 - alpha / 2)`; comparisons with NaN are False. -/
noncomputable def hypothesis (E : Env) (alpha : ℝ) : Flt → Bool
  | .nan => false
  | .inf _ => true
  | .fin x => decide (|x| > E.ppf (1 - alpha / 2))

/-! ### compiled entry points, one column -/

/-- mann_kendall_core.f90:1183-1264: Yue-Wang variance of a column whose Sen slope may be NaN (only for `n < 2`,
never reached from Python). -/
noncomputable def yueWangWithSlope (n : ℕ) (y : ℕ → ℝ) (slope : Option ℝ) (maxLag : ℕ) : Option (Option ℝ) :=
  match slope with
  | some s => yueWangVariance n y s maxLag
  | none => some none

/-- mann_kendall_core.f90:1372-1395 `mk_score_var_batch`, one column: `(S, var)`. -/
noncomputable def scoreVar (n : ℕ) (y : ℕ → ℝ) (modified : Bool) (W : ℕ → ℝ) : Option (ℝ × Option ℝ) := do
  let s := sValue n (buf y)
  if modified then
    let slope ← senSlope n (buf y) W
    let v ← yueWangWithSlope n (buf y) slope (n - 1)
    return (s, v)
  else
    let v ← baseVariance n (buf y)
    return (s, some v)

/-- mann_kendall_core.f90:1606-1641 `mk_score_var_sen_batch`, one column: `(S, var, slope)`. -/
noncomputable def scoreVarSen (n : ℕ) (y : ℕ → ℝ) (modified : Bool) (W : ℕ → ℝ) :
    Option (ℝ × Option ℝ × Option ℝ) := do
  let r ← sValueAndSenSlope n (buf y) W
  if modified then
    let v ← yueWangWithSlope n (buf y) r.2 (n - 1)
    return (r.1, v, r.2)
  else
    let v ← baseVariance n (buf y)
    return (r.1, some v, r.2)

/-- mann_kendall_core.f90:1659-1688 `mk_yue_wang_score_var_sen_batch`, one column. -/
noncomputable def yueWangKernel (n : ℕ) (y : ℕ → ℝ) (lag : ℕ) (W : ℕ → ℝ) : Option (ℝ × Option ℝ × Option ℝ) := do
  let r ← sValueAndSenSlope n (buf y) W
  let v ← yueWangWithSlope n (buf y) r.2 lag
  return (r.1, v, r.2)

/-- mann_kendall_core.f90:1707-1738 `mk_hamed_rao_score_var_sen_batch`, one column. -/
noncomputable def hamedRaoKernel (n : ℕ) (y : ℕ → ℝ) (interval : ℝ) (lag : ℕ) (W : ℕ → ℝ) :
    Option (ℝ × Option ℝ × Option ℝ) := do
  let r ← sValueAndSenSlope n (buf y) W
  let v ← match r.2 with
    | some s => hamedRaoVariance n (buf y) s interval lag W
    | none => some none
  return (r.1, v, r.2)

/-- The Fortran column loops `do col = 1, nseries` of the batch entry points (mann_kendall_core.f90:1384-1394, 1424-1426,
1465-1469, 1504-1509, 1626-1640, 1680-1687, 1729-1737): result of column `j` (0-based) stored at `col = j + 1`. -/
noncomputable def columns {β : Type} (nseries : ℕ) (init : ℕ → β) (k : ℕ → Option β) : Option (ℕ → β) := do
  let out ← doLoopM 1 nseries init fun col out => do
    let r ← k (col - 1)
    wr nseries out col r
  return fun j => out (j + 1)

/-! ### variants.py -/

/-- variants.py:11-13 `_variance_without_ties`. -/
noncomputable def varianceWithoutTies (n : ℕ) : ℝ := (n : ℝ) * ((n : ℝ) - 1) * (2 * (n : ℝ) + 5) / 18

/-- variants.py:16-29 `_autocorr_lag_limit`; `none` = IndexError. -/
def autocorrLagLimit (n : ℕ) (lag : Option ℤ) : Option ℕ :=
  if n ≤ 1 then some 0
  else match lag with
    | none => some (n - 1)
    | some l => if l < 0 then some 0 else if l ≥ n then none else some l.toNat

/-- variants.py:32-38 `_lag1_autocorrelation_batch`, one column; `none` = not finite (0/0). -/
noncomputable def lag1Autocorr (n : ℕ) (y : ℕ → ℝ) : Option ℝ :=
  let c : ℕ → ℝ := fun i => y i - mean n y
  let acov0 := ∑ i ∈ range n, c i * c i
  let acov1 := ∑ i ∈ range (n - 1), c i * c (i + 1)
  if acov0 = 0 then none else some (acov1 / acov0)

/-- variants.py:41-47 `_pre_whiten_batch` and 58-73 `_pre_whiten_score_variance_batch`, one column (the boolean-mask
selection of non-degenerate columns is modelled column by column). -/
noncomputable def preWhitenScoreVar (n : ℕ) (y : ℕ → ℝ) (W : ℕ → ℝ) : Option (ℝ × Option ℝ) :=
  match lag1Autocorr n y with
  | none => some (0, some (varianceWithoutTies (n - 1)))
  | some a => scoreVar (n - 1) (fun i => y (i + 1) - y i * a) false W

/-- variants.py:76-92 `_trend_free_pre_whiten_batch` and 95-110 `_trend_free_pre_whiten_score_variance_batch`, one column. -/
noncomputable def tfpwScoreVar (n : ℕ) (y : ℕ → ℝ) (slope : ℝ) (W : ℕ → ℝ) : Option (ℝ × Option ℝ) :=
  let d : ℕ → ℝ := fun i => y i - ((i : ℝ) + 1) * slope
  match lag1Autocorr n d with
  | none => some (0, some (varianceWithoutTies (n - 1)))
  | some a => scoreVar (n - 1) (fun i => d (i + 1) - d i * a + ((i : ℝ) + 1) * slope) false W

/-- `scipy.stats.rankdata` (average method), 0-based positions. -/
noncomputable def rankdata (n : ℕ) (v : ℕ → ℝ) (i : ℕ) : ℝ := Spec.midRank n (buf v) (i + 1)

/-- variants.py:113-152 `_hamed_rao_variance_batch`, one column; NaN base/slope do not occur. -/
noncomputable def hamedRaoBatch (E : Env) (alpha : ℝ) (n : ℕ) (y : ℕ → ℝ) (base slope : ℝ) (lag : Option ℤ) :
    Option (Option ℝ) := do
  let maxLag ← autocorrLagLimit n lag
  if n < 3 then return some base
  else
    let d : ℕ → ℝ := fun i => y i - ((i : ℝ) + 1) * slope
    let r := rankdata n d
    let c : ℕ → ℝ := fun i => r i - mean n r
    let denom := ∑ i ∈ range n, c i * c i
    let interval := E.ppf (1 - alpha / 2) / Real.sqrt n
    if denom = 0 then
      -- every acf is NaN, hence `sni` and the result as soon as one lag is processed
      if maxLag = 0 then return some (base * (1 + 2 * 0 / ((n : ℝ) * ((n : ℝ) - 1) * ((n : ℝ) - 2)))) else return none
    else
      let sni := doLoop 1 maxLag (0 : ℝ) fun l s =>
        let acf := (∑ i ∈ range (n - l), c i * c (i + l)) / denom
        s + if acf ≤ interval ∧ acf ≥ -interval then 0
          else ((n : ℝ) - l) * ((n : ℝ) - l - 1) * ((n : ℝ) - l - 2) * acf
      return some (base * (1 + 2 * sni / ((n : ℝ) * ((n : ℝ) - 1) * ((n : ℝ) - 2))))

/-- variants.py:167-171: detrended, centred column of `_yue_wang_variance_batch`. -/
noncomputable def yueWangCentered (n : ℕ) (y : ℕ → ℝ) (slope : ℝ) : ℕ → ℝ :=
  let d : ℕ → ℝ := fun i => y i - ((i : ℝ) + 1) * slope
  fun i => d i - mean n d

/-- variants.py:172: `denom` of one column. -/
noncomputable def yueWangDenom (n : ℕ) (y : ℕ → ℝ) (slope : ℝ) : ℝ :=
  ∑ i ∈ range n, yueWangCentered n y slope i * yueWangCentered n y slope i

/-- variants.py:155-192 `_yue_wang_variance_batch`: all `m` columns at once, including the shortcut taken when no column
has a non-zero denominator. -/
noncomputable def yueWangBatch (n m : ℕ) (y : ℕ → ℕ → ℝ) (base : ℕ → ℝ) (slope : ℕ → ℝ) (lag : Option ℤ) :
    Option (ℕ → Option ℝ) := do
  let maxLag ← autocorrLagLimit n lag
  if n < 3 ∨ maxLag = 0 then return fun j => some (base j)
  else
    let denom : ℕ → ℝ := fun j => yueWangDenom n (y j) (slope j)
    if ∀ j, j < m → denom j = 0 then return fun _ => none
    else
      let sni : ℕ → ℝ := fun j => doLoop 1 maxLag (0 : ℝ) fun l s =>
        let c := yueWangCentered n (y j) (slope j)
        if denom j ≠ 0 then s + (1 - (l : ℝ) / (n : ℝ)) * ((∑ i ∈ range (n - l), c i * c (i + l)) / denom j) else s
      return fun j => if denom j ≠ 0 then some (base j * (1 + 2 * sni j)) else none

/-- variants.py:195-210 `_reshape_seasonal_1d`: number of rows and entries; `none` = ValueError for `period ≤ 0`. -/
def reshapeSeasonal (vals : List (Option ℝ)) (period : ℤ) : Option (ℕ × (ℕ → ℕ → Option ℝ)) :=
  if period ≤ 0 then none
  else
    let p := period.toNat
    let r := vals.length % p
    let padded := if r ≠ 0 then vals ++ List.replicate (p - r) none else vals
    some (padded.length / p, fun c s => padded.getD (c * p + s) none)

/-- finite entries of a column of a matrix with `rows` rows -/
def finiteColumn (rows : ℕ) (col : ℕ → Option ℝ) : List ℝ := ((List.range rows).map col).reduceOption

/-- 0-based element function of a list -/
def elems (l : List ℝ) : ℕ → ℝ := fun i => l.getD i 0

/-- variants.py:213-236 `_seasonal_score_variance_scalar` / 302-330 `_multivariate_score_variance_scalar`: sums over the
`groups` columns of a matrix: `(S, var, denom)`. -/
noncomputable def groupSums (rows groups : ℕ) (matrix : ℕ → ℕ → Option ℝ) (W : ℕ → ℝ) : Option (ℝ × ℝ × ℝ) :=
  (List.range groups).foldlM (init := ((0 : ℝ), (0 : ℝ), (0 : ℝ))) fun acc g => do
    let fin := finiteColumn rows fun c => matrix c g
    let n := fin.length
    if n = 0 then return acc
    else
      let r ← scoreVar n (elems fin) false W
      return (acc.1 + r.1, acc.2.1 + r.2.getD 0, acc.2.2 + (1 / 2 : ℝ) * n * ((n : ℝ) - 1))

/-- variants.py:213-236 `_seasonal_score_variance_scalar`. -/
noncomputable def seasonalScoreVarScalar (vals : List (Option ℝ)) (period : ℤ) (W : ℕ → ℝ) : Option (ℝ × ℝ × ℝ) := do
  let m ← reshapeSeasonal vals period
  groupSums m.1 period.toNat m.2 W

/-- variants.py:239-265 `_seasonal_score_variance_batch` on clean columns of length `n`:
per-column sums and the common denominator. The season slice is `data[season::period]`. -/
noncomputable def seasonalScoreVarBatch (n m : ℕ) (y : ℕ → ℕ → ℝ) (period : ℤ) (W : ℕ → ℝ) :
    Option ((ℕ → ℝ) × (ℕ → ℝ) × ℝ) :=
  if period ≤ 0 then none
  else
    let p := period.toNat
    (List.range p).foldlM (init := ((fun _ => (0 : ℝ)), (fun _ => (0 : ℝ)), (0 : ℝ)))
      fun (acc : (ℕ → ℝ) × (ℕ → ℝ) × ℝ) season => do
        let k := (n - season + p - 1) / p
        if k = 0 then return acc
        else
          let r ← columns m (fun _ => ((0 : ℝ), (none : Option ℝ))) fun j =>
            scoreVar k (fun c => y j (season + c * p)) false W
          return (fun j => acc.1 j + (r j).1, fun j => acc.2.1 j + (r j).2.getD 0,
            acc.2.2 + (1 / 2 : ℝ) * k * ((k : ℝ) - 1))

/-- variants.py:275-284 / 364-374: slopes of all finite pairs of each column of a matrix (list comprehension form of the
three nested loops). -/
noncomputable def groupSlopes (rows groups : ℕ) (matrix : ℕ → ℕ → Option ℝ) : List ℝ :=
  (List.range groups).flatMap fun g =>
    (List.range (rows - 1)).flatMap fun i =>
      match matrix i g with
      | none => []
      | some vi => (List.range' (i + 1) (rows - (i + 1))).filterMap fun j =>
          match matrix j g with
          | none => none
          | some vj => some ((vj - vi) / ((j : ℝ) - (i : ℝ)))

/-- variants.py:286-289 / 376-379: `np.nanmedian(slopes)` or NaN when there is no slope. -/
noncomputable def medianOrNan (slopes : List ℝ) : Option ℝ :=
  if slopes = [] then none else some (Spec.median (slopes : Multiset ℝ))

/-- variants.py:268-294 `_seasonal_sens_slope_scalar`: slope part. -/
noncomputable def seasonalSlopeScalar (vals : List (Option ℝ)) (period : ℤ) : Option (Option ℝ) := do
  let m ← reshapeSeasonal vals period
  return medianOrNan (groupSlopes m.1 period.toNat m.2)

/-- Positions of the finite samples. -/
def finiteIdx (vals : List (Option ℝ)) : List ℕ := (List.range vals.length).filter fun i => (vals.getD i none).isSome

/-- variants.py:388-405 `_correlated_multivariate_stats_scalar`: rows with a missing entry are dropped, the rest is
flattened row by row. (`np.isnan` = non-finite here: infinities are not distinguished.) -/
noncomputable def correlatedMatrixStats (rows groups : ℕ) (matrix : ℕ → ℕ → Option ℝ) : ℝ × ℝ × ℝ :=
  let valid := (List.range rows).filter fun c => (List.range groups).all fun g => (matrix c g).isSome
  if groups = 0 ∨ valid.length = 0 then (0, 0, 0)
  else
    let flat : ℕ → ℝ := fun k => (matrix (valid.getD (k / groups) 0) (k % groups)).getD 0
    correlatedGroupedStats (valid.length * groups) groups (buf flat)

/-- variants.py:408-413 `_correlated_seasonal_stats_scalar`. -/
noncomputable def correlatedSeasonalScalar (vals : List (Option ℝ)) (period : ℤ) : Option (ℝ × ℝ × ℝ) := do
  let m ← reshapeSeasonal vals period
  return correlatedMatrixStats m.1 period.toNat m.2

/-! ### regression.py -/

/-- regression.py:6-16 `_linregress_slope_batch`, one column. -/
noncomputable def linregressSlopeBatch (n : ℕ) (x y : ℕ → ℝ) : ℝ :=
  (∑ i ∈ range n, (x i - mean n x) * y i) / ∑ i ∈ range n, (x i - mean n x) ^ 2

/-- `scipy.stats.linregress(x, y)[:2]` (external): slope and intercept of the least-squares line. -/
noncomputable def linregress (n : ℕ) (x y : ℕ → ℝ) : ℝ × ℝ :=
  let b := (∑ i ∈ range n, (x i - mean n x) * (y i - mean n y)) / ∑ i ∈ range n, (x i - mean n x) ^ 2
  (b, mean n y - b * mean n x)

/-- regression.py:19-30 `_theil_std_error_batch`, one column. -/
noncomputable def theilStdErrorBatch (n : ℕ) (x y : ℕ → ℝ) (slope : ℝ) : ℝ :=
  let w : ℕ → ℝ := fun i => x i * slope * (-1) + y i
  let w' : ℕ → ℝ := fun i => w i - medianN n w
  std n w' / Real.sqrt n

/-- regression.py:33-53 `_linregress_std_error_batch`, one column. -/
noncomputable def linregressStdErrorBatch (n : ℕ) (x y : ℕ → ℝ) (slope : ℝ) : ℝ :=
  let intercept := mean n y - slope * mean n x
  let r : ℕ → ℝ := fun i => (x i * slope + intercept) * (-1) + y i
  std n r / Real.sqrt n

/-- core.py:611-612 and 507-509: `np.std(y - (x * slope + intercept)) / np.sqrt(n)`; NaN slope gives NaN. -/
noncomputable def stdErrorScalar (n : ℕ) (x y : ℕ → ℝ) (slope intercept : Option ℝ) : Option ℝ :=
  match slope, intercept with
  | some b, some a => some (std n (fun i => y i - (x i * b + a)) / Real.sqrt n)
  | _, _ => none

/-! ### core.py: the 1-D test -/

/-- The time axis `np.arange(n)`. -/
noncomputable def arange : ℕ → ℝ := fun i => (i : ℝ)

/-- core.py:538-542: slope and intercept of the ungrouped tests. -/
noncomputable def slopeIntercept (cfg : Cfg) (n : ℕ) (y : ℕ → ℝ) (W : ℕ → ℝ) : Option (Option ℝ × Option ℝ) :=
  match cfg.method with
  | .theilslopes => do
    let slope ← senSlope n (buf y) W
    return (slope, slope.map fun b => medianN n y - b * medianN n arange)
  | .linregress => some (some (linregress n arange y).1, some (linregress n arange y).2)

/-- core.py:566-568, 585-587: replace slope and intercept by the ones of a kernel call when `method == "theilslopes"`. -/
noncomputable def useKernelSlope (cfg : Cfg) (n : ℕ) (y : ℕ → ℝ) (si : Option ℝ × Option ℝ) (slope : Option ℝ) :
    Option ℝ × Option ℝ :=
  match cfg.method with
  | .theilslopes => (slope, slope.map fun b => medianN n y - b * medianN n arange)
  | .linregress => si

/-- `int(np.rint(x))` as a real number (ties of `rint` never matter: see `rint_int`). -/
noncomputable def rint (x : ℝ) : ℝ := ((round x : ℤ) : ℝ)

/-- core.py:544-599: `(S, var_s, (slope, intercept), stat_n)` of the ungrouped tests on a finite series. -/
noncomputable def ungroupedStats (E : Env) (cfg : Cfg) (n : ℕ) (y : ℕ → ℝ) (W : ℕ → ℝ)
    (si : Option ℝ × Option ℝ) : Option (ℝ × Option ℝ × (Option ℝ × Option ℝ) × ℕ) :=
  match cfg.test with
  | .preWhitening => do
    let r ← preWhitenScoreVar n y W
    return (rint r.1, r.2, si, n - 1)
  | .yueWang => do
    let lagLimit ← autocorrLagLimit n cfg.lag
    match cfg.lag, cfg.method with
    | none, .theilslopes => do
      let r ← scoreVarSen n y true W
      return (rint r.1, r.2.1, si, n)
    | none, .linregress => do
      let r ← scoreVar n y true W
      return (rint r.1, r.2, si, n)
    | some _, _ => do
      let r ← yueWangKernel n y lagLimit W
      return (rint r.1, r.2.1, useKernelSlope cfg n y si r.2.2, n)
  | .trendFreePreWhitening => do
    let r ← tfpwScoreVar n y (si.1.getD 0) W
    return (rint r.1, r.2, si, n - 1)
  | .hamedRao => do
    let lagLimit ← autocorrLagLimit n cfg.lag
    let r ← hamedRaoKernel n y (E.ppf (1 - cfg.alpha / 2) / Real.sqrt n) lagLimit W
    return (rint r.1, r.2.1, useKernelSlope cfg n y si r.2.2, n)
  | _ =>
    match cfg.method with
    | .theilslopes => do
      let r ← scoreVarSen n y false W
      return (rint r.1, r.2.1, si, n)
    | .linregress => do
      let r ← scoreVar n y false W
      return (rint r.1, r.2, si, n)

/-- core.py:519-621: `mann_kendall_test` for the ungrouped, non-seasonal tests. -/
noncomputable def mkPlain (E : Env) (cfg : Cfg) (vals : List (Option ℝ)) (W : ℕ → ℝ) : Option Res :=
  let fin := vals.reduceOption
  let y := elems fin
  let n := fin.length
  if n < 3 then some Res.nan
  else do
    let si ← slopeIntercept cfg n y W
    let st ← ungroupedStats E cfg n y W si
    let z := zContinuity st.1 st.2.1
    return {
      trend := st.2.2.1.1
      h := hypothesis E cfg.alpha z
      p := pValue E z
      z := z
      tau := some (st.1 / ((1 / 2 : ℝ) * (st.2.2.2 : ℝ) * ((st.2.2.2 : ℝ) - 1)))
      stdError := stdErrorScalar n arange y st.2.2.1.1 st.2.2.1.2 }

/-- core.py:451-517: `mann_kendall_test` for `seasonal` and `correlated_seasonal`. -/
noncomputable def mkSeasonal (E : Env) (cfg : Cfg) (vals : List (Option ℝ)) (W : ℕ → ℝ) : Option Res :=
  let fin := vals.reduceOption
  let y := elems fin
  let n := fin.length
  let idx : ℕ → ℝ := fun i => ((finiteIdx vals).getD i 0 : ℕ)
  if n < 3 then some Res.nan
  else do
    let si ← (match cfg.method with
      | .theilslopes => do
        let slope ← seasonalSlopeScalar vals cfg.period
        return (slope, slope.map fun b => medianN n y - medianN n idx / (cfg.period : ℝ) * b)
      | .linregress => some (some (linregress n idx y).1, some (linregress n idx y).2) :
      Option (Option ℝ × Option ℝ))
    let st ← (if cfg.test = .seasonal then seasonalScoreVarScalar vals cfg.period W
      else correlatedSeasonalScalar vals cfg.period)
    let z := if cfg.test = .seasonal then zContinuity st.1 (some st.2.1) else divSqrt st.1 (some st.2.1)
    return {
      trend := si.1
      h := hypothesis E cfg.alpha z
      p := pValue E z
      z := z
      tau := if st.2.2 ≠ 0 then some (st.1 / st.2.2) else none
      stdError := stdErrorScalar n (fun i => idx i / (cfg.period : ℝ)) y si.1 si.2 }

/-- core.py:271-621 `mann_kendall_test` on a 1-D series (`values.ndim > 1` raises; grouped families: see `GroupedModel`). -/
noncomputable def mkTest (E : Env) (cfg : Cfg) (vals : List (Option ℝ)) (W : ℕ → ℝ) : Option Res :=
  if cfg.test = .seasonal ∨ cfg.test = .correlatedSeasonal then mkSeasonal E cfg vals W else mkPlain E cfg vals W

/-! ### core.py: the gridded test -/

/-- Results of the statistics part of `_vectorized_mk_test` for the clean columns: per-column `S`, variance, slope, the
seasonal intercept, and `tau`'s denominator. -/
structure BatchStats where
  s : ℕ → ℝ
  var : ℕ → Option ℝ
  slope : ℕ → Option ℝ
  /-- `none` = denominator 0 (NaN tau) -/
  denom : Option ℝ

/-- core.py:1063-1168, 1188-1207: statistics of the `m` clean columns of length `n`. For `period = 0` the intercept line
1070-1074 raises ZeroDivisionError; the kernels treat `period ≤ 0` as `toNat = 0` (NaN slope / zero statistics). -/
noncomputable def batchStats (E : Env) (cfg : Cfg) (n m : ℕ) (y : ℕ → ℕ → ℝ) (W : ℕ → ℝ) : Option BatchStats :=
  let d2 := fun (_ : ℕ) => ((0 : ℝ), (none : Option ℝ))
  let d3 := fun (_ : ℕ) => ((0 : ℝ), (none : Option ℝ), (none : Option ℝ))
  let plainDenom : ℕ → ℝ := fun k => (1 / 2 : ℝ) * (k : ℝ) * ((k : ℝ) - 1)
  let linSlope : ℕ → Option ℝ := fun j => some (linregressSlopeBatch n arange (y j))
  let senBatch : Option (ℕ → Option ℝ) := columns m (fun _ => none) fun j => senSlope n (buf (y j)) W
  match cfg.test with
  | .seasonal => do
    let slopes ← (match cfg.method with
      | .theilslopes => columns m (fun _ => none) fun j =>
          if cfg.period = 0 then none else groupedSenSlope n cfg.period.toNat (buf (y j)) W
      | .linregress => some linSlope : Option (ℕ → Option ℝ))
    let st ← seasonalScoreVarBatch n m y cfg.period W
    return ⟨st.1, fun j => some (st.2.1 j), slopes, if st.2.2 ≠ 0 then some st.2.2 else none⟩
  | .correlatedSeasonal => do
    let slopes ← (match cfg.method with
      | .theilslopes => columns m (fun _ => none) fun j =>
          if cfg.period = 0 then none else groupedSenSlope n cfg.period.toNat (buf (y j)) W
      | .linregress => some linSlope : Option (ℕ → Option ℝ))
    let st ← columns m (fun _ => ((0 : ℝ), (0 : ℝ), (0 : ℝ))) fun j =>
      some (correlatedGroupedStats n cfg.period.toNat (buf (y j)))
    let denom := (st 0).2.2
    return ⟨fun j => (st j).1, fun j => some (st j).2.1, slopes, if denom ≠ 0 then some denom else none⟩
  | .preWhitening => do
    let slopes ← (match cfg.method with | .theilslopes => senBatch | .linregress => some linSlope)
    let st ← columns m d2 fun j => preWhitenScoreVar n (y j) W
    return ⟨fun j => (st j).1, fun j => (st j).2, slopes, some (plainDenom (n - 1))⟩
  | .trendFreePreWhitening => do
    let slopes ← (match cfg.method with | .theilslopes => senBatch | .linregress => some linSlope)
    let st ← columns m d2 fun j => tfpwScoreVar n (y j) ((slopes j).getD 0) W
    return ⟨fun j => (st j).1, fun j => (st j).2, slopes, some (plainDenom (n - 1))⟩
  | .hamedRao =>
    match cfg.method with
    | .theilslopes => do
      let st ← columns m d3 fun j => scoreVarSen n (y j) false W
      let var ← columns m (fun _ => none) fun j =>
        hamedRaoBatch E cfg.alpha n (y j) ((st j).2.1.getD 0) ((st j).2.2.getD 0) cfg.lag
      return ⟨fun j => (st j).1, var, fun j => (st j).2.2, some (plainDenom n)⟩
    | .linregress => do
      let st ← columns m d2 fun j => scoreVar n (y j) false W
      let corr ← senBatch
      let var ← columns m (fun _ => none) fun j =>
        hamedRaoBatch E cfg.alpha n (y j) ((st j).2.getD 0) ((corr j).getD 0) cfg.lag
      return ⟨fun j => (st j).1, var, linSlope, some (plainDenom n)⟩
  | .yueWang =>
    match cfg.lag, cfg.method with
    | none, .theilslopes => do
      let st ← columns m d3 fun j => scoreVarSen n (y j) true W
      return ⟨fun j => (st j).1, fun j => (st j).2.1, fun j => (st j).2.2, some (plainDenom n)⟩
    | none, .linregress => do
      let st ← columns m d2 fun j => scoreVar n (y j) true W
      return ⟨fun j => (st j).1, fun j => (st j).2, linSlope, some (plainDenom n)⟩
    | some _, .theilslopes => do
      let st ← columns m d3 fun j => scoreVarSen n (y j) false W
      let var ← yueWangBatch n m y (fun j => (st j).2.1.getD 0) (fun j => (st j).2.2.getD 0) cfg.lag
      return ⟨fun j => (st j).1, var, fun j => (st j).2.2, some (plainDenom n)⟩
    | some _, .linregress => do
      let st ← columns m d2 fun j => scoreVar n (y j) false W
      let corr ← senBatch
      let var ← yueWangBatch n m y (fun j => (st j).2.getD 0) (fun j => (corr j).getD 0) cfg.lag
      return ⟨fun j => (st j).1, var, linSlope, some (plainDenom n)⟩
  | .original =>
    match cfg.method with
    | .theilslopes => do
      let st ← columns m d3 fun j => scoreVarSen n (y j) false W
      return ⟨fun j => (st j).1, fun j => (st j).2.1, fun j => (st j).2.2, some (plainDenom n)⟩
    | .linregress => do
      let st ← columns m d2 fun j => scoreVar n (y j) false W
      return ⟨fun j => (st j).1, fun j => (st j).2, linSlope, some (plainDenom n)⟩

/-- core.py:1171-1183: vectorised continuity-corrected z of one entry (zeros unless `S > 0` or `S < 0`). -/
noncomputable def zBatch (s : ℝ) (var : Option ℝ) : Flt :=
  if s < 0 then divSqrt (s + 1) var else if s > 0 then divSqrt (s - 1) var else .fin 0

/-- core.py:1070-1074, 1209-1218: standard error of one clean column. -/
noncomputable def stdErrorBatch (cfg : Cfg) (n : ℕ) (y : ℕ → ℝ) (slope : Option ℝ) : Option ℝ :=
  match slope with
  | none => none
  | some b =>
    match cfg.method with
    | .linregress => some (linregressStdErrorBatch n arange y b)
    | .theilslopes =>
      if cfg.test = .seasonal ∨ cfg.test = .correlatedSeasonal then
        let intercept := medianN n y - ((1 / 2 : ℝ) * ((n : ℝ) - 1) / (cfg.period : ℝ)) * b
        some (std n (fun i => y i - (arange i / (cfg.period : ℝ) * b + intercept)) / Real.sqrt n)
      else some (theilStdErrorBatch n arange y b)

/-- core.py:1170-1225: result of one clean column. -/
noncomputable def batchRes (E : Env) (cfg : Cfg) (n : ℕ) (y : ℕ → ℕ → ℝ) (st : BatchStats) (j : ℕ) : Res :=
  let z := if cfg.test = .correlatedSeasonal then divSqrt (st.s j) (st.var j) else zBatch (st.s j) (st.var j)
  { trend := st.slope j
    h := hypothesis E cfg.alpha z
    p := pValue E z
    z := z
    tau := st.denom.map fun d => st.s j / d
    stdError := stdErrorBatch cfg n (y j) (st.slope j) }

/-- `results[key][indices] = values`. -/
def scatter {β : Type} (res : ℕ → β) (idx : List ℕ) (vals : ℕ → β) : ℕ → β :=
  (idx.zipIdx).foldl (fun r p => Function.update r p.1 (vals p.2)) res

/-- core.py:1003-1265 `_vectorized_mk_test` on `m` columns of length `n` (Dask arrays not modelled). -/
noncomputable def vectorizedMk (E : Env) (cfg : Cfg) (n m : ℕ) (data : ℕ → List (Option ℝ)) (W : ℕ → ℝ) :
    Option (ℕ → Res) :=
  let count : ℕ → ℕ := fun j => (data j).reduceOption.length
  let valid := (List.range m).filter fun j => decide (3 ≤ count j)
  let noNan := valid.filter fun j => decide (count j = n)
  let nanIdx := valid.filter fun j => decide (count j ≠ n)
  if valid = [] then some fun _ => Res.nan
  else do
    let res ← ((if noNan = [] then some fun _ => Res.nan
      else do
        let y : ℕ → ℕ → ℝ := fun k => elems (data (noNan.getD k 0)).reduceOption
        let st ← batchStats E cfg n noNan.length y W
        return scatter (fun _ => Res.nan) noNan (batchRes E cfg n y st)) : Option (ℕ → Res))
    return nanIdx.foldl (fun r j =>
      let arg := if cfg.test = .seasonal then data j else (data j).reduceOption.map some
      match mkTest E cfg arg W with
      | some v => Function.update r j v
      | none => r) res

/-- core.py:960-968: default chunk size; `none` = ZeroDivisionError for an empty time axis. -/
def defaultChunk (timeSteps nPoints : ℕ) : Option ℕ :=
  if timeSteps = 0 then none
  else some (max (min (min (200 * 1024 * 1024 / (timeSteps * timeSteps * 8)) nPoints) 10000) 100)

/-- core.py:960-968: `chunk_size` as given, or the default when it is None. -/
def resolveChunk (chunkSize : Option ℕ) (timeSteps nPoints : ℕ) : Option ℕ :=
  match chunkSize with
  | some c => some c
  | none => defaultChunk timeSteps nPoints

/-- core.py:971-994: the chunk loop over `nPoints` columns of length `n`; `chunk = 0` raises. -/
noncomputable def chunkLoop (E : Env) (cfg : Cfg) (n nPoints chunk : ℕ) (data : ℕ → List (Option ℝ)) (W : ℕ → ℝ) :
    Option (ℕ → Res) :=
  if chunk = 0 then none
  else
    (List.range ((nPoints + chunk - 1) / chunk)).foldlM (init := fun (_ : ℕ) => Res.nan) fun (flat : ℕ → Res) c => do
      let start := c * chunk
      let stop := min (start + chunk) nPoints
      let r ← vectorizedMk E cfg n (stop - start) (fun j => data (start + j)) W
      return fun k => if start ≤ k ∧ k < stop then r (k - start) else flat k

/-- core.py:788-1000 `mann_kendall_multidim` for the ungrouped families on arrays with at least 2 dimensions: move the time
axis to the front, flatten the rest, run the chunk loop and reshape. `axis` is the resolved integer axis (negative values
count from the end, as `np.moveaxis` does); `chunkSize = none` = default. -/
noncomputable def mkMultidim (E : Env) (cfg : Cfg) (data : NDArr (Option ℝ)) (axis : ℤ) (chunkSize : Option ℕ)
    (W : ℕ → ℝ) : Option (NDArr Res) := do
  let nd := data.shape.length
  let ax ← (if 0 ≤ axis ∧ axis < nd then some axis.toNat
    else if axis < 0 ∧ 0 ≤ axis + nd then some (axis + nd).toNat else none)
  let moved := data.moveToFront ax
  let n := moved.shape.headD 0
  let spatial := moved.shape.tail
  let flat ← moved.reshape [n, spatial.prod]
  let chunk ← resolveChunk chunkSize n spatial.prod
  let r ← chunkLoop E cfg n spatial.prod chunk (fun j => (List.range n).map fun t => flat.get [t, j]) W
  return ⟨spatial, fun idx => r (ravel spatial idx)⟩

end Skyborn.MK.Py
