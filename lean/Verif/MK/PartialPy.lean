/-
Model of the partial Mann-Kendall drivers (src/skyborn/calc/mann_kendall/partial.py): one response series and one
covariate series. A missing (NaN or infinite) sample is `none`; an outer `none` is a raised exception.
-/
import Verif.MK.PyProps

namespace Skyborn.MK.Py

open Skyborn Skyborn.MK Finset

/-- The result dictionary of the partial test; a NaN entry is `none`. -/
structure PRes where
  trend : Option ℝ
  h : Bool
  p : Option ℝ
  z : Flt
  tau : Option ℝ
  s : Option ℝ
  varS : Option ℝ
  intercept : Option ℝ
  stdError : Option ℝ
  n : ℕ
  nDropped : ℕ

/-- partial.py:40-54 `_empty_partial_result`. -/
def PRes.empty (total valid : ℕ) : PRes := ⟨none, false, none, .nan, none, none, none, none, none, valid, total - valid⟩

/-- partial.py:182, 188-189: the jointly finite samples `response[joint_valid]`, `cov[joint_valid]`. -/
def jointPairs (resp cov : List (Option ℝ)) : List (ℝ × ℝ) :=
  (resp.zip cov).filterMap fun q => q.1.bind fun a => q.2.map fun b => (a, b)

/-- partial.py:57-78 `_partial_statistics_batch` for one column, with the column loop of
mann_kendall_core.f90:1538-1542 `partial_stats_batch`: `(s, var_s, tau)`; fewer than 3 time steps raise. -/
noncomputable def partialStatisticsBatch (n m : ℕ) (x y : ℕ → ℕ → ℝ) : Option (ℕ → ℝ × ℝ × ℝ) :=
  if n < 3 then none
  else columns m (fun _ => (0, 0, 0)) fun j => some (partialStats n (buf (x j)) (buf (y j)))

/-- partial.py:94-101: the slopes of all pairs, in the order of the loop. -/
noncomputable def pairSlopeList (n : ℕ) (x y : ℕ → ℝ) : List ℝ :=
  (List.range (n - 1)).flatMap fun start =>
    (List.range (n - start - 1)).map fun k => (y (start + 1 + k) - y start) / (x (start + 1 + k) - x start)

/-- partial.py:108-136 `_response_trend_scalar` (with 81-105 `_theil_slope_intercept_scalar`): slope, intercept and
std_error from the finite samples of the response at their original times; NaN when fewer than two. -/
noncomputable def responseTrendScalar (method : Method) (resp : List (Option ℝ)) : Option ℝ × Option ℝ × Option ℝ :=
  let x : ℕ → ℝ := fun i => (((finiteIdx resp).getD i 0 : ℕ) : ℝ)
  let y := elems resp.reduceOption
  let n := resp.reduceOption.length
  if n < 2 then (none, none, none)
  else match method with
    | .theilslopes =>
      let slope := Spec.median (pairSlopeList n x y : Multiset ℝ)
      (some slope, some (medianN n y - medianN n x * slope), some (theilStdErrorBatch n x y slope))
    | .linregress =>
      let si := linregress n x y
      (some si.1, some si.2, some (linregressStdErrorBatch n x y si.1))

/-- partial.py:199 `bool(abs(z) > ppf(1 - alpha / 2)) if np.isfinite(z) else False`. -/
noncomputable def hypothesisFinite (E : Env) (alpha : ℝ) : Flt → Bool
  | .fin x => decide (|x| > E.ppf (1 - alpha / 2))
  | _ => false

/-- partial.py:166-215 `partial_mann_kendall_test` for two 1-D series (method names already validated). -/
noncomputable def partialTest (E : Env) (alpha : ℝ) (method : Method) (resp cov : List (Option ℝ)) : Option PRes :=
  if resp.length ≠ cov.length then none
  else
    let j := jointPairs resp cov
    let n := j.length
    if n < 3 then some (PRes.empty resp.length n)
    else do
      let st ← partialStatisticsBatch n 1 (fun _ => elems (j.map Prod.fst)) (fun _ => elems (j.map Prod.snd))
      let s := (st 0).1
      let var := (st 0).2.1
      let z := divSqrt s (some var)
      let tr := responseTrendScalar method resp
      return { trend := tr.1, h := hypothesisFinite E alpha z, p := pValue E z, z := z, tau := some (st 0).2.2, s := some s
               varS := some var, intercept := tr.2.1, stdError := tr.2.2, n := n, nDropped := resp.length - n }

/-- mann_kendall_core.f90:1561-1587 `partial_stats_sen_batch`. -/
noncomputable def partialStatsSenBatch (n m : ℕ) (x y : ℕ → ℕ → ℝ) (W : ℕ → ℝ) :
    Option (ℕ → (ℝ × ℝ × ℝ) × Option ℝ) :=
  columns m (fun _ => ((0, 0, 0), none)) fun j => partialStatsAndSen n (buf (x j)) (buf (y j)) W

/-- partial.py:317-338 (with 139-163 `_response_trend_batch`): statistics, slope, intercept and std_error of the `m` complete
columns of a chunk. -/
noncomputable def completeColumns (method : Method) (n m : ℕ) (x y : ℕ → ℕ → ℝ) (W : ℕ → ℝ) :
    Option (ℕ → (ℝ × ℝ × ℝ) × Option ℝ × Option ℝ × Option ℝ) :=
  match method with
  | .theilslopes => do
    let r ← partialStatsSenBatch n m x y W
    return fun j => ((r j).1, (r j).2, (r j).2.map fun sl => medianN n (x j) - medianN n arange * sl,
      (r j).2.map fun sl => theilStdErrorBatch n arange (x j) sl)
  | .linregress => do
    let r ← partialStatisticsBatch n m x y
    return fun j =>
      let sl := linregressSlopeBatch n arange (x j)
      (r j, some sl, some (mean n (x j) - sl * mean n arange), some (linregressStdErrorBatch n arange (x j) sl))

/-- partial.py:340-358: the result stored for a complete column. -/
noncomputable def completeRes (E : Env) (alpha : ℝ) (n : ℕ) (r : (ℝ × ℝ × ℝ) × Option ℝ × Option ℝ × Option ℝ) : PRes :=
  let z := divSqrt r.1.1 (some r.1.2.1)
  { trend := r.2.1, h := hypothesis E alpha z, p := pValue E z, z := z, tau := some r.1.2.2, s := some r.1.1
    varS := some r.1.2.1, intercept := r.2.2.1, stdError := r.2.2.2, n := n, nDropped := 0 }

/-- partial.py:298-371: one chunk of `m` columns of length `n`, starting at flat position `start`. -/
noncomputable def partialChunk (E : Env) (alpha : ℝ) (method : Method) (n start m : ℕ) (resp cov : ℕ → List (Option ℝ))
    (W : ℕ → ℝ) (flat : ℕ → PRes) : Option (ℕ → PRes) :=
  let count : ℕ → ℕ := fun j => (jointPairs (resp (start + j)) (cov (start + j))).length
  let valid := (List.range m).filter fun j => decide (3 ≤ count j)
  let clean := valid.filter fun j => decide (count j = n)
  let rest := valid.filter fun j => decide (count j ≠ n)
  if valid = [] then some flat
  else do
    let flat1 ← ((if clean = [] then some flat
      else do
        let r ← completeColumns method n clean.length (fun k => elems (resp (start + clean.getD k 0)).reduceOption)
          (fun k => elems (cov (start + clean.getD k 0)).reduceOption) W
        return scatter flat (clean.map (start + ·)) fun k => completeRes E alpha n (r k)) : Option (ℕ → PRes))
    rest.foldlM (fun f j => do
      let r ← partialTest E alpha method (resp (start + j)) (cov (start + j))
      return Function.update f (start + j) r) flat1

/-- partial.py:287-292: `chunk_size` as given or the default. -/
def partialChunkSize (chunkSize : Option ℤ) (timeSteps nPoints : ℕ) : ℤ :=
  chunkSize.getD (max 100 (min nPoints (200 * 1024 * 1024 / (max 1 timeSteps * 8 * 6) : ℕ)))

/-- partial.py:271-285, 294-371: initial arrays and the chunk loop `range(0, n_points, chunk_size)`; a zero step raises, a
negative one gives no iteration. -/
noncomputable def partialFlat (E : Env) (alpha : ℝ) (method : Method) (n nPoints : ℕ) (chunk : ℤ)
    (resp cov : ℕ → List (Option ℝ)) (W : ℕ → ℝ) : Option (ℕ → PRes) :=
  if chunk = 0 then none
  else if chunk < 0 then some fun _ => PRes.empty n 0
  else
    let c := chunk.toNat
    (List.range ((nPoints + c - 1) / c)).foldlM (init := fun (_ : ℕ) => PRes.empty n 0) fun (flat : ℕ → PRes) k =>
      let start := k * c
      partialChunk E alpha method n start (min (start + c) nPoints - start) resp cov W flat

/-- partial.py:218-244 `_broadcast_numpy_covariate`: response and covariate with the time axis (`ax`, resolved) first. -/
def broadcastCovariate (data cov : NDArr (Option ℝ)) (ax : ℕ) : Option (NDArr (Option ℝ) × NDArr (Option ℝ)) :=
  let r := data.moveToFront ax
  if cov.shape.length = 1 then
    if cov.shape.headD 0 ≠ data.shape.getD ax 0 then none
    else some (r, ⟨r.shape, fun idx => cov.get [idx.headD 0]⟩)
  else if cov.shape = data.shape then some (r, cov.moveToFront ax)
  else none

/-- `np.moveaxis` / `response.shape[axis]`: resolve an axis that may count from the end. -/
def resolveAxis (nd : ℕ) (axis : ℤ) : Option ℕ :=
  if 0 ≤ axis ∧ axis < nd then some axis.toNat
  else if axis < 0 ∧ 0 ≤ axis + nd then some (axis + nd).toNat else none

/-- partial.py:247-385 `partial_mann_kendall_multidim`. The dictionary of arrays is an array of records; for 1-D data the
dictionary of scalars is an array of shape `[]`. -/
noncomputable def partialMultidim (E : Env) (alpha : ℝ) (method : Method) (data cov : NDArr (Option ℝ)) (axis : ℤ)
    (chunkSize : Option ℤ) (W : ℕ → ℝ) : Option (NDArr PRes) := do
  let ax ← resolveAxis data.shape.length axis
  let rc ← broadcastCovariate data cov ax
  let n := rc.1.shape.headD 0
  let spatial := rc.1.shape.tail
  if spatial = [] then
    let r ← partialTest E alpha method ((List.range n).map fun t => rc.1.get [t]) ((List.range n).map fun t => rc.2.get [t])
    return ⟨[], fun _ => r⟩
  else
    let flatR ← rc.1.reshape [n, spatial.prod]
    let flatC ← rc.2.reshape [n, spatial.prod]
    let r ← partialFlat E alpha method n spatial.prod (partialChunkSize chunkSize n spatial.prod)
      (fun j => (List.range n).map fun t => flatR.get [t, j]) (fun j => (List.range n).map fun t => flatC.get [t, j]) W
    return ⟨spatial, fun idx => r (ravel spatial idx)⟩

end Skyborn.MK.Py
