/-
Model of `interp_pressure_1d` (/repo/src/skyborn/interp/interpolation.py:336-586) and of its Fortran kernel
(/repo/src/skyborn/interp/fortran/int2p_kernels.f90).

Floating-point rounding is not modelled: numbers are reals. A NumPy float64 entry is `Option ℝ`, `none` standing for NaN and for
the infinities (the code treats them alike through `np.isfinite`). A Fortran array is a list, its indices are 1-based and reading
outside of it is `none`. The xarray wrapping of the result, the legacy keyword aliases and the type checks are not modelled.
-/
import Mathlib.Analysis.SpecialFunctions.Log.Basic
import Mathlib.Tactic.Linarith

namespace Skyborn.Interp

/-- interpolation.py:75 `_PRESSURE_INTERP_SPVL`: the largest float64. -/
noncomputable def spvl : ℝ := ((2 : ℝ) ^ 53 - 1) * (2 : ℝ) ^ 971

/-- int2p_kernels.f90:28-36 `is_increasing`: decided by the first two entries. -/
noncomputable def isIncreasing : List ℝ → Bool
  | a :: b :: _ => decide (a < b)
  | _ => false

/-- int2p_kernels.f90:39-53 `copy_descending`. The copy loop `target(idx) = source(n - idx + 1)` is written `List.reverse`. -/
def copyDescending (src : List ℝ) (rev : Bool) : List ℝ := if rev then src.reverse else src

/-- int2p_kernels.f90:56-71 `compact_valid_levels`: the levels whose pressure and value both differ from the marker. -/
noncomputable def compactValid (p x : List ℝ) (xmsg : ℝ) : List (ℝ × ℝ) :=
  (p.zip x).filter fun q => decide (q.1 ≠ xmsg ∧ q.2 ≠ xmsg)

/-- int2p_kernels.f90:74-95 `locate_exact_match_desc`: 1-based position of `t`, or 0. -/
noncomputable def locExact (t : ℝ) (lv : List ℝ) (low high : ℕ) : Option ℕ :=
  if hle : low ≤ high then
    match hm : low + (high - low) / 2 with
    | 0 => none
    | m + 1 =>
      match lv[m]? with
      | none => none
      | some v =>
        if t = v then some (m + 1)
        else if v < t then locExact t lv low m
        else locExact t lv (m + 2) high
  else some 0
termination_by high + 1 - low
decreasing_by all_goals omega

/-- int2p_kernels.f90:112-128, the loop of `locate_interval_desc`. -/
noncomputable def locIntervalLoop (t : ℝ) (lv : List ℝ) (low high : ℕ) : Option ℕ :=
  if hle : low ≤ high then
    match hm : low + (high - low) / 2 with
    | 0 => none
    | m + 1 =>
      match lv[m]?, lv[m + 1]? with
      | some hi, some lo =>
        if t < hi ∧ lo < t then some (m + 1)
        else if hi < t then locIntervalLoop t lv low m
        else locIntervalLoop t lv (m + 2) high
      | _, _ => none
  else some 0
termination_by high + 1 - low
decreasing_by all_goals omega

/-- int2p_kernels.f90:98-129 `locate_interval_desc`. -/
noncomputable def locInterval (t : ℝ) (lv : List ℝ) : Option ℕ :=
  if lv.length < 2 then some 0
  else
    match lv[0]?, lv[lv.length - 1]? with
    | some a, some b => if a ≤ t ∨ t ≤ b then some 0 else locIntervalLoop t lv 1 (lv.length - 1)
    | _, _ => none

/-- int2p_kernels.f90:132-138 `interpolate_linear`. -/
noncomputable def interpLinear (xhi xlo t phi plo : ℝ) : ℝ := xlo + ((xhi - xlo) / (phi - plo)) * (t - plo)

/-- int2p_kernels.f90:141-148 `interpolate_log`. -/
noncomputable def interpLog (xhi xlo t phi plo : ℝ) : ℝ :=
  xlo + ((xhi - xlo) / (Real.log phi - Real.log plo)) * (Real.log t - Real.log plo)

/-- int2p_kernels.f90:151-161 `extrapolate_log_low_compat`. -/
noncomputable def extrapLogLow (xhi xlo t phi plo : ℝ) : ℝ :=
  xlo + ((xlo - xhi) / (Real.log plo - Real.log phi)) * (Real.log t - Real.log phi)

/-- int2p_kernels.f90:164-175 `interpolate_value`. -/
noncomputable def interpValue (xhi xlo t phi plo : ℝ) (loglin : ℕ) : ℝ :=
  if loglin = 1 then interpLinear xhi xlo t phi plo else interpLog xhi xlo t phi plo

/-- int2p_kernels.f90:215-259, the body of the loop over output points (`cycle` = the value at that point). -/
noncomputable def pointValue (p x : List ℝ) (linlog : ℤ) (xmsg t : ℝ) : Option ℝ :=
  if t = xmsg then some xmsg
  else do
    let e ← locExact t p 1 p.length
    if 0 < e then x[e - 1]?
    else do
      let p1 ← p[0]?
      let pn ← p[p.length - 1]?
      if p1 < t then
        if linlog < 0 then do
          let p2 ← p[1]?
          let x1 ← x[0]?
          let x2 ← x[1]?
          some (interpValue x1 x2 t p1 p2 linlog.natAbs)
        else some xmsg
      else if t < pn then
        if linlog < 0 then do
          let pm ← p[p.length - 2]?
          let xm ← x[p.length - 2]?
          let xn ← x[p.length - 1]?
          if linlog.natAbs = 1 then some (interpValue xm xn t pm pn linlog.natAbs)
          else some (extrapLogLow xm xn t pm pn)
        else some xmsg
      else do
        let i ← locInterval t p
        if 0 < i then do
          let xa ← x[i - 1]?
          let xb ← x[i]?
          let pa ← p[i - 1]?
          let pb ← p[i]?
          some (interpValue xa xb t pa pb linlog.natAbs)
        else some xmsg

/-- int2p_kernels.f90:180-270 `dinterp_pressure_1d_impl`: the output array and the error code. `none` = a read outside an array. -/
noncomputable def kernel (ppin xxin ppout : List ℝ) (linlog : ℤ) (xmsg : ℝ) : Option (List ℝ × ℕ) :=
  if ppin.length < 2 ∨ ppout.length < 1 then some (ppout.map fun _ => xmsg, 1)
  else
    let revIn := isIncreasing ppin
    let revOut := isIncreasing ppout
    let valid := compactValid (copyDescending ppin revIn) (copyDescending xxin revIn) xmsg
    if valid.length < 2 then some (ppout.map fun _ => xmsg, 1000)
    else do
      let out ← (copyDescending ppout revOut).mapM
        (pointValue (valid.map Prod.fst) (valid.map Prod.snd) linlog xmsg)
      some (copyDescending out revOut, 0)

/-- Exceptions of `interp_pressure_1d`. -/
inductive PErr
  | lengths
  | tooFew
  | srcNotMonotone
  | tgtNotMonotone
  | notPositive
  | backend
  deriving DecidableEq

/-- interpolation.py:447-451 `pressure_interp_missing_mask` of one entry: non-finite, or equal to a finite missing value. -/
noncomputable def isMissing (mv v : Option ℝ) : Bool := v.isNone || (decide (v = mv))

/-- interpolation.py:453-461 `require_strict_monotonic_pressure`: adjacent differences all positive or all negative. -/
noncomputable def strictMonotone (l : List ℝ) : Bool := decide (l.IsChain (· < ·) ∨ l.IsChain (· > ·))

/-- The non-missing entries (boolean-mask indexing, interpolation.py:543, 553). -/
noncomputable def validOf (mv : Option ℝ) (l : List (Option ℝ)) : List ℝ :=
  l.filterMap fun v => if isMissing mv v then none else v

/-- interpolation.py:566-573: missing entries replaced by the marker. -/
noncomputable def encode (mv : Option ℝ) (l : List (Option ℝ)) : List ℝ :=
  l.map fun v => if isMissing mv v then spvl else v.getD spvl

/-- interpolation.py:585 `result[~output_missing_mask] = output_valid`. -/
noncomputable def scatter (mv : Option ℝ) : List (Option ℝ) → List (Option ℝ) → List (Option ℝ)
  | [], _ => []
  | t :: ts, vs =>
    if isMissing mv t then mv :: scatter mv ts vs
    else match vs with
      | [] => mv :: scatter mv ts []
      | v :: vs => v :: scatter mv ts vs

/-- interpolation.py:336-586 `interp_pressure_1d` on arrays. `mv` is `missing_value`, `none` for `np.nan` or `None`. -/
noncomputable def interpPressure1d (data src tgt : List (Option ℝ)) (useLog extrapolate : Bool) (mv : Option ℝ) :
    Except PErr (List (Option ℝ)) :=
  let linlog : ℤ := if useLog then (if extrapolate then -2 else 2) else (if extrapolate then -1 else 1)
  if data.length ≠ src.length then .error .lengths
  else if tgt.length = 0 then .ok []
  else
    let vsrc := ((data.zip src).filter fun q => !(isMissing mv q.1 || isMissing mv q.2)).filterMap Prod.snd
    if vsrc.length < 2 then .error .tooFew
    else if !strictMonotone vsrc then .error .srcNotMonotone
    else
      let vtgt := validOf mv tgt
      if !strictMonotone vtgt then .error .tgtNotMonotone
      else if useLog && (vsrc.any (fun v => decide (v ≤ 0)) || vtgt.any (fun v => decide (v ≤ 0))) then .error .notPositive
      else if vtgt.length = 0 then .ok (tgt.map fun _ => mv)
      else
        match kernel (encode mv src) (encode mv data) vtgt linlog spvl with
        | none => .error .backend
        | some (out, ier) =>
          if ier ≠ 0 then .error .backend
          else .ok (scatter mv tgt (out.map fun v => if v = spvl then mv else some v))

end Skyborn.Interp
