/-
Model of /repo/src/skyborn/calc/GPI/fortran/tropical_cyclone_potential_intensity.f90.

Simplifications: real numbers for single and double precision, no rounding and no overflow. A computation in which a NaN or an infinity arises is `none`,
except in the Newton iteration of CAPE, where the effect of NaN is modelled. Arrays are functions numbered from 1. The wrapping through C pointers
(tropical_cyclone_potential_intensity_bindings.f90, _module.c) is the identity.
-/
import Mathlib.Analysis.SpecialFunctions.Pow.Real
import Mathlib.Analysis.SpecialFunctions.Log.Basic
import Mathlib.Analysis.SpecialFunctions.Sqrt

namespace Skyborn.Gpi

open Classical

/-- tropical_cyclone_potential_intensity.f90:67 (and in every routine), core.py:22: the missing value. -/
noncomputable def undef : ℝ := -9.99e33

/-- tropical_cyclone_potential_intensity.f90:639-642, 1388-1400: constants. `eps` is 0.62197183 in single and RD/RV in double precision; both are RD/RV here. -/
noncomputable def rd : ℝ := 287.04
@[inherit_doc rd] noncomputable def rv : ℝ := 461.5
@[inherit_doc rd] noncomputable def eps : ℝ := rd / rv
@[inherit_doc rd] noncomputable def cpd : ℝ := 1005.7
@[inherit_doc rd] noncomputable def cl : ℝ := 2500
@[inherit_doc rd] noncomputable def cpvmcl : ℝ := -630
@[inherit_doc rd] noncomputable def alv0 : ℝ := 2.501e6

/-- tropical_cyclone_potential_intensity.f90:672, 1309-1311: the saturation vapour pressure at `t` degrees Celsius. At the pole of the exponent the quotient
is minus infinity and the exponential zero. -/
noncomputable def satPressure (t : ℝ) : ℝ := if 243.5 + t = 0 then 0 else 6.112 * Real.exp (17.67 * t / (243.5 + t))

/-- tropical_cyclone_potential_intensity.f90:1275-1328 `prepare_cape_environment`: virtual temperature of the environment. -/
noncomputable def virtualTemp (t r : ℝ) : ℝ := t * (1 + r * (1 / eps)) / (1 + r)

/-- tropical_cyclone_potential_intensity.f90:1321-1325: the factor of the layer below `level`. -/
noncomputable def layerFactor (p : ℕ → ℝ) (level : ℕ) : ℝ := rd * (p (level - 1) - p level) / (p level + p (level - 1))

/-- The environment of a CAPE calculation: the number of levels, temperature in K, pressure in mb, mixing ratio in kg/kg. -/
structure Env where
  n : ℕ
  t : ℕ → ℝ
  p : ℕ → ℝ
  r : ℕ → ℝ

/-- tropical_cyclone_potential_intensity.f90:1440-1443: the vapour pressure of the parcel and its relative humidity. -/
noncomputable def vapour (r p : ℝ) : ℝ := r * p / (eps + r)
@[inherit_doc vapour] noncomputable def humidity (t r p : ℝ) : ℝ := min (vapour r p / satPressure (t - 273.15)) 1

/-- tropical_cyclone_potential_intensity.f90:1440-1449: the reversible entropy. -/
noncomputable def reversibleEntropy (t r p : ℝ) : ℝ :=
  (cpd + r * cl) * Real.log t - rd * Real.log (p - vapour r p) + (alv0 + cpvmcl * (t - 273.15)) * r / t - r * rv * Real.log (humidity t r p)

/-- tropical_cyclone_potential_intensity.f90:1451-1452: the lifted condensation level. -/
noncomputable def condensation (t r p : ℝ) : ℝ := p * humidity t r p ^ (t / (1669 - 122 * humidity t r p - t))

/-- tropical_cyclone_potential_intensity.f90:1460-1472: the parcel on the dry adiabat. -/
noncomputable def dryTemp (t r p q : ℝ) : ℝ := virtualTemp (t * (q / p) ^ (rd / cpd)) r

/-- tropical_cyclone_potential_intensity.f90:1483-1484, 1527-1528: mixing ratio at saturation. -/
noncomputable def satMixing (es p : ℝ) : ℝ := eps * es / (p - es)

/-- tropical_cyclone_potential_intensity.f90:1492-1501: entropy of the saturated parcel with total water `r` and its derivative. -/
noncomputable def moistEntropy (r p t es : ℝ) : ℝ :=
  (cpd + r * cl) * Real.log t - rd * Real.log (p - vapour (satMixing es p) p) + (alv0 + cpvmcl * (t - 273.15)) * satMixing es p / t
@[inherit_doc moistEntropy] noncomputable def moistRate (r p t es : ℝ) : ℝ :=
  (cpd + r * cl + (alv0 + cpvmcl * (t - 273.15)) * (alv0 + cpvmcl * (t - 273.15)) * satMixing es p * (1 / rv) / (t * t)) / t

/-- tropical_cyclone_potential_intensity.f90:1486-1531: the Newton iteration for the temperature of the saturated parcel at pressure `p`, with `left` passes
left and `count` passes done. `none`: `error_flag = 2`. If the temperature is not positive or the vapour pressure not below the pressure, the entropy is
NaN (the logarithm of a number that is not positive, or a quotient by zero), all further values are NaN, no comparison succeeds and the passes run out. -/
noncomputable def newton (r p s : ℝ) : ℕ → ℕ → ℝ → ℝ → Option (ℝ × ℝ)
  | 0, _, _, _ => none
  | left + 1, count, t, es =>
    if t ≤ 0 ∨ p ≤ es then none
    else
      let t' := t + (if count + 1 < 3 then 0.3 else 1) * (s - moistEntropy r p t es) / moistRate r p t es
      if |t' - t| ≤ 0.001 then some (t, satMixing es p)
      else
        let es' := satPressure (t' - 273.15)
        if es' > p - 1 then none else newton r p s left (count + 1) t' es'

/-- tropical_cyclone_potential_intensity.f90:1533-1541: the virtual temperature of the saturated parcel. -/
noncomputable def moistTemp (sig r : ℝ) (c : ℝ × ℝ) : ℝ := c.1 * (1 + c.2 * (1 / eps)) / (1 + (sig * c.2 + (1 - sig) * r))

/-- tropical_cyclone_potential_intensity.f90:1458-1472: the differences of virtual temperature after the loop over the dry levels. -/
noncomputable def dryDiff (e : Env) (t r p lcl : ℝ) (level : ℕ) : ℝ :=
  if e.p level ≥ 50 ∧ e.p level ≥ lcl then dryTemp t r p (e.p level) - virtualTemp (e.t level) (e.r level) else 0

/-- tropical_cyclone_potential_intensity.f90:1474-1543: the loop over the levels above the condensation level; `left` levels from `level` on are left. -/
noncomputable def moistLoop (e : Env) (sig r lcl s : ℝ) : ℕ → ℕ → (ℕ → ℝ) → Option (ℕ → ℝ)
  | 0, _, d => some d
  | left + 1, level, d =>
    if e.p level < 50 then some d
    else if e.p level < lcl then
      match newton r (e.p level) s 500 0 (e.t level) (satPressure (e.t level - 273.15)) with
      | none => none
      | some c => moistLoop e sig r lcl s left (level + 1) (Function.update d level (moistTemp sig r c - virtualTemp (e.t level) (e.r level)))
    else moistLoop e sig r lcl s left (level + 1) d

/-- tropical_cyclone_potential_intensity.f90:1548-1554: the level of neutral buoyancy, searched from `level` downward. -/
noncomputable def neutral (d : ℕ → ℝ) : ℕ → ℕ
  | 0 => 1
  | level + 1 => if d (level + 1) > 0 then level + 1 else neutral d level

/-- What CAPE returns. -/
structure Cape where
  value : ℝ
  tout : ℝ
  lout : ℝ
  flag : ℕ

/-- tropical_cyclone_potential_intensity.f90:1561-1575: twice the area of the layers up to `lnb` and below the first level; positive minus negative parts. -/
noncomputable def areas (e : Env) (p : ℝ) (d : ℕ → ℝ) (lnb : ℕ) : ℝ × ℝ :=
  let f := fun level => (d level + d (level - 1)) * layerFactor e.p level
  let b := rd * (p - e.p 1) / (p + e.p 1)
  (((List.range' 2 (lnb - 1)).map fun l => max (f l) 0).sum + b * max (d 1) 0, ((List.range' 2 (lnb - 1)).map fun l => -min (f l) 0).sum - b * min (d 1) 0)

/-- tropical_cyclone_potential_intensity.f90:1580-1583: the pressure at which the buoyancy vanishes. -/
noncomputable def crossing (e : Env) (d : ℕ → ℝ) (k : ℕ) : ℝ := (e.p (k + 1) * d k - e.p k * d (k + 1)) / (d k - d (k + 1))

/-- tropical_cyclone_potential_intensity.f90:1556-1593: the integration. `none` if two neighbouring pressures are equal (0/0). -/
noncomputable def integrate (e : Env) (p : ℝ) (d : ℕ → ℝ) : Option Cape :=
  let k := neutral d e.n
  if k = 1 then some ⟨0, e.t 1, 0, 1⟩
  else if k < e.n then
    let q := crossing e d k
    if e.p k = e.p (k + 1) then none
    else some ⟨max ((areas e p d k).1 + rd * d k * (e.p k - q) / (e.p k + q) - (areas e p d k).2) 0,
      (e.t k * (q - e.p (k + 1)) + e.t (k + 1) * (e.p k - q)) / (e.p k - e.p (k + 1)), q, 1⟩
  else some ⟨max ((areas e p d k).1 + 0 - (areas e p d k).2) 0, e.t k, e.p k, 1⟩

/-- tropical_cyclone_potential_intensity.f90:1366-1595 `cape_from_cached_environment` (with `prepare_cape_environment`: `CAPE`, 1330-1364), for positive
pressures of the levels. -/
noncomputable def cape (e : Env) (sig t r p : ℝ) : Option Cape :=
  if r < 1.0e-6 ∨ t < 200 then some ⟨0, e.t 1, e.p 1, 0⟩
  else if p ≤ 0 ∨ 1669 - 122 * humidity t r p - t = 0 then none
  else
    match moistLoop e sig r (condensation t r p) (reversibleEntropy t r p) e.n 1 (dryDiff e t r p (condensation t r p)) with
    | none => some ⟨0, e.t 1, e.p 1, 2⟩
    | some d => integrate e p d

/-! ### Potential intensity -/

/-- What `calculate_pi_core` returns. -/
structure Res where
  pmin : ℝ
  vmax : ℝ
  tout : ℝ
  lout : ℝ
  lnpi : ℝ
  lneff : ℝ
  lndiseq : ℝ
  lnckcd : ℝ
  flag : ℕ

/-- tropical_cyclone_potential_intensity.f90:682-692: the first level nearest to 50 mb, among the first `n`. -/
noncomputable def nearest (p : ℕ → ℝ) : ℕ → ℕ
  | 0 => 1
  | 1 => 1
  | n + 2 => if |p (n + 2) - 50| < |p (nearest p (n + 1)) - 50| then n + 2 else nearest p (n + 1)

/-- The arguments of `calculate_pi_core`: temperature in K and mixing ratio in kg/kg. -/
structure Column where
  n : ℕ
  t : ℕ → ℝ
  p : ℕ → ℝ
  r : ℕ → ℝ
  sst : ℝ
  psl : ℝ
  source : ℕ
  ckcd : ℝ

/-- tropical_cyclone_potential_intensity.f90:674-698: the environment of the CAPE calculations; negative mixing ratios are raised to zero, the level nearest to
50 mb and those after it are left out. -/
noncomputable def Column.env (c : Column) : Env := ⟨max 1 (nearest c.p c.n - 1), c.t, c.p, fun i => max (c.r i) 0⟩

/-- tropical_cyclone_potential_intensity.f90:664-667: the logarithm of the ratio. -/
noncomputable def lnRatio (ckcd : ℝ) : ℝ := if ckcd > 0 then Real.log ckcd else undef

/-- tropical_cyclone_potential_intensity.f90:653-661, 700-717, 750-753, 767-770: an early return because of CAPE. -/
noncomputable def Column.early (c : Column) (out : ℝ × ℝ) (flag : ℕ) : Res := ⟨c.psl, 0, out.1, out.2, undef, undef, undef, lnRatio c.ckcd, flag⟩

/-- One pass of the pressure iteration: the two CAPE results and what follows from them. -/
structure Pass where
  capem : ℝ
  capes : ℝ
  out : ℝ × ℝ
  rs : ℝ

/-- tropical_cyclone_potential_intensity.f90:732-777: the two CAPE calculations of a pass at pressure `pm`. The error holds the CAPE flag. -/
noncomputable def Column.pass (c : Column) (pm : ℝ) : Option (Except ℕ Pass) :=
  let pp := min pm 1000
  let r1 := c.env.r 1
  let den := pp * (eps + r1) - r1 * c.psl
  if den = 0 then none
  else do
    let m ← cape c.env 0 (c.t 1) (eps * r1 * c.psl / den) pp
    if m.flag ≠ 1 then some (.error m.flag)
    else
      let es := satPressure (c.sst - 273.15)
      if pp - es = 0 then none
      else do
        let s ← cape c.env 0 c.sst (satMixing es pp) pp
        if s.flag ≠ 1 then some (.error s.flag)
        else some (.ok ⟨m.value, s.value, if c.source = 1 then (m.tout, m.lout) else (s.tout, s.lout), satMixing es pp⟩)

/-- tropical_cyclone_potential_intensity.f90:782-784: the mean virtual temperature at the surface. -/
noncomputable def Column.meanTemp (c : Column) (q : Pass) : ℝ := 0.5 * (virtualTemp (c.t 1) (c.env.r 1) + virtualTemp c.sst q.rs)

/-- tropical_cyclone_potential_intensity.f90:781, 785-788: the new pressure, with `0.5 * CKCD` (785) or `CKCD * catfac` (802-805) as `w`. -/
noncomputable def Column.pressure (c : Column) (capea w : ℝ) (q : Pass) : ℝ :=
  c.psl * Real.exp (-max ((q.capem - capea) + w * (c.sst / q.out.1) * (q.capes - q.capem)) 0 * (1 / rd) / c.meanTemp q)

/-- tropical_cyclone_potential_intensity.f90:802-823: the end after convergence. `none`: the square root of a negative number. -/
noncomputable def Column.finish (c : Column) (capea : ℝ) (q : Pass) : Option Res :=
  let x := 0.9 * (c.sst / q.out.1) * max 0 (q.capes - q.capem)
  if x < 0 then none
  else
    let v := 0.8 * Real.sqrt x
    let eff := (c.sst - q.out.1) / q.out.1
    let okE : Prop := (q.out.1 > 0 ∧ c.sst > q.out.1) ∧ eff > 0
    let lneff := if okE then Real.log eff else undef
    let lnpi := if v > 0 then 2 * Real.log v else undef
    some ⟨c.pressure capea (0.9 * (0.5 * (1 + 1 / 2))) q, v, q.out.1, q.out.2, lnpi, lneff,
      if v > 0 ∧ okE ∧ c.ckcd > 0 then lnpi - lneff - lnRatio c.ckcd else undef, lnRatio c.ckcd, 1⟩

/-- tropical_cyclone_potential_intensity.f90:725-800: the iteration, with `left` passes left after this one (200 at the start). -/
noncomputable def Column.iterate (c : Column) (capea : ℝ) : ℕ → ℝ → ℝ × ℝ → Option Res
  | left, pm, out => do
    match ← c.pass pm with
    | .error flag => some (c.early out flag)
    | .ok q =>
      if q.out.1 = 0 then none
      else
        let pnew := c.pressure capea (0.5 * 0.9) q
        if left = 0 ∨ pnew < 400 then some ⟨undef, undef, undef, undef, undef, undef, undef, lnRatio c.ckcd, 2⟩
        else if |pnew - pm| > 0.5 then
          match left with
          | 0 => none
          | k + 1 => Column.iterate c capea k pnew q.out
        else c.finish capea q

/-- tropical_cyclone_potential_intensity.f90:596-825 `calculate_pi_core`. `none` also if there is no level or a level whose pressure is not positive. -/
noncomputable def core (c : Column) : Option Res :=
  if c.n = 0 ∨ ∃ i, 1 ≤ i ∧ i ≤ c.n ∧ c.p i ≤ 0 then none
  else do
    let a ← cape c.env 0 (c.t 1) (c.env.r 1) (c.p 1)
    if a.flag ≠ 1 then some (c.early (undef, undef) a.flag)
    else c.iterate a.value 200 970 (undef, undef)

/-! ### The callers -/

/-- The result of a point that is skipped. -/
noncomputable def skipped (lnckcd : ℝ) (flag : ℕ) : Res := ⟨undef, undef, undef, undef, undef, undef, undef, lnckcd, flag⟩

/-- tropical_cyclone_potential_intensity.f90:436-566 `calculate_pi_single_profile`, `calculate_pi_profile_diagnostics`: `actual` of the `n` levels. Conversions
to degrees Celsius, g/kg and back cancel. -/
noncomputable def profile (sst psl : ℝ) (p t r : ℕ → ℝ) (actual source : ℕ) (ckcd : ℝ) : Option Res :=
  if sst + -273.15 ≤ 5 then some (skipped (lnRatio ckcd) 0) else core ⟨actual, t, p, r, sst, psl * 0.01, source, ckcd⟩

/-- tropical_cyclone_potential_intensity.f90:83-110, 260-301, 884-915, 957-999: one point of the routines without missing values; `none` as flag: the flag is
not touched. -/
noncomputable def pointPlain (n : ℕ) (p : ℕ → ℝ) (sst psl : ℝ) (t r : ℕ → ℝ) (source : ℕ) (ckcd : ℝ) : Option (Res × Option ℕ) :=
  if sst + -273.15 ≤ 5 then some (skipped (lnRatio ckcd) 0, none)
  else (core ⟨n, t, p, r, sst, psl * 0.01, source, ckcd⟩).map fun res => (res, some res.flag)

/-- tropical_cyclone_potential_intensity.f90:180-198: the first level without missing values, `n + 1` if there is none. -/
noncomputable def validStart (t r : ℕ → ℝ) : ℕ → ℕ → ℕ
  | 0, k => k
  | left + 1, k => if t k ≠ undef ∧ r k ≠ undef then k else validStart t r left (k + 1)

/-- tropical_cyclone_potential_intensity.f90:180-191: missing levels are missing in both fields (−9.99e33 in degrees Celsius and g/kg, which are then converted
to K and kg/kg; the mixing ratio is raised to zero). -/
noncomputable def maskT (t r : ℕ → ℝ) (k : ℕ) : ℝ := if t k ≠ undef ∧ r k ≠ undef then t k else undef + 273.15
@[inherit_doc maskT] noncomputable def maskR (t r : ℕ → ℝ) (k : ℕ) : ℝ := if t k ≠ undef ∧ r k ≠ undef then r k else undef * 0.001

/-- tropical_cyclone_potential_intensity.f90:161-216, 353-415, 1060-1118, 1175-1230: one point of the routines with missing values. -/
noncomputable def pointMissing (n : ℕ) (p : ℕ → ℝ) (sst psl : ℝ) (t r : ℕ → ℝ) (source : ℕ) (ckcd : ℝ) : Option (Res × Option ℕ) :=
  if sst = undef then some (skipped (lnRatio ckcd) 0, none)
  else if sst + -273.15 ≤ 5 then some (skipped (lnRatio ckcd) 0, none)
  else if validStart t r n 1 > n then some (skipped (lnRatio ckcd) 0, none)
  else
    let k := validStart t r n 1
    (core ⟨n - k + 1, fun i => maskT t r (i + k - 1), fun i => p (i + k - 1), fun i => maskR t r (i + k - 1), sst, psl * 0.01, source, ckcd⟩).map
      fun res => (res, some res.flag)

end Skyborn.Gpi
