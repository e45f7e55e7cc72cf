/-
Model of the hybrid-coordinate routines of `skyborn.interp`: `interp_hybrid_to_pressure`, `interp_sigma_to_hybrid`,
`pressure_at_hybrid_levels`, `delta_pressure_hybrid` and `geopotential_height_at_hybrid_levels`
(/repo/src/skyborn/interp/interpolation.py) with their Fortran kernels (/repo/src/skyborn/interp/fortran/vinth2p_kernels.f90).

Simplifications: floating-point numbers are reals (no rounding; the sentinel is the decimal -9.96921e36); field values are finite
(NaN in the field is not modelled), a surface pressure is `Option ℝ` with `none` for a non-finite one. Fortran arrays are
functions with 1-based indices; `rd`/`wr` return `none` outside the declared bounds. Dimension names, coordinates, attributes, dtype
restoration, lazy-array rejection and the check of compiled handles are not modelled.
-/
import Verif.Common.Loops
import Mathlib.Analysis.SpecialFunctions.Log.Basic

namespace Skyborn.Hybrid

/-! ### Kernels -/

/-- vinth2p_kernels.f90:63-69 `build_input_pressures`. -/
def buildPressures (a b : ℕ → ℝ) (p0 ps : ℝ) : ℕ → ℝ := fun k => a k * p0 + b k * ps

/-- vinth2p_kernels.f90:258-264 `levels_ascending`. -/
noncomputable def levelsAscending (n : ℕ) (p : ℕ → ℝ) : Option Bool := do
  let x ← rd n p 1
  let y ← rd n p n
  some (decide (x ≤ y))

/-- vinth2p_kernels.f90:268-277 `lowest_model_level_index`. -/
def lowestIdx (n : ℕ) (asc : Bool) : ℕ := if asc then n else 1

/-- vinth2p_kernels.f90:280-289 `lowest_bracketing_level_index`. -/
def lowestPair (n : ℕ) (asc : Bool) : ℕ := if asc then n - 1 else 1

/-- vinth2p_kernels.f90:355-373, the `do while` of `locate_bracketing_level_ordered`. -/
noncomputable def locateLoop (t : ℝ) (n : ℕ) (p : ℕ → ℝ) (asc : Bool) (low high : ℕ) : Option ℕ :=
  if hlt : low < high then
    let mid := low + (high - low) / 2
    match rd n p (mid + 1) with
    | none => none
    | some v =>
      if (if asc then t ≤ v else v ≤ t) then locateLoop t n p asc low mid
      else locateLoop t n p asc (mid + 1) high
  else some low
termination_by high - low
decreasing_by all_goals omega

/-- vinth2p_kernels.f90:312-376 `locate_bracketing_level_ordered`. -/
noncomputable def locate (t : ℝ) (n : ℕ) (p : ℕ → ℝ) (asc : Bool) : Option ℕ :=
  if n < 2 then some 0
  else do
    let p1 ← rd n p 1
    let pm ← rd n p (n - 1)
    if asc then
      if t ≤ p1 then some 1
      else if pm ≤ t then some (n - 1)
      else locateLoop t n p asc 1 (n - 1)
    else
      if p1 ≤ t then some 1
      else if t ≤ pm then some (n - 1)
      else locateLoop t n p asc 1 (n - 1)

/-- vinth2p_kernels.f90:399-403 `double_log_pressure`. -/
noncomputable def doubleLog (p : ℝ) : ℝ := Real.log (Real.log (p + 2.72))

/-- vinth2p_kernels.f90:407-417 `interpolate_value_linear`. -/
noncomputable def interpLinear (xl xu t pl pu : ℝ) : ℝ := xl + (xu - xl) * (t - pl) / (pu - pl)

/-- vinth2p_kernels.f90:421-431 `interpolate_value_log`. -/
noncomputable def interpLog (xl xu t pl pu : ℝ) : ℝ := xl + (xu - xl) * Real.log (t / pl) / Real.log (pu / pl)

/-- vinth2p_kernels.f90:435-446 `interpolate_value_loglog` (also :450-462, whose denominator is precomputed). -/
noncomputable def interpLoglog (xl xu t pl pu : ℝ) : ℝ :=
  xl + (xu - xl) * (doubleLog t - doubleLog pl) / (doubleLog pu - doubleLog pl)

/-- vinth2p_kernels.f90:466-490 `interpolate_value`. -/
noncomputable def interpValue (intyp : ℕ) (xl xu t pl pu spvl : ℝ) : ℝ :=
  if intyp = 1 then interpLinear xl xu t pl pu
  else if intyp = 2 then interpLog xl xu t pl pu
  else if intyp = 3 then interpLoglog xl xu t pl pu
  else spvl

/-- vinth2p_kernels.f90:22-24. -/
noncomputable def rdc : ℝ := 287.04
noncomputable def ginv : ℝ := 1 / 9.80616
noncomputable def alphac : ℝ := 0.0065 * rdc * ginv

/-- vinth2p_kernels.f90:1518-1550 `extrapolate_temperature`. -/
noncomputable def extrapTemperature (tbot plevBottom plevOut ps phis : ℝ) : ℝ :=
  let tstar := tbot * (1 + alphac * (ps / plevBottom - 1))
  let hgt := phis * ginv
  let alnp :=
    if hgt < 2000 then alphac * Real.log (plevOut / ps)
    else
      let t0 := tstar + 0.0065 * hgt
      let tplat := min t0 298
      let tprime0 := if hgt ≤ 2500 then 0.002 * ((2500 - hgt) * t0 + (hgt - 2000) * tplat) else tplat
      if tprime0 < tstar then 0 else rdc * (tprime0 - tstar) / phis * Real.log (plevOut / ps)
  tstar * (1 + alnp + 0.5 * alnp ^ 2 + 1 / 6 * alnp ^ 3)

/-- vinth2p_kernels.f90:1554-1582 `extrapolate_geopotential`. -/
noncomputable def extrapGeopotential (tbot plevBottom plevOut ps phis : ℝ) : ℝ :=
  let hgt := phis * ginv
  let tstar := tbot * (1 + alphac * (ps / plevBottom - 1))
  let t0 := tstar + 0.0065 * hgt
  let r : ℝ × ℝ :=
    if tstar ≤ 290.5 ∧ t0 > 290.5 then (rdc / phis * (290.5 - tstar), tstar)
    else if tstar > 290.5 ∧ t0 > 290.5 then (0, 0.5 * (290.5 + tstar))
    else (alphac, tstar)
  let alph := r.1
  let tstar := if r.2 < 255 then 0.5 * (r.2 + 255) else r.2
  let alnp := alph * Real.log (plevOut / ps)
  hgt - rdc * tstar * ginv * Real.log (plevOut / ps) * (1 + 0.5 * alnp + 1 / 6 * alnp ^ 2)

/-- What happens below the lowest model level: `kxtrp` and `varflg` of the kernels. `nodePair` is `kxtrp = 1` of the plain kernel. -/
inductive Below
  | missing
  | nodePair
  | temperature
  | geopotential
  | other

/-- `dato(1:n) = v`. -/
def fill (n : ℕ) (v : ℝ) (dato : ℕ → ℝ) : ℕ → ℝ := fun k => if 1 ≤ k ∧ k ≤ n then v else dato k

/-- vinth2p_kernels.f90:545-550, 558-563 and the same lines of the other branches: the value from the pair `kp`, `kp + 1`. -/
noncomputable def pairValue (intyp n : ℕ) (x p : ℕ → ℝ) (spvl t : ℝ) (kp : ℕ) : Option ℝ := do
  let xl ← rd n x kp
  let xu ← rd n x (kp + 1)
  let pl ← rd n p kp
  let pu ← rd n p (kp + 1)
  some (interpValue intyp xl xu t pl pu spvl)

/-- vinth2p_kernels.f90:523-531: the requested pressures never increase. -/
noncomputable def neverIncreases (no : ℕ) (lev : ℕ → ℝ) : Bool :=
  (List.range' 2 (no - 1)).all fun k => !decide (lev (k - 1) < lev k)

/-- vinth2p_kernels.f90:557-559: `do while (kp_hint > 1 .and. plevo < plevi(kp_hint))`. -/
noncomputable def walk (t : ℝ) (n : ℕ) (p : ℕ → ℝ) : ℕ → Option ℕ
  | 0 => some 0
  | 1 => some 1
  | h + 2 => do
    let v ← rd n p (h + 2)
    if t < v then walk t n p (h + 1) else some (h + 2)

/-- vinth2p_kernels.f90:494-660 `interpolate_column_nodes`. The three identical loops (linear, log, log-log) are one loop with the
formula selected by `intyp`. -/
noncomputable def columnNodes (n : ℕ) (x a b : ℕ → ℝ) (p0mb : ℝ) (no : ℕ) (lev : ℕ → ℝ) (intyp : ℕ) (ps spvl : ℝ) (kxtrp : Bool)
    (dato : ℕ → ℝ) : Option (ℕ → ℝ) :=
  if ps = spvl then some (fill no spvl dato)
  else do
    let p := buildPressures a b p0mb (ps * 0.01)
    let asc ← levelsAscending n p
    let bp ← rd n p (lowestIdx n asc)
    let useWalk := asc && neverIncreases no lev
    if intyp = 1 ∨ intyp = 2 ∨ intyp = 3 then do
      let r ← doLoopM 1 no (dato, lowestPair n asc) fun k s => do
        let t ← rd no lev k
        if bp < t then
          if kxtrp then do
            let v ← pairValue intyp n x p spvl t (lowestPair n asc)
            let d ← wr no s.1 k v
            some (d, s.2)
          else do
            let d ← wr no s.1 k spvl
            some (d, s.2)
        else if useWalk then do
          let kp ← walk t n p s.2
          if kp < 1 then do
            let d ← wr no s.1 k spvl
            some (d, kp)
          else do
            let v ← pairValue intyp n x p spvl t kp
            let d ← wr no s.1 k v
            some (d, kp)
        else do
          let kp ← locate t n p asc
          if kp < 1 then do
            let d ← wr no s.1 k spvl
            some (d, s.2)
          else do
            let v ← pairValue intyp n x p spvl t kp
            let d ← wr no s.1 k v
            some (d, s.2)
      some r.1
    else some (fill no spvl dato)

/-- vinth2p_kernels.f90:740-760 etc.: the below-ground value of the ECMWF kernel (`x` the column, `bi` the lowest level). -/
noncomputable def belowValue (bel : Below) (intyp n : ℕ) (x p : ℕ → ℝ) (spvl t psmb tbot phis : ℝ) (asc : Bool) : Option ℝ :=
  match bel with
  | .missing => some spvl
  | .nodePair => pairValue intyp n x p spvl t (lowestPair n asc)
  | .temperature => do
    let xb ← rd n x (lowestIdx n asc)
    let pb ← rd n p (lowestIdx n asc)
    some (extrapTemperature xb pb t psmb phis)
  | .geopotential => do
    let pb ← rd n p (lowestIdx n asc)
    some (extrapGeopotential tbot pb t psmb phis)
  | .other => rd n x (lowestIdx n asc)

/-- vinth2p_kernels.f90:664-972 `interpolate_column_ecmwf`. The twelve copies of the loop are one loop. -/
noncomputable def columnEcmwf (n : ℕ) (x a b : ℕ → ℝ) (p0mb : ℝ) (no : ℕ) (lev : ℕ → ℝ) (intyp : ℕ) (ps spvl : ℝ) (bel : Below)
    (tbot phis : ℝ) (dato : ℕ → ℝ) : Option (ℕ → ℝ) :=
  if ps = spvl then some (fill no spvl dato)
  else do
    let p := buildPressures a b p0mb (ps * 0.01)
    let asc ← levelsAscending n p
    let bp ← rd n p (lowestIdx n asc)
    if intyp = 1 ∨ intyp = 2 ∨ intyp = 3 then
      doLoopM 1 no dato fun k d => do
        let t ← rd no lev k
        if bp < t then do
          let v ← belowValue bel intyp n x p spvl t (ps * 0.01) tbot phis asc
          wr no d k v
        else do
          let kp ← locate t n p asc
          if kp < 1 then wr no d k spvl
          else do
            let v ← pairValue intyp n x p spvl t kp
            wr no d k v
    else some (fill no spvl dato)

/-- The input buffer as seen by the flat kernels: level `k` of the column is read at `base + inner + (k - 1) * ninner`
(vinth2p_kernels.f90:217-229 `build_flat_level_offsets`, closed form of its loop). -/
def offset (base inner ninner k : ℕ) : ℕ := base + inner + (k - 1) * ninner

/-- `pairValue` reading the flat buffer of size `nin` (vinth2p_kernels.f90:1135-1139 etc.). -/
noncomputable def flatPair (intyp nin base inner ninner n : ℕ) (xf p : ℕ → ℝ) (spvl t : ℝ) (kp : ℕ) : Option ℝ := do
  let xl ← rd nin xf (offset base inner ninner kp)
  let xu ← rd nin xf (offset base inner ninner kp + ninner)
  let pl ← rd n p kp
  let pu ← rd n p (kp + 1)
  some (interpValue intyp xl xu t pl pu spvl)

/-- The below-ground values of the flat kernels. -/
noncomputable def flatBelow (bel : Below) (intyp nin base inner ninner n : ℕ) (xf p : ℕ → ℝ) (spvl t psmb tbot phis : ℝ) (asc : Bool) :
    Option ℝ :=
  match bel with
  | .missing => some spvl
  | .nodePair => flatPair intyp nin base inner ninner n xf p spvl t (lowestPair n asc)
  | .temperature => do
    let xb ← rd nin xf (offset base inner ninner (lowestIdx n asc))
    let pb ← rd n p (lowestIdx n asc)
    some (extrapTemperature xb pb t psmb phis)
  | .geopotential => do
    let pb ← rd n p (lowestIdx n asc)
    some (extrapGeopotential tbot pb t psmb phis)
  | .other => rd nin xf (offset base inner ninner (lowestIdx n asc))

/-- vinth2p_kernels.f90:1077-1203 `interpolate_flat_column_nodes` (`bel` is `missing` or `nodePair`) and :1207-1514
`interpolate_flat_column_ecmwf`. The state of the loops is the output buffer and `output_idx`. -/
noncomputable def flatColumn (nin nout : ℕ) (xf a b : ℕ → ℝ) (p0mb : ℝ) (no : ℕ) (lev : ℕ → ℝ) (intyp : ℕ) (ps spvl : ℝ) (bel : Below)
    (tbot phis : ℝ) (basein baseout inner ninner n : ℕ) (dato : ℕ → ℝ) : Option (ℕ → ℝ) :=
  let fillLoop : Option (ℕ → ℝ) := do
    let r ← doLoopM 1 no (dato, baseout + inner) fun _ s => do
      let d ← wr nout s.1 s.2 spvl
      some (d, s.2 + ninner)
    some r.1
  if ps = spvl then fillLoop
  else do
    let p := buildPressures a b p0mb (ps * 0.01)
    let asc ← levelsAscending n p
    let bp ← rd n p (lowestIdx n asc)
    if intyp = 1 ∨ intyp = 2 ∨ intyp = 3 then do
      let r ← doLoopM 1 no (dato, baseout + inner) fun k s => do
        let t ← rd no lev k
        let v ← (if bp < t then flatBelow bel intyp nin basein inner ninner n xf p spvl t (ps * 0.01) tbot phis asc
          else do
            let kp ← locate t n p asc
            if kp < 1 then some spvl else flatPair intyp nin basein inner ninner n xf p spvl t kp)
        let d ← wr nout s.1 s.2 v
        some (d, s.2 + ninner)
      some r.1
    else fillLoop

/-- vinth2p_kernels.f90:2001-2045 `dvinth2p_nodes_corder_pa_into` and :2058-2093 `dvinth2p_ecmwf_nodes_corder_pa_into`. -/
noncomputable def corderKernel (nouter nlevi ninner nlevo : ℕ) (xf a b : ℕ → ℝ) (p0 : ℝ) (lev : ℕ → ℝ) (intyp : ℕ) (ps : ℕ → ℝ)
    (spvl : ℝ) (bel : Below) (tbot phis : ℕ → ℝ) (dato : ℕ → ℝ) : Option (ℕ → ℝ) :=
  doLoopM 1 nouter dato fun o d =>
    doLoopM 1 ninner d fun inner d => do
      let pc ← rd (nouter * ninner) ps ((o - 1) * ninner + inner)
      let tc ← rd (nouter * ninner) tbot ((o - 1) * ninner + inner)
      let hc ← rd (nouter * ninner) phis ((o - 1) * ninner + inner)
      flatColumn (nouter * nlevi * ninner) (nouter * nlevo * ninner) xf a b (p0 * 0.01) nlevo (fun k => lev k * 0.01) intyp pc spvl bel
        tc hc ((o - 1) * nlevi * ninner) ((o - 1) * nlevo * ninner) inner ninner nlevi d

/-! ### `interp_hybrid_to_pressure` -/

/-- The `method` argument (after `_normalize_interp_method`, interpolation.py:107-117). -/
inductive Method
  | linear
  | log
  | loglog
  deriving DecidableEq

/-- interpolation.py:1260-1275 `_vinth2p_intyp`. -/
def Method.intyp : Method → ℕ
  | .linear => 1
  | .log => 2
  | .loglog => 3

/-- The `variable` argument. -/
inductive Var
  | temperature
  | geopotential
  | other
  deriving DecidableEq

/-- interpolation.py:78 `_SPVL`. -/
noncomputable def spvl : ℝ := -9.96921e36

/-- `output[output == _SPVL] = nan` (interpolation.py:1619, 1758). -/
noncomputable def decode (v : ℝ) : Option ℝ := open Classical in if v = spvl then none else some v

/-- The arguments of `interp_hybrid_to_pressure`. The field has shape `(nouter, nlevi, ninner)` with the level axis in the middle
(leading and trailing axes merged in C order); `data o k i` is 0-based in the axes `o` and `i`, 1-based in the level. `ps`, `tBot` and
`phiSfc` are already broadcast to `(nouter, ninner)`. -/
structure Req where
  nouter : ℕ
  nlevi : ℕ
  ninner : ℕ
  nlevo : ℕ
  data : ℕ → ℕ → ℕ → ℝ
  ps : ℕ → ℕ → Option ℝ
  hyam : ℕ → ℝ
  hybm : ℕ → ℝ
  p0 : ℝ
  levels : ℕ → ℝ
  method : Method
  extrapolate : Bool
  varName : Option Var
  tBot : Option (ℕ → ℕ → ℝ)
  phiSfc : Option (ℕ → ℕ → ℝ)

/-- Exceptions of `interp_hybrid_to_pressure`. -/
inductive HErr
  | variableRequired
  | fieldsRequired
  | outOfBounds
  deriving DecidableEq

/-- interpolation.py:1278-1285 `_vinth2p_varflg`. -/
def Var.below : Var → Below
  | .temperature => .temperature
  | .geopotential => .geopotential
  | .other => .other

/-- A C-order buffer of shape `(·, n1, n2)`, 1-based position, the middle axis 1-based. -/
def cbuf {α : Type} (n1 n2 : ℕ) (f : ℕ → ℕ → ℕ → α) : ℕ → α := fun q => f ((q - 1) / (n1 * n2)) ((q - 1) / n2 % n1 + 1) ((q - 1) % n2)

/-- A C-order buffer of shape `(·, n2)`, 1-based position. -/
def cbuf2 {α : Type} (n2 : ℕ) (f : ℕ → ℕ → α) : ℕ → α := fun q => f ((q - 1) / n2) ((q - 1) % n2)

/-- The branch of the kernels selected by `extrapolate` and `variable`. -/
def Req.below (r : Req) : Below := if r.extrapolate then (r.varName.map Var.below).getD .other else .missing

/-- The t_bot / phi_sfc columns passed to the kernel: zeros unless temperature or geopotential is extrapolated (interpolation.py:1579-1581,
1684-1686); the plain kernel (extrapolate=False) does not take them. -/
def Req.aux (r : Req) (f : Option (ℕ → ℕ → ℝ)) : ℕ → ℕ → ℝ :=
  match r.below with
  | .temperature | .geopotential => f.getD fun _ _ => 0
  | _ => fun _ _ => 0

/-- interpolation.py:1516-1629 `_interp_hybrid_to_pressure_corder` after its eligibility tests: entry `(o, k, i)` of the result,
`empty` is the uninitialised output buffer. -/
noncomputable def corderPath (r : Req) (empty : ℕ → ℝ) : Option (ℕ → ℕ → ℕ → Option ℝ) := do
  let out ← corderKernel r.nouter r.nlevi r.ninner r.nlevo (cbuf r.nlevi r.ninner r.data) r.hyam r.hybm r.p0 r.levels r.method.intyp
    (cbuf2 r.ninner fun o i => (r.ps o i).getD 0) spvl r.below (cbuf2 r.ninner (r.aux r.tBot)) (cbuf2 r.ninner (r.aux r.phiSfc)) empty
  some fun o k i => decode (out ((o * r.nlevo + (k - 1)) * r.ninner + i + 1))

/-- interpolation.py:1655-1774, the generic path: one column after another (vinth2p_kernels.f90:1613-1640, 1677-1704). -/
noncomputable def genericPath (r : Req) (empty : ℕ → ℝ) : Option (ℕ → ℕ → ℕ → Option ℝ) := do
  let cols ← doLoopM 1 (r.nouter * r.ninner) (fun (_ : ℕ) => empty) fun j cols => do
    let o := (j - 1) / r.ninner
    let i := (j - 1) % r.ninner
    let pc := (r.ps o i).getD spvl
    let col ← (match r.below with
      | .missing => columnNodes r.nlevi (fun k => r.data o k i) r.hyam r.hybm (r.p0 * 0.01) r.nlevo (fun k => r.levels k * 0.01)
          r.method.intyp pc spvl false (cols j)
      | bel => columnEcmwf r.nlevi (fun k => r.data o k i) r.hyam r.hybm (r.p0 * 0.01) r.nlevo (fun k => r.levels k * 0.01)
          r.method.intyp pc spvl bel (r.aux r.tBot o i) (r.aux r.phiSfc o i) (cols j))
    some (Function.update cols j col)
  some fun o k i => decode (cols (o * r.ninner + i + 1) k)

/-- interpolation.py:1966-2140 `interp_hybrid_to_pressure` and :1632-1775 `_interp_hybrid_to_pressure`. `aligned` says whether the arrays
are C-contiguous floating arrays with aligned dimensions (interpolation.py:1532-1556). -/
noncomputable def hybridToPressure (aligned : Bool) (empty : ℕ → ℝ) (r : Req) : Except HErr (ℕ → ℕ → ℕ → Option ℝ) :=
  if r.extrapolate && r.varName.isNone then .error .variableRequired
  else if (r.varName = some .temperature ∨ r.varName = some .geopotential) ∧ (r.tBot.isNone ∨ r.phiSfc.isNone) then .error .fieldsRequired
  else
    let finite := (List.range r.nouter).all fun o => (List.range r.ninner).all fun i => (r.ps o i).isSome
    match (if aligned && finite then corderPath r empty else genericPath r empty) with
    | none => .error .outOfBounds
    | some out => .ok out

/-! ### `interp_sigma_to_hybrid` -/

/-- vinth2p_kernels.f90:995-1007, 1051-1063: the target coordinate is outside the source range. -/
noncomputable def sigmaOutside (n : ℕ) (sig : ℕ → ℝ) (asc : Bool) (t : ℝ) : Option Bool := do
  let s1 ← rd n sig 1
  let sn ← rd n sig n
  some (if asc then decide (t < s1 ∨ sn < t) else decide (s1 < t ∨ t < sn))

/-- vinth2p_kernels.f90:1011-1012, 1067-1068: the logarithm has a non-positive argument. -/
noncomputable def sigmaBadLog (n : ℕ) (sig : ℕ → ℝ) (intyp kp : ℕ) (t : ℝ) : Option Bool :=
  if intyp = 2 then do
    let a ← rd n sig kp
    let b ← rd n sig (kp + 1)
    some (decide (t ≤ 0 ∨ a ≤ 0 ∨ b ≤ 0))
  else some false

/-- vinth2p_kernels.f90:978-1023 `interpolate_column_sigma`. A `none` target is NaN: every comparison is false, the binary search ends at
the last pair, and the interpolated value is NaN (the result of `interpValue` with a NaN argument), which is represented by the
sentinel because both become missing. -/
noncomputable def columnSigma (n : ℕ) (x sig : ℕ → ℝ) (no : ℕ) (tgt : ℕ → Option ℝ) (intyp : ℕ) (spvl : ℝ) (dato : ℕ → ℝ) :
    Option (ℕ → ℝ) :=
  if n < 2 then some (fill no spvl dato)
  else do
    let asc ← levelsAscending n sig
    doLoopM 1 no dato fun k d => do
      match ← rd no tgt k with
      | none => wr no d k spvl
      | some t => do
        if ← sigmaOutside n sig asc t then wr no d k spvl
        else do
          let kp ← locate t n sig asc
          if kp < 1 then wr no d k spvl
          else if ← sigmaBadLog n sig intyp kp t then wr no d k spvl
          else do
            let v ← pairValue intyp n x sig spvl t kp
            wr no d k v

/-- vinth2p_kernels.f90:1028-1072 `interpolate_flat_column_sigma`. -/
noncomputable def flatColumnSigma (nin nout : ℕ) (xf sig hyam hybm : ℕ → ℝ) (p0 ps : ℝ) (intyp : ℕ) (spvl : ℝ)
    (basein baseout inner ninner n no : ℕ) (dato : ℕ → ℝ) : Option (ℕ → ℝ) := do
  let asc ← levelsAscending n sig
  doLoopM 1 no dato fun k d => do
    let a ← rd no hyam k
    let b ← rd no hybm k
    let t := a * p0 / ps + b
    let out := baseout + (k - 1) * ninner + inner
    if ← sigmaOutside n sig asc t then wr nout d out spvl
    else do
      let kp ← locate t n sig asc
      if kp < 1 then wr nout d out spvl
      else if ← sigmaBadLog n sig intyp kp t then wr nout d out spvl
      else do
        let v ← flatPair intyp nin basein inner ninner n xf sig spvl t kp
        wr nout d out v

/-- The arguments of `interp_sigma_to_hybrid`; the field has shape `(nouter, nlevi, ninner)`. -/
structure SReq where
  nouter : ℕ
  nlevi : ℕ
  ninner : ℕ
  nlevo : ℕ
  data : ℕ → ℕ → ℕ → ℝ
  sigma : ℕ → ℝ
  ps : ℕ → ℕ → Option ℝ
  hyam : ℕ → ℝ
  hybm : ℕ → ℝ
  p0 : ℝ
  method : Method

/-- Exceptions of `interp_sigma_to_hybrid`. -/
inductive SErr
  | notMonotonic
  | outOfBounds
  deriving DecidableEq

/-- interpolation.py:1881-1963 `_interp_sigma_to_hybrid_corder` (kernel vinth2p_kernels.f90:1954-1979). -/
noncomputable def sigmaCorder (r : SReq) (empty : ℕ → ℝ) : Option (ℕ → ℕ → ℕ → Option ℝ) := do
  let out ← doLoopM 1 r.nouter empty fun o d =>
    doLoopM 1 r.ninner d fun inner d => do
      let pc ← rd (r.nouter * r.ninner) (cbuf2 r.ninner fun o i => (r.ps o i).getD 0) ((o - 1) * r.ninner + inner)
      flatColumnSigma (r.nouter * r.nlevi * r.ninner) (r.nouter * r.nlevo * r.ninner) (cbuf r.nlevi r.ninner r.data) r.sigma r.hyam r.hybm
        r.p0 pc r.method.intyp spvl ((o - 1) * r.nlevi * r.ninner) ((o - 1) * r.nlevo * r.ninner) inner r.ninner r.nlevi r.nlevo d
  some fun o k i => decode (out ((o * r.nlevo + (k - 1)) * r.ninner + i + 1))

/-- interpolation.py:1817-1878, the generic path, with the target sigma of `_sigma_from_hybrid` (interpolation.py:1165-1180). -/
noncomputable def sigmaGeneric (r : SReq) (empty : ℕ → ℝ) : Option (ℕ → ℕ → ℕ → Option ℝ) := do
  let cols ← doLoopM 1 (r.nouter * r.ninner) (fun (_ : ℕ) => empty) fun j cols => do
    let o := (j - 1) / r.ninner
    let i := (j - 1) % r.ninner
    let col ← columnSigma r.nlevi (fun k => r.data o k i) r.sigma r.nlevo
      (fun k => (r.ps o i).map fun s => r.hyam k * r.p0 / s + r.hybm k) r.method.intyp spvl (cols j)
    some (Function.update cols j col)
  some fun o k i => decode (cols (o * r.ninner + i + 1) k)

/-- interpolation.py:2255-2357 `interp_sigma_to_hybrid` and :1778-1878 `_interp_sigma_to_hybrid`. -/
noncomputable def sigmaToHybrid (aligned : Bool) (empty : ℕ → ℝ) (r : SReq) : Except SErr (ℕ → ℕ → ℕ → Option ℝ) :=
  let steps := List.range' 1 (r.nlevi - 1)
  if (steps.all fun k => decide (r.sigma k ≤ r.sigma (k + 1))) || (steps.all fun k => decide (r.sigma (k + 1) ≤ r.sigma k)) ||
      decide (r.nlevi ≤ 1) then
    let finite := (List.range r.nouter).all fun o => (List.range r.ninner).all fun i => (r.ps o i).isSome
    match (if aligned && finite then sigmaCorder r empty else sigmaGeneric r empty) with
    | none => .error .outOfBounds
    | some out => .ok out
  else .error .notMonotonic

/-! ### Pressures, thicknesses and geopotential height -/

/-- vinth2p_kernels.f90:96-108 `compute_pressure_at_hybrid_levels_columns` behind interpolation.py:590-687 `pressure_at_hybrid_levels`:
`out k c` is the pressure of level `k` of column `c` (both 1-based). -/
def pressureAtHybrid (nlev ncol : ℕ) (ps a b : ℕ → ℝ) (p0 : ℝ) (out : ℕ → ℕ → ℝ) : Option (ℕ → ℕ → ℝ) :=
  let scaled : ℕ → ℝ := fun k => p0 * a k
  doLoopM 1 ncol out fun c out => do
    let s ← rd ncol ps c
    some fun k c' => if c' = c ∧ 1 ≤ k ∧ k ≤ nlev then scaled k + b k * s else out k c'

/-- vinth2p_kernels.f90:74-92 `compute_delta_pressure_columns` behind interpolation.py:690-818 `delta_pressure_hybrid`; `nlev` is the
number of interfaces. The temporaries `delta_a`, `delta_b` are inlined. -/
def deltaPressure (nlev ncol : ℕ) (ps a b : ℕ → ℝ) (p0 : ℝ) (out : ℕ → ℕ → ℝ) : Option (ℕ → ℕ → ℝ) :=
  doLoopM 1 ncol out fun c out =>
    doLoopM 1 (nlev - 1) out fun k out => do
      let a1 ← rd nlev a k
      let a2 ← rd nlev a (k + 1)
      let b1 ← rd nlev b k
      let b2 ← rd nlev b (k + 1)
      let s ← rd ncol ps c
      some (Function.update out k (Function.update (out k) c (|p0 * (a1 - a2) + (b1 - b2) * s|)))

/-- vinth2p_kernels.f90:172-207 `compute_geopotential_height_flat_column`; the loop runs `k = nlev, ..., 1` with `k = nlev + 1 - j`. -/
noncomputable def heightColumn (nbuf : ℕ) (tf qf : ℕ → ℝ) (ps phis : ℝ) (hyai hybi : ℕ → ℝ) (p0 : ℝ) (base inner ninner nlev : ℕ)
    (zf : ℕ → ℝ) : Option (ℕ → ℝ) := do
  let pHalf : ℕ → ℝ := fun k => hyai k * p0 + hybi k * ps
  let r ← doLoopM 1 nlev (zf, phis, base + inner + (nlev - 1) * ninner) fun j s => do
    let k := nlev + 1 - j
    let pu ← rd (nlev + 1) pHalf k
    let pl ← rd (nlev + 1) pHalf (k + 1)
    let top := decide (k = 1 ∧ pu ≤ 0)
    let dlog := if top then Real.log (pl / 0.1) else Real.log (pl / pu)
    let alpha := if top then Real.log 2 else 1 - pu / (pl - pu) * Real.log (pl / pu)
    let t ← rd nbuf tf s.2.2
    let q ← rd nbuf qf s.2.2
    let tv := 287.06 * t * (1 + 0.609133 * q)
    let z ← wr nbuf s.1 s.2.2 ((s.2.1 + tv * alpha) / 9.80665)
    some (z, s.2.1 + tv * dlog, s.2.2 - ninner)
  some r.1

/-- interpolation.py:821-1069 `geopotential_height_at_hybrid_levels` (kernel vinth2p_kernels.f90:1865-1891): entry `(o, k, i)` of the
result, `k` 1-based. -/
noncomputable def geopotentialHeight (nouter nlev ninner : ℕ) (t q : ℕ → ℕ → ℕ → ℝ) (ps phis : ℕ → ℕ → ℝ) (hyai hybi : ℕ → ℝ) (p0 : ℝ)
    (empty : ℕ → ℝ) : Option (ℕ → ℕ → ℕ → ℝ) := do
  let out ← doLoopM 1 nouter empty fun o d =>
    doLoopM 1 ninner d fun inner d => do
      let pc ← rd (nouter * ninner) (cbuf2 ninner ps) ((o - 1) * ninner + inner)
      let hc ← rd (nouter * ninner) (cbuf2 ninner phis) ((o - 1) * ninner + inner)
      heightColumn (nouter * nlev * ninner) (cbuf nlev ninner t) (cbuf nlev ninner q) pc hc hyai hybi p0 ((o - 1) * nlev * ninner) inner
        ninner nlev d
  some fun o k i => out ((o * nlev + (k - 1)) * ninner + i + 1)

end Skyborn.Hybrid
