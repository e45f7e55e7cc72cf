/-
Model of the normal-mode growth rates: the compiled kernels
/repo/src/skyborn/calc/growth_rate/fortran/growth_rate_kernels.f90 (growth_rate_kernels_module.c hands the arrays over unchanged).

Simplifications: numbers are reals (no rounding, no overflow), NaN is `none`; Fortran arrays are functions with 1-based indices; array
expressions and loops whose iterations write only their own element are functions of the element. The QZ solver (qzhes.f90, qzit.f90, qzval.f90)
is a parameter. A division by zero is reported as `none` of the kernels instead of continuing with infinities.
-/
import Verif.Common.Loops
import Mathlib.Analysis.SpecialFunctions.Pow.Real
import Mathlib.Analysis.SpecialFunctions.Trigonometric.Basic

namespace Skyborn.Growth

open Classical

/-! ### The generalized eigenvalue solver -/

/-- One triple `alfr(i), alfi(i), beta(i)` of `qzval`. -/
structure Val where
  alfr : ℝ
  alfi : ℝ
  beta : ℝ

/-- `qzhes`, `qzit`, `qzval` on `n` by `n` matrices: `none` when `qzit` reports `info /= 0`. -/
abbrev Solver := (n : ℕ) → (A B : ℕ → ℕ → ℝ) → Option (List Val)

/-- `tiny(1.0_real64)`. -/
noncomputable def tiny : ℝ := 1 / 2 ^ 1022

/-- growth_rate_kernels.f90:89-98: the loop over the eigenvalues; `none` is `has_valid = .false.`. -/
noncomputable def largest (l : List Val) : Option ℝ :=
  l.foldl (fun acc q => if |q.beta| ≤ tiny then acc
    else match acc with
      | none => some (q.alfi / q.beta)
      | some m => some (max m (q.alfi / q.beta))) none

/-- growth_rate_kernels.f90:67, 76: the arrays handed to the solver are `n` by `n`; here they are zero elsewhere. -/
def crop (n : ℕ) (A : ℕ → ℕ → ℝ) (i j : ℕ) : ℝ := if (1 ≤ i ∧ i ≤ n) ∧ 1 ≤ j ∧ j ≤ n then A i j else 0

/-- growth_rate_kernels.f90:66-106 `generalized_eig_max_imag`: `none` is `info /= 0`. -/
noncomputable def maxImag (qz : Solver) (n : ℕ) (A B : ℕ → ℕ → ℝ) : Option ℝ := (qz n (crop n A) (crop n B)).bind largest

/-! ### Interpolation in pressure -/

/-- growth_rate_kernels.f90:186-188: the walk of the cursor `jdx`. -/
noncomputable def walk (nin : ℕ) (p : ℕ → ℝ) (t : ℝ) (j : ℕ) : ℕ :=
  if j < nin - 1 ∧ t > p (j + 1) then walk nin p t (j + 1) else j
termination_by nin - j
decreasing_by omega

/-- growth_rate_kernels.f90:190-212: the value at one target level. -/
noncomputable def levelValue (p v : ℕ → ℝ) (kind : ℕ) (t : ℝ) (j : ℕ) : ℝ :=
  if t = p j then v j
  else if t = p (j + 1) then v (j + 1)
  else if kind = 1 then v j + ((v (j + 1) - v j) / (p (j + 1) - p j)) * (t - p j)
  else v j + ((v (j + 1) - v j) / (Real.log (p (j + 1)) - Real.log (p j))) * (Real.log t - Real.log (p j))

/-- growth_rate_kernels.f90:123-214 `interp_pressure_profile_no_extrap`: `none` when `ier /= 0` (the caller does not look at the code). -/
noncomputable def interpNoExtrap (nin : ℕ) (sp sv : ℕ → ℝ) (nout : ℕ) (tp : ℕ → ℝ) (kind : ℕ) : Option (ℕ → ℝ) :=
  if nin < 2 then none
  else
    let p := if sp 1 > sp nin then fun i => sp (nin - i + 1) else sp
    let v := if sp 1 > sp nin then fun i => sv (nin - i + 1) else sv
    if ∃ i, 1 ≤ i ∧ i ≤ nin - 1 ∧ p i ≥ p (i + 1) then none
    else if ∃ i, 1 ≤ i ∧ i ≤ nout - 1 ∧ tp i ≥ tp (i + 1) then none
    else if kind = 2 ∧ ((∃ i, 1 ≤ i ∧ i ≤ nin ∧ p i ≤ 0) ∨ ∃ i, 1 ≤ i ∧ i ≤ nout ∧ tp i ≤ 0) then none
    else
      (doLoopM 1 nout ((1, fun _ => 0) : ℕ × (ℕ → ℝ)) fun i s =>
        if tp i < p 1 ∨ tp i > p nin then none
        else
          let j := walk nin p (tp i) s.1
          some (j, Function.update s.2 i (levelValue p v kind (tp i) j))).map (·.2)

/-! ### From the spectrum to one number -/

/-- growth_rate_kernels.f90:236-244 (= 335-343): the largest number among the first `n` samples. -/
noncomputable def peak (n : ℕ) (g : ℕ → Option ℝ) : Option ℝ :=
  doLoop 1 n none fun i acc => match g i with
    | none => acc
    | some v => match acc with
      | none => some v
      | some m => some (max m v)

/-- growth_rate_kernels.f90:226-252 `finalize_barot_growth`: `error 200` when no sample is a number. -/
noncomputable def finalizeBarot (n : ℕ) (g : ℕ → Option ℝ) : Except ℕ ℝ :=
  match peak n g with
  | some v => .ok v
  | none => .error 200

/-- growth_rate_kernels.f90:281-287: sum and number of the samples `j_start .. j_end` that are numbers. -/
noncomputable def windowSum (lo hi : ℕ) (g : ℕ → Option ℝ) : ℝ × ℕ :=
  doLoop lo hi ((0, 0) : ℝ × ℕ) fun j s => match g j with
    | none => s
    | some v => (s.1 + v, s.2 + 1)

/-- growth_rate_kernels.f90:264-295 `apply_centered_running_mean`. -/
noncomputable def runningMean (n : ℕ) (g : ℕ → Option ℝ) (window : ℕ) : ℕ → Option ℝ :=
  if window ≤ 1 then g
  else fun i =>
    let half := window / 2
    let s := windowSum (max 1 (i - half)) (min n (i + half)) g
    if s.2 > 0 then some (s.1 / s.2) else none

/-- growth_rate_kernels.f90:321-325: the last `i` with `growth(i) > growth(i + 1)`, or 0. -/
noncomputable def lastTurn (n : ℕ) (g : ℕ → Option ℝ) : ℕ :=
  doLoop 1 (n - 1) 0 fun i s => match g i, g (i + 1) with
    | some a, some b => if a - b > 0 then i else s
    | _, _ => s

/-- growth_rate_kernels.f90:309-351 `finalize_baroc_growth`: `error` carries the status 300 or 301. -/
noncomputable def finalizeBaroc (n : ℕ) (g : ℕ → Option ℝ) (window : ℕ) : Except ℕ ℝ :=
  let used := runningMean n g window
  let t := lastTurn n used
  if t = 0 then .error 300
  else match peak (t + 1) used with
    | some v => .ok v
    | none => .error 301

/-- growth_rate_kernels.f90:440-449, 592-601: the tridiagonal matrix with the given diagonal, lower and upper coefficients. -/
def tri (diag lower upper : ℕ → ℝ) (i j : ℕ) : ℝ :=
  if i = j then diag i else if i = j + 1 then lower j else if j = i + 1 then upper i else 0

/-- `kval * a_diag_linear(n) - kval3 * u(n)` and its neighbours: the matrix `A(k)` (growth_rate_kernels.f90:440-449, 592-601). -/
def aMat (k : ℝ) (aDiag aLower aUpper u : ℕ → ℝ) : ℕ → ℕ → ℝ :=
  tri (fun n => k * aDiag n - (k * k) * k * u n) (fun n => k * aLower n) (fun n => k * aUpper n)

/-- `b_diag_base(n) - kval2` and its neighbours: the matrix `B(k)` (growth_rate_kernels.f90:440-449, 592-601). -/
def bMat (k : ℝ) (bDiag bLower bUpper : ℕ → ℝ) : ℕ → ℕ → ℝ := tri (fun n => bDiag n - k * k) bLower bUpper

/-! ### Barotropic kernel -/

/-- growth_rate_kernels.f90:17-24: the constants. -/
noncomputable def omega : ℝ := 7.292e-5
@[inherit_doc omega] noncomputable def radius : ℝ := 6.371e6
@[inherit_doc omega] noncomputable def wavenumberStep : ℝ := 1.0e-7
@[inherit_doc omega] def nwavenumbers : ℕ := 200

/-- `acos(-1)/180`. -/
noncomputable def deg : ℝ := Real.pi / 180

/-- growth_rate_kernels.f90:396: `y`. -/
noncomputable def yOf (lat : ℕ → ℝ) (i : ℕ) : ℝ := deg * lat i * radius

/-- growth_rate_kernels.f90:397-398: `dy1`, `dy2`. -/
noncomputable def dy1 (lat : ℕ → ℝ) (i : ℕ) : ℝ := (yOf lat (i + 1) + yOf lat i) / 2
@[inherit_doc dy1] noncomputable def dy2 (lat : ℕ → ℝ) (i : ℕ) : ℝ := dy1 lat (i + 1) - dy1 lat i

/-- growth_rate_kernels.f90:399: `dy`; `y1` (400) is `dy(1)` and `y2` (401) is `dy(nlat - 1)`, spelt out again. -/
noncomputable def dy (lat : ℕ → ℝ) (i : ℕ) : ℝ := (yOf lat (i + 1) - yOf lat i) * Real.cos (deg * ((lat (i + 1) + lat i) / 2))

/-- growth_rate_kernels.f90:402: `beta_arr`. -/
noncomputable def betaArr (lat : ℕ → ℝ) (i : ℕ) : ℝ := 2 * omega * Real.cos (deg * lat i) / radius

/-- growth_rate_kernels.f90:404-405, 413-415, 423-424: `a_diag_linear`. -/
noncomputable def barotADiag (nlat : ℕ) (lat u : ℕ → ℝ) (n : ℕ) : ℝ :=
  let y1 := dy lat 1
  let y2 := dy lat (nlat - 1)
  if n = 1 then
    betaArr lat 1 + u 1 / y1 * (-1 / y1 - 1 / dy lat 1) - (1 / y1) * ((-u 1) / y1 - (u 1 - u 2) / dy lat 1)
  else if n = nlat then
    betaArr lat nlat + u nlat / y2 * (-1 / dy lat (nlat - 1) - 1 / y2) - (1 / y2) * ((u (nlat - 1) - u nlat) / dy lat (nlat - 1) - u nlat / y2)
  else
    betaArr lat n + u n / dy2 lat (n - 1) * (-1 / dy lat (n - 1) - 1 / dy lat n) -
      (1 / dy2 lat (n - 1)) * ((u (n - 1) - u n) / dy lat (n - 1) - (u n - u (n + 1)) / dy lat n)

/-- growth_rate_kernels.f90:411, 421: `a_lower_coeff(m)`, written for `n = m + 1`. -/
noncomputable def barotALower (nlat : ℕ) (lat u : ℕ → ℝ) (m : ℕ) : ℝ :=
  if m + 1 = nlat then u nlat / (dy lat (nlat - 1) * dy lat (nlat - 1)) else u (m + 1) / (dy2 lat m * dy lat m)

/-- growth_rate_kernels.f90:407, 412: `a_upper_coeff(n)`. -/
noncomputable def barotAUpper (lat u : ℕ → ℝ) (n : ℕ) : ℝ :=
  if n = 1 then u 1 / (dy lat 1 * dy lat 1) else u n / (dy2 lat (n - 1) * dy lat n)

/-- growth_rate_kernels.f90:406, 418, 425: `b_diag_base`. -/
noncomputable def barotBDiag (nlat : ℕ) (lat : ℕ → ℝ) (n : ℕ) : ℝ :=
  let y1 := dy lat 1
  let y2 := dy lat (nlat - 1)
  if n = 1 then (1 / y1) * (-1 / y1 - 1 / dy lat 1)
  else if n = nlat then (1 / y2) * (-1 / dy lat (nlat - 1) - 1 / y2)
  else (1 / dy2 lat (n - 1)) * (-1 / dy lat (n - 1) - 1 / dy lat n)

/-- growth_rate_kernels.f90:416, 422: `b_lower_coeff(m)`, written for `n = m + 1`. -/
noncomputable def barotBLower (nlat : ℕ) (lat : ℕ → ℝ) (m : ℕ) : ℝ :=
  if m + 1 = nlat then 1 / (dy lat (nlat - 1) * dy lat (nlat - 1)) else 1 / (dy2 lat m * dy lat m)

/-- growth_rate_kernels.f90:408, 417: `b_upper_coeff(n)`. -/
noncomputable def barotBUpper (lat : ℕ → ℝ) (n : ℕ) : ℝ :=
  if n = 1 then 1 / (dy lat 1 * dy lat 1) else 1 / (dy2 lat (n - 1) * dy lat n)

/-- growth_rate_kernels.f90:432-453: the spectrum of a latitude profile, sample `k` (wavenumber `(k-1) * 1e-7`). -/
noncomputable def barotSpectrum (qz : Solver) (nlat : ℕ) (lat u : ℕ → ℝ) (k : ℕ) : Option ℝ :=
  let kval := ((k : ℝ) - 1) * wavenumberStep
  maxImag qz nlat (aMat kval (barotADiag nlat lat u) (barotALower nlat lat u) (barotAUpper lat u) u)
    (bMat kval (barotBDiag nlat lat) (barotBLower nlat lat) (barotBUpper lat))

/-- What a kernel does: a number, a status code, or a division by zero. -/
inductive Ret
  | value (v : ℝ)
  | ier (n : ℕ)
  | divZero

/-- The result of a finalizing routine. -/
def Ret.of : Except ℕ ℝ → Ret
  | .ok v => .value v
  | .error n => .ier n

/-- growth_rate_kernels.f90:371-457 `dbarot_growth_rate_1d`. -/
noncomputable def dbarot (qz : Solver) (nlat : ℕ) (lat u : ℕ → ℝ) : Ret :=
  if nlat < 3 then .ier 1
  else if (∃ i, 1 ≤ i ∧ i ≤ nlat - 1 ∧ dy lat i = 0) ∨ ∃ i, 1 ≤ i ∧ i ≤ nlat - 2 ∧ dy2 lat i = 0 then .divZero
  else Ret.of (finalizeBarot nwavenumbers (barotSpectrum qz nlat lat u))

/-! ### Baroclinic kernel -/

@[inherit_doc omega] noncomputable def gasConstantDry : ℝ := 287.04
@[inherit_doc omega] noncomputable def heatCapacity : ℝ := 1004.7
@[inherit_doc omega] noncomputable def kappa : ℝ := gasConstantDry / heatCapacity
@[inherit_doc omega] noncomputable def referencePressure : ℝ := 1.0e5

/-- growth_rate_kernels.f90:542-545: `dz2` (`dz1` is the mid-level pressure). -/
noncomputable def dz2 (nlev : ℕ) (p : ℕ → ℝ) (n : ℕ) : ℝ :=
  if n = 1 then p 2 - p 1
  else if n = nlev then p nlev - p (nlev - 1)
  else (p (n + 1) + p n) / 2 - (p n + p (n - 1)) / 2

/-- growth_rate_kernels.f90:548: `rho`. -/
noncomputable def rho (p t : ℕ → ℝ) (n : ℕ) : ℝ := p n / (gasConstantDry * t n)

/-- growth_rate_kernels.f90:549: `nz`. -/
noncomputable def nz (theta p t : ℕ → ℝ) (n : ℕ) : ℝ := -((theta (n + 1) - theta n) * (1 / (rho p t n * theta n)))

/-- growth_rate_kernels.f90:551-552, 560-561, 569-570: `a_diag_linear`. -/
noncomputable def barocADiag (nlev : ℕ) (u w z : ℕ → ℝ) (f2 beta : ℝ) (n : ℕ) : ℝ :=
  if n = 1 then beta + u 1 * f2 / w 1 * (-1 / z 1) - f2 / w 1 * ((u 2 - u 1) / z 1)
  else if n = nlev then
    beta + u nlev * f2 / w nlev * (-1 / z (nlev - 1)) - f2 / w nlev * ((u (nlev - 1) - u nlev) / z (nlev - 1))
  else
    beta + u n * f2 / w n * (-1 / z (n - 1) - 1 / z n) - f2 / w n * ((u (n - 1) - u n) / z (n - 1) - (u n - u (n + 1)) / z n)

/-- growth_rate_kernels.f90:558, 567: `a_lower_coeff(m)`, written for `n = m + 1`. -/
noncomputable def barocALower (u w z : ℕ → ℝ) (f2 : ℝ) (m : ℕ) : ℝ := u (m + 1) * f2 / (w (m + 1) * z m)

/-- growth_rate_kernels.f90:554, 559: `a_upper_coeff(n)`. -/
noncomputable def barocAUpper (u w z : ℕ → ℝ) (f2 : ℝ) (n : ℕ) : ℝ := u n * f2 / (w n * z n)

/-- growth_rate_kernels.f90:553, 564, 571: `b_diag_base`. -/
noncomputable def barocBDiag (nlev : ℕ) (w z : ℕ → ℝ) (f2 : ℝ) (n : ℕ) : ℝ :=
  if n = 1 then f2 / w 1 * (-1 / z 1)
  else if n = nlev then f2 / w nlev * (-1 / z (nlev - 1))
  else f2 / w n * (-1 / z (n - 1) - 1 / z n)

/-- growth_rate_kernels.f90:562, 568: `b_lower_coeff(m)`, written for `n = m + 1`. -/
noncomputable def barocBLower (w z : ℕ → ℝ) (f2 : ℝ) (m : ℕ) : ℝ := f2 / (w (m + 1) * z m)

/-- growth_rate_kernels.f90:555, 563: `b_upper_coeff(n)`. -/
noncomputable def barocBUpper (w z : ℕ → ℝ) (f2 : ℝ) (n : ℕ) : ℝ := f2 / (w n * z n)

/-- growth_rate_kernels.f90:578-582: the distance of two wavenumbers. -/
noncomputable def waveFactor (mode : ℕ) (zonalLength : ℝ) : ℝ := if mode = 1 then wavenumberStep else 2 * Real.pi / zonalLength

/-- growth_rate_kernels.f90:584-605: sample `k` of the spectrum of a vertical profile with spacing `w` and stability `z`. -/
noncomputable def barocSpectrum (qz : Solver) (nlev : ℕ) (u w z : ℕ → ℝ) (fCor beta factor : ℝ) (k : ℕ) : Option ℝ :=
  let kval := ((k : ℝ) - 1) * factor
  let f2 := fCor * fCor
  maxImag qz nlev (aMat kval (barocADiag nlev u w z f2 beta) (barocALower u w z f2) (barocAUpper u w z f2) u)
    (bMat kval (barocBDiag nlev w z f2) (barocBLower w z f2) (barocBUpper w z f2))

/-- growth_rate_kernels.f90:488-610 `dbaroc_growth_rate_1d`. -/
noncomputable def dbaroc (qz : Solver) (nlev : ℕ) (u theta p t : ℕ → ℝ) (fCor beta : ℝ) (window mode count : ℕ) (zonalLength : ℝ) : Ret :=
  if nlev < 3 then .ier 1
  else if window < 1 then .ier 2
  else if count < 2 then .ier 3
  else if mode ≠ 1 ∧ mode ≠ 2 then .ier 4
  else if mode = 2 ∧ zonalLength ≤ 0 then .ier 5
  else
    let w := dz2 nlev p
    let z := nz theta p t
    if (∃ n, 1 ≤ n ∧ n ≤ nlev ∧ (w n = 0 ∨ t n = 0)) ∨ (∃ n, 1 ≤ n ∧ n ≤ nlev - 1 ∧ (rho p t n * theta n = 0 ∨ z n = 0)) then .divZero
    else Ret.of (finalizeBaroc count (barocSpectrum qz nlev u w z fCor beta (waveFactor mode zonalLength)) window)

/-- growth_rate_kernels.f90:636-683, one profile of `dbaroc_growth_rate_profiles`. -/
noncomputable def profileGrowth (qz : Solver) (nin : ℕ) (u t sp : ℕ → ℝ) (nout : ℕ) (tp : ℕ → ℝ) (fCor beta : ℝ) (kind window mode count : ℕ)
    (zonalLength : ℝ) : Ret :=
  match interpNoExtrap nin sp u nout tp kind with
  | none => .ier 100
  | some us =>
    match interpNoExtrap nin sp t nout tp kind with
    | none => .ier 100
    | some ts =>
      dbaroc qz nout us (fun i => ts i * (referencePressure / tp i) ^ kappa) tp ts fCor beta window mode count zonalLength

end Skyborn.Growth
