/-
Model of /repo/src/skyborn/calc/calculations.py and of the deterministic part of /repo/src/skyborn/causality.py.

Numbers are real (rounding is not modelled), NaN is `none`. External library calls are parameters (`np.linalg.lstsq`, sklearn's
`f_regression`, the cdf of Student's t distribution, the random phases). A function that changes an argument in place returns the changed
argument next to its result.
-/
import Verif.Common.ND
import Mathlib.Analysis.SpecialFunctions.Pow.Real
import Mathlib.Analysis.SpecialFunctions.Exp
import Mathlib.Analysis.SpecialFunctions.Sqrt
import Mathlib.Analysis.Complex.Exponential
import Mathlib.Algebra.BigOperators.Intervals
import Mathlib.Algebra.Order.Floor.Ring
import Mathlib.Data.List.Sort

namespace Skyborn.Stats
open scoped BigOperators Classical

inductive SErr | typeError | valueError | linAlgError | keyError
  deriving DecidableEq

/-- `np.any(np.isnan(a))`. -/
def hasNaN (a : NDArr (Option ℝ)) : Prop := ∃ idx, InB a.shape idx ∧ a.get idx = none

/-- `a[np.isnan(a)] = 0`. -/
def zeroFilled (a : NDArr (Option ℝ)) : NDArr (Option ℝ) := ⟨a.shape, fun i => some ((a.get i).getD 0)⟩

/-- `a[mask] = np.nan` for the mask of NaN positions of `orig`. -/
def restore (orig a : NDArr (Option ℝ)) : NDArr (Option ℝ) := ⟨a.shape, fun i => if (orig.get i).isNone then none else a.get i⟩

/-- The two arrays returned by `linear_regression` and `spatial_correlation`. -/
structure Maps where
  coef : ℕ → ℕ → Option ℝ
  pval : ℕ → ℕ → Option ℝ

/-- calculations.py:48-144 `linear_regression`. `np` = length of the predictor; `ls n x y` = `np.linalg.lstsq` of column `y` on the design
matrix `[x, 1]` (slope, intercept); `fp n y x` = p-value of `f_regression`. Second component: the caller's `data` array afterwards
(lines 96 and 121 write to it). The predictor is one-dimensional. -/
noncomputable def linearRegression (ls : ℕ → (ℕ → ℝ) → (ℕ → ℝ) → ℝ × ℝ) (fp : ℕ → (ℕ → ℝ) → (ℕ → ℝ) → Option ℝ)
    (data : NDArr (Option ℝ)) (np : ℕ) (pred : ℕ → Option ℝ) : Except SErr Maps × NDArr (Option ℝ) :=
  match data.shape with
  | [] => (.error .typeError, data)                                        -- len() of a 0-d array
  | n :: rest =>
    if n ≠ np then (.error .valueError, data)                              -- 80-84
    else if hasNaN data ∨ ∃ t, t < np ∧ pred t = none then                 -- 87
      let dataW := zeroFilled data                                         -- 94-96
      let predW : ℕ → ℝ := fun t => (pred t).getD 0                        -- 97-99
      match rest with
      | [d1, d2] =>                                                        -- 107
        let flat : ℕ → ℕ → ℝ := fun c t => (dataW.get [t, c / d2, c % d2]).getD 0
        let coef : ℕ → ℝ := fun c => (ls n predW (flat c)).1               -- 111-116
        let p : ℕ → Option ℝ := fun c => fp n (flat c) predW               -- 118
        let after := restore data dataW                                    -- 121
        let bad : ℕ → ℕ → Prop := fun j k => ∃ t, t < n ∧ data.get [t, j, k] = none  -- 125-127
        (.ok ⟨fun j k => if bad j k then none else some (coef (j * d2 + k)),
              fun j k => if bad j k then none else p (j * d2 + k)⟩, after)
      | _ => (.error .valueError, dataW)                                   -- 107: tuple unpacking fails, data stays zero-filled
    else
      match rest with
      | [d1, d2] =>                                                        -- 135
        let predW : ℕ → ℝ := fun t => (pred t).getD 0
        let flat : ℕ → ℕ → ℝ := fun c t => (data.get [t, c / d2, c % d2]).getD 0
        (.ok ⟨fun j k => some (ls n predW (flat (j * d2 + k))).1, fun j k => fp n (flat (j * d2 + k)) predW⟩, data)
      | _ => (.error .valueError, data)

/-- A Boolean mask used as a factor. -/
noncomputable def ind (c : Prop) : ℝ := if c then 1 else 0

/-- calculations.py:268-292 and 327-340: p-value of a correlation `r` from `cnt` pairs; `tcdf x df` is the cdf of Student's t. -/
noncomputable def pOf (tcdf : ℝ → ℕ → ℝ) (r : ℝ) (cnt : ℕ) : ℝ :=
  if |r| < 1 then 2 * (1 - tcdf |r * Real.sqrt (((cnt : ℝ) - 2) / (1 - r ^ 2))| (cnt - 2)) else 0

/-- calculations.py:147-346 `spatial_correlation`; data of shape (time, lat, lon), predictor of length `np`. -/
noncomputable def spatialCorrelation (tcdf : ℝ → ℕ → ℝ) (data : NDArr (Option ℝ)) (np : ℕ) (pred : ℕ → Option ℝ) : Except SErr Maps :=
  match data.shape with
  | [] => .error .typeError
  | n :: rest =>
    if n ≠ np then .error .valueError                                      -- 179-183
    else
      match rest with
      | [nlat, nlon] =>
        if hasNaN data ∨ ∃ t, t < np ∧ pred t = none then                  -- 186
          let dw : ℕ → ℕ → ℕ → ℝ := fun t j k => (data.get [t, j, k]).getD 0   -- 197-202
          let pw : ℕ → ℝ := fun t => (pred t).getD 0
          let valid : ℕ → ℕ → ℕ → Prop := fun t j k => (data.get [t, j, k]).isSome ∧ (pred t).isSome   -- 212-213, 245-247
          let counts : ℕ → ℕ → ℕ := fun j k => ((Finset.range n).filter fun t => valid t j k).card     -- 216-218
          let predSum : ℕ → ℕ → ℝ := fun j k => ∑ t ∈ Finset.range n, pw t * ind (valid t j k)         -- 224-228
          let dataSum : ℕ → ℕ → ℝ := fun j k => ∑ t ∈ Finset.range n, dw t j k * ind (valid t j k)     -- 229-233
          let predMean : ℕ → ℕ → ℝ := fun j k => if counts j k > 0 then predSum j k / counts j k else 0
          let dataMean : ℕ → ℕ → ℝ := fun j k => if counts j k > 0 then dataSum j k / counts j k else 0
          let pc : ℕ → ℕ → ℕ → ℝ := fun t j k => (pw t - predMean j k) * ind (valid t j k)             -- 249-251
          let dc : ℕ → ℕ → ℕ → ℝ := fun t j k => (dw t j k - dataMean j k) * ind (valid t j k)         -- 252
          let num : ℕ → ℕ → ℝ := fun j k => ∑ t ∈ Finset.range n, pc t j k * dc t j k                  -- 255
          let pss : ℕ → ℕ → ℝ := fun j k => ∑ t ∈ Finset.range n, pc t j k ^ 2
          let dss : ℕ → ℕ → ℝ := fun j k => ∑ t ∈ Finset.range n, dc t j k ^ 2
          let ok : ℕ → ℕ → Prop := fun j k => pss j k > 0 ∧ dss j k > 0 ∧ counts j k ≥ 3
          let r : ℕ → ℕ → ℝ := fun j k => num j k / Real.sqrt (pss j k * dss j k)
          .ok ⟨fun j k => if ok j k then some (r j k) else none,                                       -- 260-265
               fun j k => if ok j k then some (pOf tcdf (r j k) (counts j k)) else none⟩               -- 268-297
        else
          let flat : ℕ → ℕ → ℝ := fun c t => (data.get [t, c / nlon, c % nlon]).getD 0                 -- 304
          let pw : ℕ → ℝ := fun t => (pred t).getD 0
          let pMean := (∑ t ∈ Finset.range n, pw t) / n
          let dMean : ℕ → ℝ := fun c => (∑ t ∈ Finset.range n, flat c t) / n
          let num : ℕ → ℝ := fun c => ∑ t ∈ Finset.range n, (pw t - pMean) * (flat c t - dMean c)       -- 315
          let pss := ∑ t ∈ Finset.range n, (pw t - pMean) ^ 2
          let dss : ℕ → ℝ := fun c => ∑ t ∈ Finset.range n, (flat c t - dMean c) ^ 2
          let ok : ℕ → Prop := fun c => pss > 0 ∧ dss c > 0                                            -- 320
          let r : ℕ → ℝ := fun c => num c / Real.sqrt (pss * dss c)
          .ok ⟨fun j k => if ok (j * nlon + k) then some (r (j * nlon + k)) else none,
               fun j k => if ok (j * nlon + k) then some (pOf tcdf (r (j * nlon + k)) n) else none⟩
      | _ => .error .valueError

/-- `x % 360` for floats (Python/NumPy sign convention). -/
noncomputable def mod360 (x : ℝ) : ℝ := x - 360 * ⌊x / 360⌋

/-- calculations.py:349-380 `convert_longitude_range`: columns labelled by longitude, each with its payload; `sortby` is a stable sort. -/
noncomputable def convertLongitude {β : Type} (centerOn180 : Bool) (cols : List (ℝ × β)) : List (ℝ × β) :=
  let wrapped := cols.map fun c => (if !centerOn180 then mod360 (c.1 + 180) - 180 else mod360 c.1, c.2)
  wrapped.insertionSort fun a b => a.1 ≤ b.1

/-- calculations.py:452-494 `calculate_potential_temperature` for one element. -/
noncomputable def potentialTemperature (T p p0 : ℝ) : ℝ := T * (p0 / p) ^ (286 / 1000 : ℝ)

/-! ### causality.py -/

/-- `np.mean` of the first `n` entries. -/
noncomputable def mean (n : ℕ) (x : ℕ → ℝ) : ℝ := (∑ t ∈ Finset.range n, x t) / n

/-- An entry of `np.cov` (ddof = 1) and of `dC` after lines 338, 477. -/
noncomputable def covar (n : ℕ) (x y : ℕ → ℝ) : ℝ := (∑ t ∈ Finset.range n, (x t - mean n x) * (y t - mean n y)) / ((n : ℝ) - 1)

/-- Result of `liang` and numerical part of the result of `liang_causality`. -/
structure Flow where
  T21 : ℝ
  tau21 : ℝ
  Z : ℝ
  dH1star : ℝ
  dH1noise : ℝ

/-- causality.py:458-531 `liang` (the same statements are lines 319-382 of `liang_causality`). `n1`, `n2` are the lengths of the series.
`npt = 0` and unequal lengths fail in the array arithmetic. Every degenerate case (fewer than two differences, singular covariance,
residuals exactly zero) puts inf/NaN into `NI`, for which `np.linalg.pinv` raises; `NI` has no other effect on the result. -/
noncomputable def liang (n1 : ℕ) (y1 : ℕ → ℝ) (n2 : ℕ) (y2 : ℕ → ℝ) (npt : ℕ) : Except SErr Flow :=
  if npt = 0 ∨ n1 ≠ n2 then .error .valueError
  else
    let N := n1 - npt
    let g1 : ℕ → ℝ := fun t => (y1 (t + npt) - y1 t) / npt
    let C00 := covar N y1 y1
    let C01 := covar N y1 y2
    let C10 := covar N y2 y1
    let C11 := covar N y2 y2
    let detC := C00 * C11 - C01 * C10
    let dC00 := covar N y1 g1
    let dC10 := covar N y2 g1
    let a11 := (C11 * dC00 - C01 * dC10) / detC
    let a12 := (-C01 * dC00 + C00 * dC10) / detC
    let f1 := mean N g1 - a11 * mean N y1 - a12 * mean N y2
    let R1 : ℕ → ℝ := fun t => g1 t - (f1 + a11 * y1 t + a12 * y2 t)
    let Q1 := ∑ t ∈ Finset.range N, R1 t * R1 t
    let b1 := Real.sqrt (Q1 * 1 / N)
    if N ≤ 1 ∨ detC = 0 ∨ b1 = 0 then .error .linAlgError
    else
      let T21 := C01 / C00 * (-C10 * dC00 + C00 * dC10) / detC
      let star := a11
      let noise := b1 ^ 2 / (2 * C00)
      let Z := |T21| + |star| + |noise|
      .ok ⟨T21, T21 / Z, Z, star / Z, noise / Z⟩

/-- `np.fft.fft` of a series of length `m`. -/
noncomputable def fft (m : ℕ) (x : ℕ → ℂ) (k : ℕ) : ℂ := ∑ t ∈ Finset.range m, x t * Complex.exp (-2 * Real.pi * Complex.I * k * t / m)

/-- `np.fft.ifft`. -/
noncomputable def ifft (m : ℕ) (X : ℕ → ℂ) (t : ℕ) : ℂ :=
  (∑ k ∈ Finset.range m, X k * Complex.exp (2 * Real.pi * Complex.I * k * t / m)) / m

/-- causality.py:222-226: number of samples used. -/
def oddLen (n : ℕ) : ℕ := if n % 2 = 0 then n - 1 else n

/-- causality.py:228-249: the randomised coefficients for the drawn phases `ph` (one number per entry of `interv1`). -/
noncomputable def randomised (m : ℕ) (X : ℕ → ℂ) (ph : ℕ → ℝ) (k : ℕ) : ℂ :=
  let L := (m - 1) / 2
  let e : ℕ → ℂ := fun i => Complex.exp (2 * Real.pi * Complex.I * ph i)                  -- ph_interv1
  if 1 ≤ k ∧ k ≤ L then X k * e (k - 1)
  else if L + 1 ≤ k ∧ k < m then X k * (starRingEnd ℂ) (e (L - 1 - (k - (L + 1))))         -- conj(flipud(ph_interv1))
  else X k

/-- causality.py:222-254 `phaseran` of one series with `n ≥ 1` samples: one surrogate. -/
noncomputable def phaseran (n : ℕ) (y : ℕ → ℝ) (ph : ℕ → ℝ) (t : ℕ) : ℝ :=
  (ifft (oddLen n) (randomised (oddLen n) (fft (oddLen n) fun s => (y s : ℂ)) ph) t).re

end Skyborn.Stats
