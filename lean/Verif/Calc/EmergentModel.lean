/-
Model of /repo/src/skyborn/calc/emergent_constraints.py.

Numbers are real; a non-finite input is `none`. The working dtype (float32/float64) and warnings are not modelled. Errors are values of
`Err`. NumPy reductions (`sum`, `mean`, `argmax`, `argmin`, matrix product) appear as their definitions.
-/
import Mathlib.Analysis.SpecialFunctions.Exp
import Mathlib.Analysis.SpecialFunctions.Sqrt
import Mathlib.Analysis.Real.Pi.Bounds
import Mathlib.Algebra.BigOperators.Group.List.Basic
import Mathlib.Algebra.BigOperators.Intervals

namespace Skyborn.Calc

inductive Err | valueError | indexError
  deriving DecidableEq

/-- Extended results of `gaussian_pdf`: a real number, +inf, or NaN. -/
inductive XReal | real (v : ℝ) | inf | nan

/-- emergent_constraints.py:60-113 `gaussian_pdf` at one point. -/
noncomputable def gaussianPdf (mu sigma x : ℝ) : XReal :=
  if sigma < 0 then .nan
  else if sigma = 0 then (if x = mu then .inf else .real 0)
  else
    let scale := 1 / (Real.sqrt (2 * Real.pi) * sigma)
    let exponent := -(1 / 2) * ((x - mu) / sigma) ^ 2
    .real (scale * Real.exp exponent)

/-- emergent_constraints.py:123-125: the pairs kept by `valid_mask`. -/
def validPairs (xs ys : List (Option ℝ)) : List (ℝ × ℝ) :=
  (xs.zip ys).filterMap fun p =>
    match p with
    | (some x, some y) => some (x, y)
    | _ => none

/-- `np.mean`. -/
noncomputable def mean (l : List ℝ) : ℝ := l.sum / l.length

/-- What `_fit_linear_relationship` returns. -/
structure Fit where
  xs : List ℝ
  ys : List ℝ
  slope : ℝ
  intercept : ℝ
  predErr : ℝ
  ssX : ℝ

/-- emergent_constraints.py:116-159 `_fit_linear_relationship`. Inputs of different lengths fail in `&` or in the mask indexing. -/
noncomputable def fit (xs ys : List (Option ℝ)) : Except Err Fit :=
  if xs.length ≠ ys.length then .error .valueError
  else
    let p := validPairs xs ys
    if p.length = 0 then .error .valueError
    else
      let xm := p.map Prod.fst
      let ym := p.map Prod.snd
      let xMean := mean xm
      let yMean := mean ym
      let ssX := (p.map fun q => (q.1 - xMean) ^ 2).sum
      let slope := if ssX > 0 then (p.map fun q => (q.1 - xMean) * (q.2 - yMean)).sum / ssX else 0
      let intercept := yMean - slope * xMean
      let res := p.map fun q => q.2 - (intercept + slope * q.1)
      let predErr :=
        if p.length > 2 then Real.sqrt ((res.map fun r => r ^ 2).sum / ((p.length - 2 : ℕ) : ℝ))
        else Real.sqrt (mean (res.map fun r => r ^ 2))
      .ok ⟨xm, ym, slope, intercept, predErr, ssX⟩

/-- emergent_constraints.py:162-179 `_prediction_std` at one grid value. -/
noncomputable def predictionStd (predErr : ℝ) (sampleSize : ℕ) (x xMean ssX : ℝ) : ℝ :=
  if predErr = 0 then 0
  else
    let base := 1 + 1 / (sampleSize : ℝ)
    let base := if ssX > 0 then base + (x - xMean) ^ 2 / ssX else base
    predErr * Real.sqrt base

/-- `a.argmax()`: first index of a maximum (of `n ≥ 1` entries). -/
noncomputable def argmax (n : ℕ) (p : ℕ → ℝ) : ℕ := (List.range n).foldl (fun b i => if p i > p b then i else b) 0

/-- `a.argmin()`: first index of a minimum. -/
noncomputable def argmin (n : ℕ) (p : ℕ → ℝ) : ℕ := (List.range n).foldl (fun b i => if p i < p b then i else b) 0

/-- emergent_constraints.py:293-296: the loop `for i in range(max_index, -1, -1)`, from index `i` down. -/
noncomputable def stdSearch (threshold pdfSum : ℝ) (values pdf : ℕ → ℝ) (m : ℕ) : ℕ → Option ℝ
  | 0 => if (∑ j ∈ Finset.Ico 0 (m + 1), pdf j) / pdfSum ≥ threshold then some |values m - values 0| else none
  | i + 1 => if (∑ j ∈ Finset.Ico (i + 1) (m + 1), pdf j) / pdfSum ≥ threshold then some |values m - values (i + 1)|
      else stdSearch threshold pdfSum values pdf m i

/-- emergent_constraints.py:263-300 `_calculate_std_from_pdf`; `none` = NaN. -/
noncomputable def stdFromPdf (threshold : ℝ) (n : ℕ) (values pdf : ℕ → ℝ) : Option ℝ :=
  let pdfSum := ∑ j ∈ Finset.range n, pdf j
  if pdfSum ≤ 0 then none
  else
    let m := argmax n pdf
    match stdSearch threshold pdfSum values pdf m m with
    | some w => some w
    | none => some (Real.sqrt ((∑ j ∈ Finset.range n, pdf j * (values j - values m) ^ 2) / pdfSum))

/-- emergent_constraints.py:238-243 and 355-362: one entry of the likelihood matrix. -/
noncomputable def likelihood (target reg sigma : ℝ) : ℝ :=
  Real.exp (-(1 / 2) * ((target - reg) / sigma) ^ 2) / (Real.sqrt (2 * Real.pi) * sigma)

/-- emergent_constraints.py:303-375 `emergent_constraint_prior`: prior PDF (target, constraint), prediction error, regression line. -/
noncomputable def prior (xs ys : List (Option ℝ)) (nc : ℕ) (cgrid : ℕ → ℝ) (nt : ℕ) (tgrid : ℕ → ℝ) :
    Except Err ((ℕ → ℕ → ℝ) × (ℕ → ℝ) × (ℕ → ℝ)) := do
  let f ← fit xs ys
  let reg : ℕ → ℝ := fun k => f.intercept + f.slope * cgrid k
  let sig : ℕ → ℝ := fun k => predictionStd f.predErr f.xs.length (cgrid k) (mean f.xs) f.ssX
  -- np.argmin of an empty axis raises
  if (∃ k < nc, ¬ sig k > 0) ∧ nt = 0 then .error .valueError
  else
    return (fun j k => if sig k > 0 then likelihood (tgrid j) (reg k) (sig k)
      else if j = argmin nt (fun j => |tgrid j - reg k|) then 1 else 0, sig, reg)

/-- emergent_constraints.py:181-260 `emergent_constraint_posterior`: posterior PDF, its std and its mode. `np.add.at` adds every
contribution. -/
noncomputable def posterior (xs ys : List (Option ℝ)) (nc : ℕ) (cgrid : ℕ → ℝ) (nt : ℕ) (tgrid : ℕ → ℝ) (obs : ℕ → ℝ) :
    Except Err ((ℕ → ℝ) × Option ℝ × ℝ) := do
  if nc < 2 then .error .indexError
  else
    let dx := cgrid 1 - cgrid 0
    let f ← fit xs ys
    let reg : ℕ → ℝ := fun k => f.intercept + f.slope * cgrid k
    let sig : ℕ → ℝ := fun k => predictionStd f.predErr f.xs.length (cgrid k) (mean f.xs) f.ssX
    if nt = 0 then .error .valueError
    else
      let pdf : ℕ → ℝ :=
        if ∃ k < nc, sig k > 0 then
          fun j => ∑ k ∈ Finset.range nc, (if sig k > 0 then likelihood (tgrid j) (reg k) (sig k) else 0) * (obs k * dx)
        else
          fun j => ∑ k ∈ Finset.range nc, if argmin nt (fun j => |tgrid j - reg k|) = j then obs k * dx else 0
      return (pdf, stdFromPdf (341 / 1000) nt tgrid pdf, tgrid (argmax nt pdf))

end Skyborn.Calc
