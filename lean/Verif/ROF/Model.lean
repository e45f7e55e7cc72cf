/-
Model of /repo/src/skyborn/ROF (optimal fingerprinting): utils.py, preprocess.py, model.py, trend.py. Exact arithmetic over ℝ (ℂ where
`numpy.linalg.eig` is complex). `numpy.linalg.eig` and `numpy.argsort` are parameters with the contracts `EigSpec`, `ArgsortSpec` taken
from numpy's documentation; `numpy.linalg.inv` is Mathlib's matrix inverse, an error on a singular matrix. The printed p-values
(scipy's F and chi-square distributions) and the random numbers of `calculate_uncertainty` are not modelled.
-/
import Mathlib.Data.Matrix.Basic
import Mathlib.LinearAlgebra.Matrix.NonsingularInverse
import Mathlib.LinearAlgebra.Matrix.Trace
import Mathlib.Analysis.Complex.Basic
import Mathlib.Data.Fin.Tuple.Sort
import Mathlib.Algebra.Order.Floor.Ring
import Mathlib.Analysis.SpecialFunctions.Sqrt

namespace Skyborn.ROF
open Matrix

/-- What a call can raise. -/
inductive Err
  /-- `numpy.linalg.LinAlgError`: singular matrix. -/
  | singular
  /-- utils.py:38-39 "Matrix is not symmetric". -/
  | notSymmetric
  /-- `ValueError` of `np.max` on an empty array. -/
  | empty
  /-- `ZeroDivisionError`. -/
  | zeroDiv
  deriving DecidableEq

abbrev Mat (m n : ℕ) := Matrix (Fin m) (Fin n) ℝ
abbrev Vec (n : ℕ) := Fin n → ℝ

/-- `np.linalg.eig`: eigenvalues and the matrix whose columns are eigenvectors. -/
abbrev Eig := ∀ n : ℕ, Mat n n → (Fin n → ℂ) × Matrix (Fin n) (Fin n) ℂ

/-- Contract of `np.linalg.eig` (LAPACK `geev`) in exact arithmetic: columns are unit eigenvectors, real for a real eigenvalue, and for a
symmetric matrix they are independent. They are NOT promised to be orthogonal when an eigenvalue is repeated. -/
structure EigSpec (eig : Eig) : Prop where
  vec : ∀ (n : ℕ) (A : Mat n n), A.map (fun x : ℝ => (x : ℂ)) * (eig n A).2 = (eig n A).2 * diagonal (eig n A).1
  unit : ∀ (n : ℕ) (A : Mat n n) (j : Fin n), ∑ i, ‖(eig n A).2 i j‖ ^ 2 = 1
  real : ∀ (n : ℕ) (A : Mat n n) (j : Fin n), ((eig n A).1 j).im = 0 → ∀ i, ((eig n A).2 i j).im = 0
  indep : ∀ (n : ℕ) (A : Mat n n), Aᵀ = A → IsUnit (eig n A).2.det

/-- `np.argsort` (ascending; the order of equal keys is unspecified). -/
abbrev Argsort := ∀ n : ℕ, (Fin n → ℝ) → Equiv.Perm (Fin n)

/-- Contract of `np.argsort`. -/
def ArgsortSpec (argsort : Argsort) : Prop := ∀ (n : ℕ) (key : Fin n → ℝ), Monotone (key ∘ argsort n key)

/-- `np.linalg.inv`. -/
noncomputable def inv {n : ℕ} (A : Mat n n) : Except Err (Mat n n) :=
  if A.det = 0 then .error .singular else .ok A⁻¹

/-- `np.max` of a non-empty vector. -/
noncomputable def maxOf {n : ℕ} (w : Fin (n + 1) → ℝ) : ℝ := Finset.univ.sup' Finset.univ_nonempty w

/-- utils.py:38 the test `np.max(np.imag(w)) / np.max(np.real(w)) > 1e-12` with IEEE division (`x / 0` is infinite for `x > 0`,
NaN for `x = 0`). -/
noncomputable def looksComplex {n : ℕ} (w : Fin (n + 1) → ℂ) : Prop :=
  let a := maxOf fun i => (w i).im
  let b := maxOf fun i => (w i).re
  if b = 0 then 0 < a else 1 / 1000000000000 < a / b

open Classical in
/-- utils.py:22-52 `speco`: eigenvectors (columns) and the diagonal matrix of eigenvalues, in descending order. -/
noncomputable def speco (eig : Eig) (argsort : Argsort) : (n : ℕ) → Mat n n → Except Err (Mat n n × Mat n n)
  | 0, _ => .error .empty
  | n + 1, C =>
    let r := eig (n + 1) C
    if looksComplex r.1 then .error .notSymmetric
    else
      let vals : Vec (n + 1) := fun i => (r.1 i).re
      let vecs : Mat (n + 1) (n + 1) := of fun i j => (r.2 i j).re
      let sorted : Vec (n + 1) := fun i => vals (Tuple.sort vals i.rev)
      let idx : Fin (n + 1) → Fin (n + 1) := fun i => argsort (n + 1) vals i.rev
      .ok (of fun i j => vecs i (idx j), diagonal sorted)

/-- utils.py:86, 115; preprocess.py:104 the centring matrix `np.eye(nt, nt) - np.ones((nt, nt)) / nt`. -/
noncomputable def centering (nt : ℕ) : Mat nt nt := 1 - of fun _ _ => 1 / (nt : ℝ)

/-- utils.py:90-94; preprocess.py:107-110 `eigenvectors[:, : nt - 1].T`. -/
noncomputable def projMatrix (eig : Eig) (argsort : Argsort) (nt : ℕ) : Except Err (Mat (nt - 1) nt) :=
  (speco eig argsort nt (centering nt)).map fun r => of fun k i => r.1 i (Fin.castLE (Nat.sub_le nt 1) k)

/-- utils.py:72-99 `project_vectors`; also what preprocess.py:83-118 `proj_fullrank` does to each of its arguments. -/
noncomputable def projectVectors (eig : Eig) (argsort : Argsort) (nt : ℕ) {nf : ℕ} (X : Mat nt nf) : Except Err (Mat (nt - 1) nf) :=
  (projMatrix eig argsort nt).map fun U => U * X

/-- utils.py:102-127 `unproject_vectors`. -/
noncomputable def unprojectVectors (eig : Eig) (argsort : Argsort) (nt : ℕ) {nf : ℕ} (Xc : Mat (nt - 1) nf) : Except Err (Mat nt nf) := do
  let r ← speco eig argsort nt (centering nt)
  let W ← inv r.1ᵀ
  .ok ((of fun i k => W i (Fin.castLE (Nat.sub_le nt 1) k) : Mat nt (nt - 1)) * Xc)

/-- A one-dimensional array as a column. -/
def col {n : ℕ} (y : Vec n) : Mat n 1 := of fun i _ => y i

/-- trend.py:23 `np.vstack([np.ones(nt), np.arange(nt)]).T`. -/
noncomputable def timeDesign (nt : ℕ) : Mat nt 2 := of fun i j => if j = 0 then 1 else (i.val : ℝ)

/-- trend.py:11-30 `calculate_trend` (`len(y) = m`, so `nt = m + 1`). -/
noncomputable def calculateTrend (eig : Eig) (argsort : Argsort) {m : ℕ} (y : Vec m) : Except Err ℝ := do
  let nt := m + 1
  let yun ← unprojectVectors eig argsort nt (col y)
  let X := timeDesign nt
  let G ← inv (Xᵀ * X)
  .ok ((G * Xᵀ * yun) 1 0)

/-! ### preprocess.py -/

/-- `np.arange(start, stop, step)` for `step ≠ 0`: `ceil((stop - start) / step)` elements. -/
noncomputable def arange (start stop step : ℝ) : List ℝ :=
  (List.range ⌈(stop - start) / step⌉.toNat).map fun k : ℕ => start + (k : ℝ) * step

/-- `.astype(int)`: truncation towards zero. -/
noncomputable def truncInt (x : ℝ) : ℤ := if 0 ≤ x then ⌊x⌋ else ⌈x⌉

/-- preprocess.py:50-81 `extract_Z2` with `method="regular"`: the columns of `Z` put into `Z1` and into `Z2`. Negative indices cannot
occur (the only elements of `ix` below 0 are truncated to 0). -/
noncomputable def extractZ2 {α : Type} (Z : List α) (frac : ℝ) : Except Err (List α × List α) :=
  if frac = 0 then .error .zeroDiv
  else
    let ix := (arange (1 / frac - 1) Z.length (1 / frac)).map truncInt
    let sel (b : Bool) := (Z.zipIdx.filter fun e => decide ((e.2 : ℤ) ∈ ix) = b).map Prod.fst
    .ok (sel false, sel true)

/-- preprocess.py:147 the sample covariance `np.dot(X.T, X) / n`. -/
noncomputable def sampleCov {n p : ℕ} (X : Mat n p) : Mat p p := (1 / (n : ℝ)) • (Xᵀ * X)

/-- preprocess.py:153 first estimate `m`. -/
noncomputable def lwM {n p : ℕ} (X : Mat n p) : ℝ := (sampleCov X * 1).trace / p

/-- preprocess.py:154-155 second estimate `d2`. -/
noncomputable def lwD2 {n p : ℕ} (X : Mat n p) : ℝ :=
  let XP := sampleCov X - lwM X • (1 : Mat p p)
  (XP * XPᵀ).trace / p

/-- preprocess.py:157-164 `bb2`. -/
noncomputable def lwBB2 {n p : ℕ} (X : Mat n p) : ℝ :=
  (1 / (n : ℝ) ^ 2) * ∑ i : Fin n,
    let Xi : Mat 1 p := of fun _ j => X i j
    let Mi := Xiᵀ * Xi
    ((Mi - sampleCov X) * (Mi - sampleCov X)ᵀ).trace / p

/-- preprocess.py:171-176 `Cr = alpha1 * Ip + alpha2 * CE` for `method="specified"`. -/
noncomputable def cregSpecified {n p : ℕ} (X : Mat n p) (alpha1 alpha2 : ℝ) : Mat p p := alpha1 • (1 : Mat p p) + alpha2 • sampleCov X

/-- preprocess.py:120-176 `creg` with `method="ledoit"`. `none` = every element is NaN (a division 0/0: `d2 = 0`, or no samples). -/
noncomputable def cregLedoit {n p : ℕ} (X : Mat n p) : Option (Mat p p) :=
  if n = 0 ∨ lwD2 X = 0 then none
  else
    let b2 := min (lwBB2 X) (lwD2 X)
    let a2 := lwD2 X - b2
    some (cregSpecified X (b2 * lwM X / lwD2 X) (a2 / lwD2 X))

/-! ### model.py -/

/-- model.py:81-85 `Ft`. -/
noncomputable def fingerprint {nt nf : ℕ} (X : Mat nt nf) (Cf : Mat nt nt) : Except Err (Mat nt nf) := do
  let Cf1 ← inv Cf
  let Ft1 ← inv (Xᵀ * Cf1 * X)
  .ok (Ft1 * Xᵀ * Cf1)ᵀ

/-- The dictionary returned by `ols`. -/
structure Beta (nf : ℕ) where
  hat : Vec nf
  lo : Vec nf
  hi : Vec nf

/-- model.py:54-121 `AttributionModel.ols`; `tcdf df x` stands for `stats.t.cdf(x, df=df)`. The consistency p-value (printed only) is
left out, but `np.linalg.inv(Proj)` (line 104), which can raise, is kept. Simplification: `nz2 = 0` (NaN) is excluded by the theorems. -/
noncomputable def ols (tcdf : ℕ → ℝ → ℝ) {nt nf nz2 : ℕ} (X : Mat nt nf) (y : Vec nt) (Cf : Mat nt nt) (Proj : Mat nf nf)
    (Z2 : Mat nt nz2) : Except Err (Beta nf) := do
  let Ft ← fingerprint X Cf
  let beta : Mat 1 nf := (col y)ᵀ * Ft * Projᵀ
  let Z2t := Z2ᵀ
  let varValid := (1 / (nz2 : ℝ)) • (Z2tᵀ * Z2t)
  let varBeta := Proj * Ftᵀ * varValid * Ft * Projᵀ
  let half : Vec nf := fun j => 2 * tcdf nz2 (95 / 100) * Real.sqrt (varBeta j j)
  let _ ← inv Proj
  .ok ⟨fun j => beta 0 j, fun j => beta 0 j - half j, fun j => beta 0 j + half j⟩

/-- What `ribes` returns. -/
structure Ribes (nt nf : ℕ) where
  y : Vec nt
  X : Mat nt nf
  Cy : Mat nt nt
  Cx : Fin nf → Mat nt nt

/-- `mapM` over `Fin n` (a loop storing one result per index). -/
def loopFin {β : Type} : {n : ℕ} → (Fin n → Except Err β) → Except Err (Fin n → β)
  | 0, _ => .ok fun i => i.elim0
  | _ + 1, f => do
    let a ← f 0
    let rest ← loopFin fun i => f i.succ
    .ok (Fin.cons a rest)

/-- model.py:123-216 `AttributionModel.ribes`. The printed likelihoods are left out, but not the inverses they need (lines 179-203). -/
noncomputable def ribes {nt nf : ℕ} (X : Mat nt nf) (y : Vec nt) (Cxi : Fin nf → Mat nt nt) (Cy : Mat nt nt) :
    Except Err (Ribes nt nf) := do
  let xs : Vec nt := fun t => ∑ i, X t i
  let Cx := ∑ i, Cxi i
  let Sinv ← inv (Cy + Cx)
  let ystar := y + (Cy * Sinv) *ᵥ (xs - y)
  let Xstar : Mat nt nf := of fun t i => X t i + ((Cxi i * Sinv) *ᵥ (y - xs)) t
  let Cy1 ← inv Cy
  let Cx1 ← inv Cx
  let Cystar ← inv (Cy1 + Cx1)
  let Cxstar ← loopFin fun i => do
    let rest := ∑ j, if j = i then 0 else Cxi j
    let a ← inv (Cxi i)
    let b ← inv (Cy + rest)
    inv (a + b)
  let _ ← loopFin fun i => inv (Cy + Cxi i)
  .ok ⟨ystar, Xstar, Cystar, Cxstar⟩

/-! ### utils.py: ensembles -/

/-- An experiment: its members' series (`n_members × nt`), one dictionary value. -/
structure Exp (nt : ℕ) where
  members : ℕ
  data : Mat members nt

/-- utils.py:146-151 `np.mean(exp_data, axis=0)`. -/
noncomputable def expMean {nt : ℕ} (e : Exp nt) : Vec nt := fun t => (∑ k, e.data k t) / e.members

/-- utils.py:130-160 `SSM`. -/
noncomputable def ssm (eig : Eig) (argsort : Argsort) {nt : ℕ} (X : List (Exp nt)) (Xmm : Vec nt) : Except Err (Mat (nt - 1) (nt - 1)) := do
  if X.length = 0 then .error .empty
  let X' : Mat nt X.length := of fun t i => expMean (X.get i) t
  let Xc ← projectVectors eig argsort nt X'
  let Xcmm ← projectVectors eig argsort nt (col Xmm)
  .ok (diagonal fun k => ∑ i, (Xc k i - Xcmm k 0) ^ 2)

/-- utils.py:163-177 `get_nruns`. -/
def getNruns {nt : ℕ} (X : List (Exp nt)) : List ℕ := X.map Exp.members

/-- utils.py:207-209, 243-245 the loop `Cv_all += Cv / nr`. -/
noncomputable def cvAll {p : ℕ} (Cv : Mat p p) : List ℕ → Mat p p → Mat p p
  | [], acc => acc
  | nr :: rest, acc => cvAll Cv rest (acc + (1 / (nr : ℝ)) • Cv)

/-- utils.py:226-249 `Cv_estimate`. -/
noncomputable def cvEstimate {nt p : ℕ} (X : List (Exp nt)) (Cv : Mat p p) : Except Err (Mat p p) :=
  let nruns := getNruns X
  let nm := nruns.length
  if nm = 0 then .error .zeroDiv
  else .ok ((1 / (nm : ℝ) ^ 2) • cvAll Cv nruns 0)

/-- utils.py:214-219 negative eigenvalues set to zero and the matrix recomposed. Simplification: complex eigenvalues, impossible for the
symmetric matrices met here, are replaced by their real parts. -/
noncomputable def clipEig (eig : Eig) {p : ℕ} (A : Mat p p) : Except Err (Mat p p) := do
  let r := eig p A
  let S : Vec p := fun i => if (r.1 i).re < 0 then 0 else (r.1 i).re
  let V : Mat p p := of fun i j => (r.2 i j).re
  let V1 ← inv V
  .ok (V * diagonal S * V1)

/-- utils.py:211-212 first estimation of the model error covariance. -/
noncomputable def cmHat {p : ℕ} (SSM Cv : Mat p p) (nruns : List ℕ) : Mat p p :=
  let nm : ℝ := nruns.length
  (1 / (nm - 1)) • (SSM - ((nm - 1) / nm) • cvAll Cv nruns 0)

/-- utils.py:180-223 `Cm_estimate`. -/
noncomputable def cmEstimate (eig : Eig) (argsort : Argsort) {nt : ℕ} (X : List (Exp nt)) (Cv : Mat (nt - 1) (nt - 1)) (Xmm : Vec nt) :
    Except Err (Mat (nt - 1) (nt - 1)) := do
  let S ← ssm eig argsort X Xmm
  let nruns := getNruns X
  let nm := nruns.length
  if nm = 1 then .error .zeroDiv
  else
    let C ← clipEig eig (cmHat S Cv nruns)
    .ok ((1 + 1 / (nm : ℝ)) • C)

end Skyborn.ROF
