/-
Model of /repo/src/skyborn/gridfill/gridfill.py (`fill` and its helpers) and of the driver `poisson_fill_grids` of _gridfill.pyx.
Printing (`verbose`), dtype conversion and the unsigned 32-bit range of `itermax` and of the sizes are not modelled.
-/
import Verif.Common.Axes
import Verif.Gridfill.Model

namespace Skyborn.Gridfill

open Skyborn

variable {K : Type} [Field K] [LinearOrder K] {α : Type}

/-- Ways in which `fill` raises. `fault` stands for an access outside a buffer inside the compiled kernel. -/
inductive Err where
  | valueError | typeError | fault
  deriving DecidableEq

/-- A numpy object handed to `fill`. `plain`: an ndarray without mask; `nomask`: a MaskedArray whose mask is the scalar
`np.ma.nomask`; `masked`: a MaskedArray with a full mask (`none` = masked element, whatever is stored there). -/
inductive Input (K : Type) where
  | plain (data : NDArr K)
  | nomask (data : NDArr K)
  | masked (data : NDArr (Option K))

/-- `list.remove(v)`; `none` = ValueError. -/
def removeInt (l : List ℕ) (v : ℤ) : Option (List ℕ) := if 0 ≤ v ∧ v.toNat ∈ l then some (l.erase v.toNat) else none

/-- gridfill.py:60-110 `_order_dims`; `none` = ValueError (AxisError, a ValueError, cannot happen). -/
def orderDims (grid : NDArr α) (xpos ypos : ℤ) : Option (NDArr α × List ℕ) := do
  let o1 ← removeInt (List.range grid.shape.length) xpos
  let o2 ← removeInt o1 ypos
  let outorder := ypos.toNat :: xpos.toNat :: o2
  let grid ← grid.rollaxis xpos.toNat
  let grid ← grid.rollaxis (if ypos < xpos then ypos + 1 else ypos).toNat
  return (grid, outorder)

/-- the `info` dictionary of gridfill.py:151 -/
structure Info where
  intshape : List ℕ
  intorder : List ℕ
  origndim : ℕ

/-- gridfill.py:113-153 `_prep_data`. -/
def prepData (grid : NDArr α) (xdim ydim : ℤ) : Option (NDArr α × Info) := do
  let origndim := grid.shape.length
  let (grid, intorder) ← orderDims grid xdim ydim
  let intshape := grid.shape
  let grid ← grid.reshape (grid.shape.take 2 ++ [(grid.shape.drop 2).prod])
  return (grid, ⟨intshape, intorder, origndim⟩)

/-- `list.index(d)`; `none` = ValueError. -/
def indexOf? {L : Type} [DecidableEq L] (l : List L) (d : L) : Option ℕ := if d ∈ l then some (l.idxOf d) else none

/-- gridfill.py:156-189 `_recover_data`. -/
def recoverData (grid : NDArr α) (info : Info) : Option (NDArr α) := do
  let grid ← grid.reshape info.intshape
  let rolldims ← (List.range info.origndim).reverse.mapM fun d => indexOf? info.intorder d
  rollLoop rolldims.length 0 grid rolldims

/-- The view `grids[:, :, k]`; the value outside the view is immaterial (never accessed, see C27). -/
def slice3 (nlat nlon : ℕ) [Zero α] (grids : NDArr α) (k : ℕ) : ℕ → ℕ → α :=
  fun i j => if i < nlat ∧ j < nlon then grids.get [i, j, k] else 0

/-- The array after the kernel has rewritten the view `grids[:, :, k]` in place. -/
def storeSlice (grids : NDArr α) (k : ℕ) (g : ℕ → ℕ → α) : NDArr α :=
  ⟨grids.shape, fun idx => match idx with
    | [i, j, k'] => if k' = k then g i j else grids.get [i, j, k']
    | idx => grids.get idx⟩

/-- _gridfill.pyx:336-432 `poisson_fill_grids`: the grids after the call, `numiter` and `resmax` (0-based arrays of length
`ngrid`). -/
def poissonFillGrids (o : Opts K) (grids : NDArr K) (masks : NDArr ℤ) : Except Err (NDArr K × (ℕ → ℕ) × (ℕ → K)) :=
  let nlat := grids.shape.getD 0 0
  let nlon := grids.shape.getD 1 0
  let ngrid := grids.shape.getD 2 0
  if nlat < 3 ∨ nlon < 3 then .error .valueError
  else if masks.shape ≠ grids.shape then .error .valueError
  else
    match forM 0 ngrid (grids, (fun _ => 0 : ℕ → ℕ), (fun _ => 0 : ℕ → K)) fun k st => do
      let r ← poissonFill nlat nlon o (slice3 nlat nlon masks k) (slice3 nlat nlon st.1 k)
      return (storeSlice st.1 k r.1, Function.update st.2.1 k r.2.1, Function.update st.2.2 k r.2.2) with
    | some st => .ok st
    | none => .error .fault

/-- gridfill.py:192-351 `fill`: the filled array and the list `converged`. `fill_value = 1.0e20` (line 319) is written over the
masked elements before the kernel runs. -/
def fill (grids : Input K) (xdim ydim : ℤ) (o : Opts K) : Except Err (NDArr K × List Bool) :=
  match grids with
  | .plain a => match prepData a xdim ydim with
    | none => .error .valueError
    | some _ => .error .typeError
  | .nomask a => match prepData a xdim ydim with
    | none => .error .valueError
    | some _ => .error .valueError -- the 0-d array `nomask.astype(int32)` is no 3-D buffer
  | .masked a =>
    match prepData a xdim ydim with
    | none => .error .valueError
    | some (g, info) =>
      let masks : NDArr ℤ := ⟨g.shape, fun idx => if (g.get idx).isNone then 1 else 0⟩
      let filled : NDArr K := ⟨g.shape, fun idx => (g.get idx).getD (10 ^ 20)⟩
      match poissonFillGrids o filled masks with
      | .error e => .error e
      | .ok st =>
        match recoverData st.1 info with
        | none => .error .valueError
        | some out => .ok (out, (List.range (g.shape.getD 2 0)).map fun k => !decide (st.2.2 k > o.tolerance))

end Skyborn.Gridfill
