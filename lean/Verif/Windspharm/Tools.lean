/-
Model of /repo/src/skyborn/windspharm/tools.py and of /repo/src/skyborn/windspharm/_common.py.

A Python string is a `List Char`; `str.lower` acts character by character on ASCII (the non-ASCII characters whose lower case
has another length are outside the model). `np.asarray` (which drops the mask of a masked array), copies and dtypes are not
modelled: an array is its shape and its elements. `Option`: `none` = an exception.
-/
import Verif.Common.Axes
import Mathlib.Algebra.Order.Field.Basic
import Mathlib.Algebra.Order.Group.Unbundled.Abs

namespace Skyborn.Windspharm

open Skyborn

variable {α : Type}

/-- `s.find(c)` for a character known to be present (tools.py:69-70 after the check of lines 62-66). -/
def find (s : List Char) (c : Char) : ℕ := s.idxOf c

/-- tools.py:36-84 `_order_dims`. -/
def orderDims (data : NDArr α) (dimOrder : List Char) : Option (NDArr α × List Char) :=
  if 'x' ∉ dimOrder ∨ 'y' ∉ dimOrder then none
  else do
    let lonPos := find (dimOrder.map Char.toLower) 'x'
    let latPos := find (dimOrder.map Char.toLower) 'y'
    let data ← data.rollaxis lonPos
    let latPos := if latPos < lonPos then latPos + 1 else latPos
    let data ← data.rollaxis latPos
    let outOrder := (dimOrder.filter fun c => c ≠ 'x').filter fun c => c ≠ 'y'
    return (data, 'y' :: 'x' :: outOrder)

/-- the `recovery_info` dictionary of tools.py:170-174 -/
structure Info where
  intermediateShape : List ℕ
  intermediateOrder : List Char
  originalOrder : List Char

/-- tools.py:87-106 `_reshape_for_spharm`. -/
def reshapeForSpharm (data : NDArr α) : Option (NDArr α × List ℕ) := do
  let r ← data.reshape (data.shape.take 2 ++ [(data.shape.drop 2).prod])
  return (r, data.shape)

/-- tools.py:109-176 `prep_data`. -/
def prepData (data : NDArr α) (dimOrder : List Char) : Option (NDArr α × Info) :=
  if data.shape.length < 2 then none
  else do
    let (d, order) ← orderDims data dimOrder
    let (d, shape) ← reshapeForSpharm d
    return (d, ⟨shape, order, dimOrder⟩)

/-- `str.index(c)`; `none` = ValueError. -/
def index? (s : List Char) (c : Char) : Option ℕ := if c ∈ s then some (s.idxOf c) else none

/-- tools.py:179-242 `recover_data` (for a dictionary with the required keys). -/
def recoverData (prepared : NDArr α) (info : Info) : Option (NDArr α) := do
  let data ← prepared.reshape info.intermediateShape
  let roll ← info.originalOrder.reverse.mapM fun d => index? info.intermediateOrder d
  rollLoop roll.length 0 data roll

/-- tools.py:263-315 `get_recovery`: the returned function. -/
def getRecovery (info : Info) (arrays : List (NDArr α)) : Option (List (NDArr α)) := arrays.mapM fun a => recoverData a info

/-- tools.py:362-369 / 433-436: a valid axis number, counted from the end when negative. -/
def normAxis (ndim : ℕ) (axis : ℤ) : Option ℕ :=
  if axis ≥ ndim ∨ axis < -(ndim : ℤ) then none else some (if axis < 0 then axis + ndim else axis).toNat

/-- `a[..., ::-1, ...]` along axis `ax` (tools.py:368-373). -/
def flipAxis (a : NDArr α) (ax : ℕ) : NDArr α :=
  ⟨a.shape, fun idx => a.get (idx.set ax (a.shape.getD ax 0 - 1 - idx.getD ax 0))⟩

/-- tools.py:318-375 `reverse_latdim`. -/
def reverseLatdim (u v : NDArr α) (axis : ℤ) : Option (NDArr α × NDArr α) :=
  if u.shape ≠ v.shape then none
  else do
    let ax ← normAxis u.shape.length axis
    return (flipAxis u ax, flipAxis v ax)

/-- tools.py:378-454 `order_latdim`; an empty coordinate vector raises IndexError at line 445. -/
def orderLatdim {K : Type} [LinearOrder K] (lat : List K) (u v : NDArr α) (axis : ℤ) :
    Option (List K × NDArr α × NDArr α) :=
  if u.shape ≠ v.shape then none
  else do
    let ax ← normAxis u.shape.length axis
    if lat.length ≠ u.shape.getD ax 0 then none
    else do
      let first ← lat.head?
      let last ← lat.getLast?
      if first < last then
        let (u, v) ← reverseLatdim u v axis
        return (lat.reverse, u, v)
      else return (lat, u, v)

/-- `list.remove(v)`; `none` = ValueError. -/
def removeInt (l : List ℕ) (v : ℤ) : Option (List ℕ) := if 0 ≤ v ∧ v.toNat ∈ l then some (l.erase v.toNat) else none

/-- _common.py:29-69 `get_apiorder`. (`list.insert(1, lon)` follows the insertion of `lat` at 0.) -/
def getApiorder (ndim : ℕ) (lat lon : ℤ) : Option (List ℕ × List ℕ) := do
  let a ← removeInt (List.range ndim) lat
  let a ← removeInt a lon
  let a := a.insertIdx 0 lat.toNat
  let a := a.insertIdx 1 lon.toNat
  return (a, (List.range ndim).map fun i => a.idxOf i)

/-- _common.py:171-211 `to3d`. -/
def to3d (a : NDArr α) : Option (NDArr α) :=
  if a.shape.length < 2 then none else a.reshape (a.shape.take 2 ++ [(a.shape.drop 2).prod])

/-- Result of `inspect_gridtype`. -/
inductive GridType where
  | regular | gaussian
  deriving DecidableEq

section
variable {K : Type} [Field K] [LinearOrder K]

/-- `np.linspace(start, stop, n)[k]`, `n ≥ 2`. -/
def linspace (start stop : K) (n k : ℕ) : K := start + (k : K) * ((stop - start) / ((n : K) - 1))

/-- _common.py:148-158: the global regular grid with `n` latitudes (poles included iff `n` is odd). -/
def regularLat (n k : ℕ) : K :=
  if n % 2 = 1 then linspace 90 (-90) n k
  else
    let d := (180 : K) / (n : K)
    linspace (90 - 1 / 2 * d) (-90 + 1 / 2 * d) n k

/-- _common.py:72-168 `inspect_gridtype`; `gauss n` = `gaussian_lats_wts(n)[0]` (external; `none` if it raises), `none` =
ValueError. -/
def inspectGridtype (gauss : ℕ → Option (ℕ → K)) (lat : List K) : Option GridType :=
  let tol : K := 5 / 10000
  let n := lat.length
  let l : ℕ → K := fun k => lat.getD k 0
  if n < 2 then none
  else
    let diffs : ℕ → K := fun k => |l (k + 1) - l k|
    if (List.range (n - 1)).all fun k => decide (|diffs k - diffs 0| < tol) then
      if (List.range n).any fun k => decide (|l k - regularLat n k| > tol) then none else some .regular
    else do
      let g ← gauss n
      if (List.range n).any fun k => decide (|l k - g k| > tol) then none else some .gaussian
end

end Skyborn.Windspharm
