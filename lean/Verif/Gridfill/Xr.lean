/-
Model of /repo/src/skyborn/gridfill/xarray.py: `fill`, `fill_multiple`, `validate_grid_coverage` and their helpers.
Labelled arrays: dimension names, an array with `none` for NaN, the coordinates in their order, name and attributes.
Not modelled: printing, the text of messages, coordinate values that are not numbers, dimension names that occur twice.
-/
import Verif.Gridfill.FillProps

namespace Skyborn.Gridfill.Xr

open Skyborn Gridfill

variable {K : Type} [Field K] [LinearOrder K]

/-- A coordinate: its name, its values, and the attributes the code looks at (`circular`: whether the attribute exists and is true). -/
structure Coord (K : Type) where
  /-- key in `coords` -/ name : String
  /-- all values -/ vals : List K
  /-- `standard_name` -/ standardName : Option String
  /-- `axis` -/ axis : Option String
  /-- `units` -/ units : Option String
  /-- `circular` -/ circular : Bool

/-- A DataArray. -/
structure DArr (K : Type) where
  /-- `dims` -/ dims : List String
  /-- `values` -/ data : NDArr (Option K)
  /-- `coords`, in order -/ coords : List (Coord K)
  /-- `name` -/ name : Option String
  /-- `attrs`, in order -/ attrs : List (String × String)

/-- What the functions raise. -/
inductive XErr
  | valueError | typeError | keyError | fault
  deriving DecidableEq

/-- Exceptions of the array function. -/
def XErr.of : Err → XErr
  | .valueError => .valueError
  | .typeError => .typeError
  | .fault => .fault

/-- `sub in s`. -/
def contains (s sub : String) : Bool := (List.range (s.toList.length + 1)).any fun k => sub.toList.isPrefixOf (s.toList.drop k)

/-- Found names: (`y_name`, `x_name`). -/
abbrev Found := Option String × Option String

/-- xarray.py:83-89: by `standard_name`. -/
def byStandardName (coords : List (Coord K)) (s : Found) : Found :=
  coords.foldl (fun s c => if c.standardName = some "latitude" then (some c.name, s.2)
    else if c.standardName = some "longitude" then (s.1, some c.name) else s) s

/-- xarray.py:91-98: by `axis`. -/
def byAxis (coords : List (Coord K)) (s : Found) : Found :=
  if s.2 = none ∨ s.1 = none then
    coords.foldl (fun s c => if c.axis = some "Y" ∧ s.1 = none then (some c.name, s.2)
      else if c.axis = some "X" ∧ s.2 = none then (s.1, some c.name) else s) s
  else s

/-- Names of the latitude dimension (xarray.py:104). -/
def latNames : List String := ["lat", "latitude", "y"]

/-- Names of the longitude dimension (xarray.py:106). -/
def lonNames : List String := ["lon", "lng", "longitude", "x"]

/-- xarray.py:100-107: by the name of a dimension. -/
def byName (dims : List String) (s : Found) : Found :=
  if s.2 = none ∨ s.1 = none then
    dims.foldl (fun s n => if s.1 = none ∧ n.toLower ∈ latNames then (some n, s.2)
      else if s.2 = none ∧ n.toLower ∈ lonNames then (s.1, some n) else s) s
  else s

/-- xarray.py:109-117: by `units`. -/
def byUnits (coords : List (Coord K)) (s : Found) : Found :=
  if s.2 = none ∨ s.1 = none then
    coords.foldl (fun s c => match c.units with
      | none => s
      | some u => if s.1 = none ∧ contains u "degrees_north" = true then (some c.name, s.2)
        else if s.2 = none ∧ contains u "degrees_east" = true then (s.1, some c.name) else s) s
  else s

/-- `_find_spatial_coordinates` (xarray.py:41-138): `y_name`, `x_name`, `y_dim`, `x_dim`. -/
def findSpatial (d : DArr K) : Except XErr (String × String × ℕ × ℕ) :=
  match byUnits d.coords (byName d.dims (byAxis d.coords (byStandardName d.coords (none, none)))) with
  | (some y, some x) =>
    match indexOf? d.dims y, indexOf? d.dims x with
    | some yi, some xi => .ok (y, x, yi, xi)
    | _, _ => .error .valueError
  | _ => .error .valueError

/-- `np.max` of a non-empty list. -/
def listMax : List K → Option K
  | [] => none
  | a :: l => some (l.foldl max a)

/-- `np.min` of a non-empty list. -/
def listMin : List K → Option K
  | [] => none
  | a :: l => some (l.foldl min a)

/-- `_detect_cyclic_longitude` (xarray.py:141-185). -/
def detectCyclic (c : Coord K) : Except XErr Bool :=
  if c.circular then .ok true
  else match listMax c.vals, listMin c.vals with
    | some hi, some lo =>
      if |hi - lo - 360| < 10 then .ok true
      else if |lo| < 10 ∧ |hi - 360| < 10 then .ok true
      else if |lo + 180| < 10 ∧ |hi - 180| < 10 then .ok true
      else .ok false
    | _, _ => .error .valueError

/-- The dimensions `fill` works on (xarray.py:341-359): `x_dim` and the two axis numbers (`y_dim_idx`, `x_dim_idx`). -/
def fillDims (d : DArr K) (xDim yDim : Option String) : Except XErr (String × ℕ × ℕ) :=
  match xDim, yDim with
  | some x, some y =>
    match indexOf? d.dims x, indexOf? d.dims y with
    | some xi, some yi => .ok (x, yi, xi)
    | _, _ => .error .valueError
  | _, _ =>
    match findSpatial d with
    | .error e => .error e
    | .ok (_, x, yi, xi) => .ok (xDim.getD x, yi, xi)

/-- xarray.py:361-364: `cyclic`, detected from the coordinate called `x_dim` when not given. -/
def resolveCyclic (d : DArr K) (x : String) (cyclic : Option Bool) : Except XErr Bool :=
  match cyclic with
  | some b => .ok b
  | none =>
    match d.coords.find? fun c => c.name == x with
    | none => .error .keyError
    | some c => detectCyclic c

/-- `d[key] = value` of a dictionary. -/
def setAttr (l : List (String × String)) (k v : String) : List (String × String) :=
  if (l.lookup k).isSome then l.map fun p => if p.1 = k then (k, v) else p else l ++ [(k, v)]

/-- xarray.py:417-425: attributes of the result; `note` is the text appended to the history. -/
def newAttrs (keep : Bool) (attrs : List (String × String)) (note : String) : List (String × String) :=
  if keep then setAttr attrs "history" ((attrs.lookup "history").getD "" ++ note) else []

open Classical in
/-- `fill` (xarray.py:188-427): the result and the number of slices reported as not converged. `o.cyclic` is replaced. -/
noncomputable def fill (d : DArr K) (o : Opts K) (xDim yDim : Option String) (cyclic : Option Bool) (keepAttrs : Bool) (note : String) :
    Except XErr (DArr K × ℕ) :=
  match fillDims d xDim yDim with
  | .error e => .error e
  | .ok (x, yi, xi) =>
    match resolveCyclic d x cyclic with
    | .error e => .error e
    | .ok cyc =>
      if ¬ ∃ idx, InB d.data.shape idx ∧ d.data.get idx = none then .ok (d, 0)
      else match Gridfill.fill (.masked d.data) xi yi { o with cyclic := cyc } with
        | .error e => .error (XErr.of e)
        | .ok (out, conv) =>
          .ok ({ d with data := ⟨out.shape, fun idx => some (out.get idx)⟩, attrs := newAttrs keepAttrs d.attrs note },
            conv.countP fun b => !b)

/-- `fill_multiple` (xarray.py:430-474): the first exception ends the call. -/
noncomputable def fillMultiple (ds : List (DArr K)) (o : Opts K) (xDim yDim : Option String) (cyclic : Option Bool) (keepAttrs : Bool) (note : String) :
    Except XErr (List (DArr K × ℕ)) :=
  ds.mapM fun d => fill d o xDim yDim cyclic keepAttrs note

/-! ### Coverage -/

/-- Diagnostics of `validate_grid_coverage`. -/
inductive Msg
  | coverage | slices | xSpacing | ySpacing
  deriving DecidableEq

/-- What `validate_grid_coverage` returns. -/
structure Report (K : Type) where
  /-- `valid` -/ valid : Bool
  /-- `coverage` -/ coverage : K
  /-- `total_points` -/ total : ℕ
  /-- `missing_points` -/ missing : ℕ
  /-- `messages` -/ messages : List Msg

/-- Number of NaN elements. -/
def countMissing (a : NDArr (Option K)) : ℕ := (List.range a.shape.prod).countP fun k => (a.get (unravel a.shape k)).isNone

/-- `not np.allclose(diffs, diffs[0], rtol=1e-3)` (xarray.py:577-586) for the values of a coordinate. -/
def irregular (vals : List K) : Bool :=
  match (vals.zip vals.tail).map fun p => p.2 - p.1 with
  | [] => false
  | d0 :: ds => !((d0 :: ds).all fun d => decide (|d - d0| ≤ 1 / 10 ^ 8 + 1 / 10 ^ 3 * |d0|))

/-- Elements with index `i` along axis `k`. -/
def takeAxis {α : Type} (a : NDArr α) (k i : ℕ) : NDArr α := ⟨a.shape.eraseIdx k, fun idx => a.get (idx.insertIdx k i)⟩

/-- `1 - missing / size` of the part with index `i` along axis `k` (xarray.py:556-565). -/
def sliceCoverage (a : NDArr (Option K)) (k i : ℕ) : K :=
  1 - (countMissing (takeAxis a k i) : K) / ((takeAxis a k i).shape.prod : K)

/-- `validate_grid_coverage` (xarray.py:477-594). `groupby` over a dimension whose labels are all different gives one part per
index. An empty array with more than two dimensions is not modelled. -/
def validateCoverage (d : DArr K) (xDim yDim : Option String) (minCov : K) : Except XErr (Report K) :=
  let names : Except XErr (String × String) := match xDim, yDim with
    | some x, some y => .ok (x, y)
    | _, _ => match findSpatial d with
      | .error e => .error e
      | .ok (y, x, _, _) => .ok (xDim.getD x, yDim.getD y)
  match names with
  | .error e => .error e
  | .ok (x, y) =>
    let total := d.data.shape.prod
    let missing := countMissing d.data
    let coverage : K := if total > 0 then ((total - missing : ℕ) : K) / (total : K) else 0
    let m1 : List Msg := if coverage < minCov then [.coverage] else []
    let other := d.dims.filter fun n => !(n == x || n == y)
    let m2 : List Msg :=
      if d.dims.length > 2 then
        match other with
        | [] => []
        | n :: _ =>
          let k := d.dims.idxOf n
          if (List.range (d.data.shape.getD k 0)).any fun i => decide (sliceCoverage d.data k i < minCov) then [.slices] else []
      else []
    match d.coords.find? fun c => c.name == x, d.coords.find? fun c => c.name == y with
    | some cx, some cy =>
      let m3 : List Msg := if cx.vals.length > 1 ∧ irregular cx.vals = true then [.xSpacing] else []
      let m4 : List Msg := if cy.vals.length > 1 ∧ irregular cy.vals = true then [.ySpacing] else []
      .ok ⟨decide (¬ coverage < minCov), coverage, total, missing, m1 ++ m2 ++ m3 ++ m4⟩
    | _, _ => .error .keyError

end Skyborn.Gridfill.Xr
