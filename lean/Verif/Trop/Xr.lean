/-
Model of /repo/src/skyborn/calc/troposphere/xarray.py: `trop_wmo` on labelled arrays.
A labelled array: dimension names, real values (NaN is not modelled), the coordinates that belong to a dimension.
Not modelled: attributes, the printed line, an empty generated pressure (whose minimum raises).
-/
import Verif.Trop.Rejects

namespace Skyborn.Trop.Xr

open Skyborn

/-- A DataArray. -/
structure TArr where
  /-- `dims` -/ dims : List String
  /-- `values` -/ data : NDArr ℝ
  /-- `coords`, by name -/ coords : List (String × List ℝ)

/-- What is raised: by the wrapper, or by the array function. -/
inductive XErr
  | value | type | index | core (e : TErr)
  deriving DecidableEq

/-- A dimension argument: an index or a name. -/
inductive DimArg
  | int (i : ℤ) | name (s : String)

/-- ASCII `str.lower`. -/
def lower (s : String) : List Char := s.toList.map Char.toLower

/-- `sub in s`. -/
def contains (s sub : List Char) : Bool := (List.range (s.length + 1)).any fun k => sub.isPrefixOf (s.drop k)

/-- xarray.py:80-90. -/
def lonNames : List String := ["lon", "longitude", "x", "X", "LON", "XLON", "LONS", "LONG", "LONGITUDE"]

/-- xarray.py:91. -/
def latNames : List String := ["lat", "latitude", "y", "Y", "LAT", "YLAT", "LATS", "LATI", "LATITUDE"]

/-- xarray.py:92-116. -/
def levNames : List String := ["level", "lev", "plev", "pressure", "pressure_level", "z", "Z", "LEV", "PRES", "LEVEL", "PLEVEL", "PRES_LEVEL",
  "HEIGHT", "height", "altitude", "ALTITUDE", "depth", "DEPTH", "isobaric", "ISOBARIC", "model_level", "PRESSURE_LEVEL", "PRESSURE"]

/-- xarray.py:117. -/
def timeNames : List String := ["time", "t", "year", "month", "yr", "mn", "season"]

/-- The axes found: `xdim`, `ydim`, `levdim`, `timedim`. -/
structure Axes where
  /-- `xdim` -/ x : Option ℤ
  /-- `ydim` -/ y : Option ℤ
  /-- `levdim` -/ l : Option ℤ
  /-- `timedim` -/ t : Option ℤ
  deriving DecidableEq

/-- xarray.py:121-131: one dimension. -/
def step (a : Axes) (p : String × ℕ) : Axes :=
  let s := lower p.1
  if lonNames.any (fun n => contains s n.toList) then { a with x := some p.2 }
  else if latNames.any (fun n => contains s n.toList) then { a with y := some p.2 }
  else if levNames.any (fun n => contains s n.toList) then { a with l := some p.2 }
  else if timeNames.any (fun n => decide (n.toList = s)) then { a with t := some p.2 }
  else a

/-- `_detect_atmospheric_dimensions` (xarray.py:49-172). -/
def detect (dims : List String) : Except XErr Axes :=
  let a := dims.zipIdx.foldl step ⟨none, none, none, none⟩
  if a.l.isNone then .error .value
  else
    let n := dims.length
    if n = 1 then .ok a
    else if n = 2 then (if a.x.isNone ∧ a.y.isNone then .error .value else .ok a)
    else if n = 3 then
      (if ¬ ((a.x.isSome ∧ a.y.isSome) ∨ (a.t.isSome ∧ (a.x.isSome ∨ a.y.isSome))) then .error .value else .ok a)
    else if 4 ≤ n then (if a.x.isNone ∨ a.y.isNone then .error .value else .ok a)
    else .ok a

/-- `list[i]` for an index `i` that may be negative: the position. -/
def pos (n : ℕ) (i : ℤ) : Except XErr ℕ :=
  if 0 ≤ i ∧ i < n then .ok i.toNat
  else if -(n : ℤ) ≤ i ∧ i < 0 then .ok (i + n).toNat
  else .error .index

/-- xarray.py:340-375: the pressure, from the level coordinate when not given. -/
def pressureOf (t : TArr) : Option (NDArr ℝ) → Except XErr (NDArr ℝ)
  | some p => .ok p
  | none => do
    let a ← detect t.dims
    match a.l with
    | none => .error .type
    | some l => do
      let k ← pos t.dims.length l
      match t.coords.lookup (t.dims.getD k "") with
      | none => .error .value
      | some v => .ok ⟨[v.length], fun idx => v.getD (idx.getD 0 0) 0⟩

/-- xarray.py:400-414: a name becomes its position, or `None`. -/
def index (dims : List String) : Option DimArg → Option ℤ
  | none => none
  | some (.int i) => some i
  | some (.name s) => if s ∈ dims then some (dims.idxOf s) else none

/-- xarray.py:377-414: the axes used. -/
def resolve (t : TArr) (x y l td : Option DimArg) : Except XErr Axes := do
  let n := t.data.shape.length
  if l.isNone ∨ (3 ≤ n ∧ (x.isNone ∨ y.isNone)) ∨ (n = 2 ∧ x.isNone ∧ y.isNone) then do
    let a ← detect t.dims
    .ok ⟨if x.isNone then a.x else index t.dims x, if y.isNone then a.y else index t.dims y,
      if l.isNone then a.l else index t.dims l, if td.isNone then a.t else index t.dims td⟩
  else .ok ⟨index t.dims x, index t.dims y, index t.dims l, index t.dims td⟩

/-- xarray.py:416-455: sorting of the levels by a one-dimensional pressure. Simplification: with a pressure of several dimensions, which
the array function refuses whatever its values, nothing is done. -/
noncomputable def sortLevels (auto : Bool) (t : TArr) (p : NDArr ℝ) (l : Option ℤ) : Except XErr (NDArr ℝ × NDArr ℝ) :=
  if auto = true then
    match l with
    | none => .error .type
    | some l => do
      let k ← pos t.dims.length l
      match p.shape with
      | [m] =>
        if ((List.range (m - 1)).all fun j => decide (p.get [j] ≤ p.get [j + 1])) = true then .ok (p, t.data)
        else
          let sel := argsort m (fun j => p.get [j])
          if sel.all (fun j => decide (j < t.data.shape.getD k 0)) = true then .ok (takeAxis p sel 0, takeAxis t.data sel k)
          else .error .index
      | _ => .ok (p, t.data)
  else .ok (p, t.data)

/-- A numpy array without mask. -/
def plain (a : NDArr ℝ) : NDArr (Option ℝ) := ⟨a.shape, fun idx => some (a.get idx)⟩

/-- The dataset returned: the dimensions and coordinates shared by its five variables, and their values. -/
structure Result where
  /-- dimensions -/ dims : List String
  /-- coordinates -/ coords : List (String × List ℝ)
  /-- `pressure`, `height`, `level_index`, `lapse_rate`, `success` -/ cells : NDArr Cell

/-- An exception of the array function. -/
def lift {α : Type} : Except TErr α → Except XErr α
  | .ok a => .ok a
  | .error e => .error (.core e)

/-- `trop_wmo` (xarray.py:175-603). `w`, `s`, `out0`: uninitialised buffers of the kernels. -/
noncomputable def tropWmo (t : TArr) (pressure : Option (NDArr ℝ)) (x y l td : Option DimArg) (unit : String) (lapsec missing : ℝ)
    (auto : Bool) (w : Work) (s : Scratch) (out0 : ℕ → ℕ → ℕ → Cell) : Except XErr Result := do
  let p ← pressureOf t pressure
  let a ← resolve t x y l td
  let (p, d) ← sortLevels auto t p a.l
  if t.data.shape.length = 1 then do
    let c ← lift (tropWmoProfile (plain d) (plain p) unit lapsec missing w)
    .ok ⟨[], [], ⟨[], fun _ => c⟩⟩
  else
    match a.l with
    | none => .error .type
    | some l => do
      let r ← lift (Trop.tropWmo (plain d) (plain p) (a.x.getD (-1)) (a.y.getD (-1)) l (some (a.t.getD (-1))) unit lapsec missing (!auto) s out0)
      let k ← pos t.dims.length l
      let od := t.dims.eraseIdx k
      .ok ⟨od, od.filterMap fun n => (t.coords.lookup n).map fun v => (n, v), r⟩

end Skyborn.Trop.Xr
