/-
`VectorWind` on labelled arrays.

Modelled: `/repo/src/skyborn/windspharm/xarray.py` lines 45-979 (class `VectorWind`) and 1324-1452 (helpers), on top of the model of
`standard.VectorWind` (`Verif.Sphere`) and of `_common.py` (`Verif.Windspharm.Tools`). A labelled array has different dimension names; of its
coordinates only those of its dimensions are kept (the code looks at no others); coordinate values are numbers. Not modelled: number types and `precision`, the type checks on the arguments, the text of messages, and that the object may share
memory with the arrays it was given.
-/
import Verif.Sphere.Slices
import Verif.Windspharm.LatProps

namespace Skyborn.WindXr

open Skyborn Windspharm Sphere

/-- A coordinate: its name, its values, and the attributes the code looks at. -/
structure Coord (K : Type) where
  /-- `name` -/ name : String
  /-- `values` -/ vals : List K
  /-- `attrs.get("units")` -/ units : Option String
  /-- `attrs.get("axis")` -/ axis : Option String

/-- A DataArray. -/
structure WArr (K α : Type) where
  /-- `dims` -/ dims : List String
  /-- `values` -/ data : NDArr α
  /-- `coords` -/ coords : List (Coord K)
  /-- `name` -/ name : Option String
  /-- `attrs`, in order -/ attrs : List (String × String)

/-- What the code raises; `refused` and `failed` come from `standard.VectorWind`. -/
inductive XErr
  | valueError | indexError
  | refused (r : Refuse)
  | failed (f : Fail)
  deriving DecidableEq

variable {K α : Type} [Field K] [LinearOrder K]

/-- `array.coords[name]` for a dimension: its coordinate; where there is none, xarray hands out the numbers 0, 1, .... -/
def coordOf (a : WArr K α) (n : String) : Coord K :=
  match a.coords.find? fun c => c.name == n with
  | some c => c
  | none => ⟨n, (List.range (a.data.shape.getD (a.dims.idxOf n) 0)).map fun k : ℕ => (k : K), none, none⟩

/-- `[array.coords[n] for n in array.dims]` (xarray.py:153, 192-193, 1372-1374). -/
def dimCoords (a : WArr K α) : List (Coord K) := a.dims.map (coordOf a)

/-- `(uc == vc).all()` (xarray.py:196-202): equal lengths, or one value against all; a shape error counts as different. -/
def sameValues (a b : List K) : Bool :=
  if a.length = b.length then decide (a = b)
  else match a, b with
    | [x], b => b.all fun y => decide (x = y)
    | a, [y] => a.all fun x => decide (x = y)
    | _, _ => false

/-- `_validate_coordinates` (xarray.py:170-208). -/
def validateCoords (u v : WArr K α) : Except XErr Unit :=
  if u.dims ≠ v.dims then .error .valueError
  else if ((dimCoords u).zip (dimCoords v)).all fun p => sameValues p.1.vals p.2.vals then .ok () else .error .valueError

/-- `is_latitude` (xarray.py:1409-1416). -/
def isLatitude (c : Coord K) : Bool :=
  c.name ∈ ["latitude", "lat", "LAT", "LATITUDE", "Y", "y", "LATS", "YLAT"] || decide (c.units = some "degrees_north") ||
    decide (c.axis = some "Y")

/-- `is_longitude` (xarray.py:1443-1450). -/
def isLongitude (c : Coord K) : Bool :=
  c.name ∈ ["longitude", "lon", "LON", "LONGITUDE", "X", "x", "LONS", "XLONG"] || decide (c.units = some "degrees_east") ||
    decide (c.axis = some "X")

/-- `_find_coord_and_dim` (xarray.py:1345-1384): the coordinate; its dimension is its name. -/
def findCoord (a : WArr K α) (p : Coord K → Bool) : Except XErr (Coord K) :=
  match (dimCoords a).filter p with
  | [c] => .ok c
  | _ => .error .valueError

/-- `lat.values[0] < lat.values[1]` (xarray.py:124, 809, 954). -/
def ascending (c : Coord K) : Except XErr Bool :=
  match c.vals with
  | a :: b :: _ => .ok (decide (a < b))
  | _ => .error .indexError

/-- `_reverse` (xarray.py:1324-1342) along the dimension called `n`: the values and the coordinate. -/
def reverse (a : WArr K α) (n : String) : WArr K α :=
  { a with data := flipAxis a.data (a.dims.idxOf n)
           coords := a.coords.map fun c => if c.name = n then { c with vals := c.vals.reverse } else c }

/-- `array.transpose(*names)`, `names` being the dimensions in another order. -/
def transposeTo (a : WArr K α) (names : List String) : WArr K α :=
  { a with dims := names, data := a.data.transpose (names.map fun n => a.dims.idxOf n) }

/-- `get_apiorder(a.ndim, lat_dim, lon_dim)` as names (xarray.py:141-142, 814-815, 959-960). -/
def apiNames (dims : List String) (lat lon : String) : Except XErr (List String) :=
  match getApiorder dims.length (dims.idxOf lat : ℕ) (dims.idxOf lon : ℕ) with
  | some (p, _) => .ok (p.map fun i => dims.getD i "")
  | none => .error .valueError

/-- The grid type (xarray.py:131-138); `gauss` as in `inspectGridtype`. -/
def gridName (gauss : ℕ → Option (ℕ → K)) (lat : List K) (gridtype : Option String) : Except XErr String :=
  match gridtype with
  | none =>
    match inspectGridtype gauss lat with
    | some .regular => .ok "regular"
    | some .gaussian => .ok "gaussian"
    | none => .error .valueError
  | some g => if g.toLower = "regular" ∨ g.toLower = "gaussian" then .ok g.toLower else .error .valueError

/-- The object: `_reorder`, `_ishape`, `_coords` and what fixes `_api`. -/
structure WObj (K : Type) where
  /-- `_reorder` -/ reorder : List String
  /-- `_ishape` -/ ishape : List ℕ
  /-- `_coords` -/ coords : List (Coord K)
  /-- `_api.s` -/ inst : Inst
  /-- `_api.u` -/ u : NDArr ℝ
  /-- `_api.v` -/ v : NDArr ℝ

/-- `__init__` (xarray.py:100-168). `lib` is the transform object `standard.VectorWind` makes for a grid. -/
noncomputable def construct (lib : Grid → Leg → ℕ → ℕ → ℚ → Inst) (gauss : ℕ → Option (ℕ → K)) (u v : WArr K Cell) (rsphere : ℚ)
    (legfunc : String) (gridtype : Option String) : Except XErr (WObj K) := do
  validateCoords u v
  let lat ← findCoord u isLatitude
  let lon ← findCoord u isLongitude
  let asc ← ascending lat
  let u' := if asc then reverse u lat.name else u
  let v' := if asc then reverse v lat.name else v
  let lat' ← findCoord u' isLatitude
  let g ← gridName gauss lat'.vals gridtype
  let api ← apiNames u'.dims lat'.name lon.name
  let uT := transposeTo u' api
  let vT := transposeTo v' api
  let coords := dimCoords uT
  match accept uT.data vT.data g rsphere legfunc with
  | .error r => throw (.refused r)
  | .ok (g, l, x, y) =>
    return ⟨u'.dims, uT.data.shape, coords, lib g l (uT.data.shape.getD 0 0) (uT.data.shape.getD 1 0) rsphere, x, y⟩

/-- Data with labels (xarray.py:210-241 `_metadata`, 825-841, 970-977). -/
def labelled (ishape : List ℕ) (coords : List (Coord K)) (reorder : List String) (data : NDArr ℝ) (name : Option String)
    (attrs : List (String × String)) : Except XErr (WArr K ℝ) :=
  match data.reshape ishape with
  | none => .error .valueError
  | some d => .ok (transposeTo ⟨coords.map fun c => c.name, d, coords, name, attrs⟩ reorder)

/-- A scalar field brought into the order of the transforms (xarray.py:804-820, 949-965): the arranged array and the original order. -/
def prepare (chi : WArr K Cell) : Except XErr (WArr K Cell × List (Coord K) × List String) := do
  let lat ← findCoord chi isLatitude
  let lon ← findCoord chi isLongitude
  let asc ← ascending lat
  let chi' := if asc then reverse chi lat.name else chi
  let lat' ← findCoord chi' isLatitude
  let api ← apiNames chi'.dims lat'.name lon.name
  let cT := transposeTo chi' api
  let coords := dimCoords cT
  return (cT, coords, chi'.dims)

/-- The methods. -/
inductive XQuery (K : Type)
  | u | v | magnitude
  | vrtdiv (t : Option ℤ)
  | vorticity (t : Option ℤ)
  | divergence (t : Option ℤ)
  | planetary (omega : Option ℝ)
  | absolute (omega : Option ℝ) (t : Option ℤ)
  | sfvp (t : Option ℤ)
  | streamfunction (t : Option ℤ)
  | velocitypotential (t : Option ℤ)
  | helmholtz (t : Option ℤ)
  | irrotational (t : Option ℤ)
  | nondivergent (t : Option ℤ)
  | gradient (chi : WArr K Cell) (t : Option ℤ)
  | truncate (x : WArr K Cell) (t : Option ℤ)
  | rossby (t : Option ℤ) (omega : Option ℝ)

/-- Attributes with a standard name. -/
def attrs3 (units std long : String) : List (String × String) := [("units", units), ("standard_name", std), ("long_name", long)]

/-- Attributes without. -/
def attrs2 (units long : String) : List (String × String) := [("units", units), ("long_name", long)]

/-- Names and attributes of the results (xarray.py:250-769, 913-921). -/
def XQuery.labels : XQuery K → List (String × List (String × String))
  | .u => [("u", attrs3 "m s**-1" "eastward_wind" "eastward_component_of_wind")]
  | .v => [("v", attrs3 "m s**-1" "northward_wind" "northward_component_of_wind")]
  | .magnitude => [("speed", attrs3 "m s**-1" "wind_speed" "wind_speed")]
  | .vrtdiv _ => [("vorticity", attrs3 "s**-1" "atmosphere_relative_vorticity" "relative_vorticity"),
      ("divergence", attrs3 "s**-1" "divergence_of_wind" "horizontal_divergence")]
  | .vorticity _ => [("vorticity", attrs3 "s**-1" "atmosphere_relative_vorticity" "relative_vorticity")]
  | .divergence _ => [("divergence", attrs3 "s**-1" "divergence_of_wind" "horizontal_divergence")]
  | .planetary _ => [("coriolis", attrs3 "s**-1" "coriolis_parameter" "planetary_vorticity")]
  | .absolute _ _ => [("absolute_vorticity", attrs3 "s**-1" "atmosphere_absolute_vorticity" "absolute_vorticity")]
  | .sfvp _ => [("streamfunction", attrs3 "m**2 s**-1" "atmosphere_horizontal_streamfunction" "streamfunction"),
      ("velocity_potential", attrs3 "m**2 s**-1" "atmosphere_horizontal_velocity_potential" "velocity potential")]
  | .streamfunction _ => [("streamfunction", attrs3 "m**2 s**-1" "atmosphere_horizontal_streamfunction" "streamfunction")]
  | .velocitypotential _ => [("velocity_potential", attrs3 "m**2 s**-1" "atmosphere_horizontal_velocity_potential" "velocity potential")]
  | .helmholtz _ => [("u_chi", attrs2 "m s**-1" "irrotational_eastward_wind"), ("v_chi", attrs2 "m s**-1" "irrotational_northward_wind"),
      ("u_psi", attrs2 "m s**-1" "non_divergent_eastward_wind"), ("v_psi", attrs2 "m s**-1" "non_divergent_northward_wind")]
  | .irrotational _ => [("u_chi", attrs2 "m s**-1" "irrotational_eastward_wind"), ("v_chi", attrs2 "m s**-1" "irrotational_northward_wind")]
  | .nondivergent _ => [("u_psi", attrs2 "m s**-1" "non_divergent_eastward_wind"), ("v_psi", attrs2 "m s**-1" "non_divergent_northward_wind")]
  | .rossby _ _ => [("rossby_wave_source", attrs3 "s**-2" "rossby_wave_source" "rossby_wave_source_term" ++
      [("description", "Generation term for Rossby wave activity")])]
  | _ => []

/-- The method of `standard.VectorWind` each method calls; `none` for the two winds and the two methods taking a field. -/
def XQuery.std : XQuery K → Option Query
  | .u | .v | .gradient _ _ | .truncate _ _ => none
  | .magnitude => some .magnitude
  | .vrtdiv t => some (.vrtdiv t)
  | .vorticity t => some (.vorticity t)
  | .divergence t => some (.divergence t)
  | .planetary w => some (.planetary w)
  | .absolute w t => some (.absolute w t)
  | .sfvp t => some (.sfvp t)
  | .streamfunction t => some (.streamfunction t)
  | .velocitypotential t => some (.velocitypotential t)
  | .helmholtz t => some (.helmholtz t)
  | .irrotational t => some (.irrotational t)
  | .nondivergent t => some (.nondivergent t)
  | .rossby t w => some (.rossby t w)

/-- Labels on a list of results. -/
def labelAll (w : WObj K) (rs : List (NDArr ℝ)) (ls : List (String × List (String × String))) : Except XErr (List (WArr K ℝ)) :=
  (rs.zip ls).mapM fun p => labelled w.ishape w.coords w.reorder p.1 (some p.2.1) p.2.2

/-- Some element is NaN or masked. -/
def hasNan (x : NDArr Cell) : Prop := ∃ idx, InB x.shape idx ∧ x.get idx = .nan

/-- Some element is infinite. -/
def hasInf (x : NDArr Cell) : Prop := ∃ idx, InB x.shape idx ∧ ∃ b, x.get idx = .inf b

/-- The numbers. -/
def numbers (x : NDArr Cell) : NDArr ℝ := ⟨x.shape, fun i => (x.get i).val⟩

open Classical in
/-- A method of `standard.VectorWind` on a scalar field (standard.py:561-578, 1143-1164): NaN is refused; a field with an infinite element
gives no numbers. -/
noncomputable def askField (I : Inst) (x : NDArr Cell) (q : NDArr ℝ → Query) (o : Obj) : Except XErr (List (NDArr ℝ)) × Obj :=
  if hasNan x then (.error .valueError, o)
  else
    let r := (perform I (q (numbers x))).run.run o
    match r.1 with
    | .error e => (.error (.failed e), r.2)
    | .ok rs => if hasInf x then (.error (.failed .undefined), r.2) else (.ok rs, r.2)

/-- `chi.name or "field"` (xarray.py:802). -/
def baseName (n : Option String) : String :=
  match n with
  | none => "field"
  | some s => if s = "" then "field" else s

/-- A method call (xarray.py:250-979); `o` is the state of `_api` (its caches), kept between calls. -/
noncomputable def ask (w : WObj K) (q : XQuery K) (o : Obj) : Except XErr (List (WArr K ℝ)) × Obj :=
  match q with
  | .u => (labelAll w [o.u] (XQuery.labels (K := K) .u), o)
  | .v => (labelAll w [o.v] (XQuery.labels (K := K) .v), o)
  | .gradient chi t =>
    match prepare chi with
    | .error e => (.error e, o)
    | .ok (cT, coords, reorder) =>
      let r := askField w.inst cT.data (fun x => .gradient x t) o
      (r.1 >>= fun rs => (rs.zip ["zonal_gradient_of_" ++ baseName chi.name, "meridional_gradient_of_" ++ baseName chi.name]).mapM fun p =>
        labelled cT.data.shape coords reorder p.1 (some p.2) [("long_name", p.2)], r.2)
  | .truncate x t =>
    match prepare x with
    | .error e => (.error e, o)
    | .ok (cT, coords, reorder) =>
      let r := askField w.inst cT.data (fun x => .truncate x t) o
      (r.1 >>= fun rs => rs.mapM fun p => labelled cT.data.shape coords reorder p x.name x.attrs, r.2)
  | q =>
    match q.std with
    | none => (.error .valueError, o)
    | some s =>
      let r := (perform w.inst s).run.run o
      (match r.1 with
        | .error e => .error (.failed e)
        | .ok rs => labelAll w rs q.labels, r.2)

/-- The results of a sequence of calls on one object. -/
noncomputable def session (w : WObj K) : Obj → List (XQuery K) → List (Except XErr (List (WArr K ℝ)))
  | _, [] => []
  | o, q :: qs => (ask w q o).1 :: session w (ask w q o).2 qs

/-- The results of a sequence of calls on a new object. -/
noncomputable def run (w : WObj K) (qs : List (XQuery K)) : List (Except XErr (List (WArr K ℝ))) := session w (Obj.fresh w.u w.v) qs

end Skyborn.WindXr
