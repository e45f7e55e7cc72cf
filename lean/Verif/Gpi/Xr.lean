/-
Model of /repo/src/skyborn/calc/GPI/xarray.py: `potential_intensity` and `pi_log_decomposition` on labelled arrays, on top of the model of core.py (Api.lean).

A labelled array is a `WindXr.WArr ℝ (Option ℝ)`: dimension names, values (`none` is NaN), the coordinates that belong to a dimension, attributes. A plain number
is an array without dimensions or attributes. Not modelled: warnings, the attributes of the results, number types, `units` attributes that are not strings.
Simplifications: `str.lower` and `str.strip` on ASCII letters and blanks only.
-/
import Verif.Gpi.Slices
import Verif.Trop.Xr
import Verif.WindXr.Lemmas

namespace Skyborn.Gpi.Xr

open WindXr
open Trop.Xr (lower contains)

/-- A DataArray. -/
abbrev PArr := WArr ℝ (Option ℝ)

/-! ### Units -/

/-- `str.strip`. -/
def strip (s : List Char) : List Char := ((s.dropWhile Char.isWhitespace).reverse.dropWhile Char.isWhitespace).reverse

/-- `str.replace("**", "^")`. -/
def powers : List Char → List Char
  | '*' :: '*' :: s => '^' :: powers s
  | c :: s => c :: powers s
  | [] => []

/-- xarray.py:292-293. -/
def tidy (s : String) : List Char := powers (strip s.toList)

/-- `units in table or units_lower in [u.lower() for u in table]`. -/
def listed (u : List Char) (table : List String) : Bool :=
  table.any (fun v => decide (v.toList = u)) || table.any (fun v => decide (lower v = u.map Char.toLower))

/-- xarray.py:317-340. -/
def celsiusUnits : List String := ["C", "°C", "celsius", "Celsius", "degrees C", "degC", "deg C", "degrees_C", "degrees_celsius", "degree_C", "degree_Celsius",
  "Degrees_Celsius", "CELSIUS", "celcius", "Celcius", "℃", "ºC", "oC", "deg_C", "degree celsius", "degrees celsius"]

/-- xarray.py:348-365. -/
def fahrenheitUnits : List String := ["F", "°F", "fahrenheit", "Fahrenheit", "degrees F", "degF", "deg F", "degrees_F", "degrees_fahrenheit", "degree_F",
  "degree_Fahrenheit", "FAHRENHEIT", "℉", "ºF", "oF", "deg_F"]

/-- xarray.py:375-386. -/
def kelvinUnits : List String := ["K", "kelvin", "Kelvin", "KELVIN", "degrees_kelvin", "degrees K", "degK", "deg K", "degree_K", "degree_Kelvin"]

/-- xarray.py:417-432. -/
def pascalUnits : List String := ["Pa", "pa", "pascal", "Pascal", "PASCAL", "Pascals", "pascals", "N/m^2", "N/m2", "N m^-2", "N m-2", "N.m-2", "N·m^-2", "newton/m^2"]

/-- xarray.py:451-469. -/
def hpaUnits : List String := ["hPa", "mb", "mbar", "millibar", "millibars", "hpa", "hectopascal", "hectopascals", "hecto-pascal", "hecto pascal", "hPascal",
  "hpascal", "MILLIBAR", "MBAR", "HPA", "HECTOPASCAL", "mbars"]

/-- xarray.py:487-498. -/
def kpaUnits : List String := ["kPa", "kpa", "kilopascal", "kilopascals", "kilo-pascal", "kilo pascal", "kPascal", "kpascal", "KILOPASCAL", "KPA"]

/-- xarray.py:513-520. -/
def atmUnits : List String := ["atm", "atmosphere", "atmospheres", "standard atmosphere", "ATM", "ATMOSPHERE"]

/-- xarray.py:554-570. -/
def gramUnits : List String := ["g/kg", "g kg-1", "g kg^-1", "g.kg-1", "g.kg^-1", "g·kg^-1", "grams/kg", "grams per kilogram", "g/kilogram", "gram/kg", "g kg^(-1)",
  "g*kg^-1", "G/KG", "g.kg^(-1)", "g kg^(-1)"]

/-- xarray.py:582. -/
def milliUnits : List String := ["mg/kg", "mg kg-1", "mg kg^-1", "mg.kg-1", "milligrams/kg"]

/-- xarray.py:594-620. -/
def kiloUnits : List String := ["kg/kg", "kg kg-1", "kg kg^-1", "kg.kg-1", "kg.kg^-1", "kg·kg^-1", "kilograms/kilogram", "kg*kg^-1", "KG/KG", "kg.kg^(-1)",
  "kg kg^(-1)", "dimensionless", "1", "none", "unitless", "-", "", "fraction", "ratio", "nondimensional", "no unit", "DIMENSIONLESS"]

/-- xarray.py:633. -/
def percentUnits : List String := ["%", "percent", "percentage", "pct", "PERCENT", "％"]

/-- xarray.py:646. -/
def ppmvUnits : List String := ["ppmv", "ppm", "parts per million", "PPM", "PPMV", "ppm(v)"]

/-- What is done to the values. -/
abbrev Rule := Option (ℝ → ℝ)

/-- xarray.py:302-394. -/
noncomputable def temperatureRule (u : List Char) : Rule :=
  if listed u celsiusUnits then some fun x => x + 273.15
  else if listed u fahrenheitUnits then some fun x => (x - 32) * 5 / 9 + 273.15
  else if listed u kelvinUnits then some fun x => x
  else none

/-- xarray.py:397-534; `first` is `expected_units[0]`. -/
noncomputable def pressureRule (first : String) (u : List Char) : Rule :=
  (if listed u pascalUnits then
    (if first = "hPa" ∨ first = "mb" then some (fun x => x / 100) else if u ≠ "Pa".toList then some fun x => x else none) else none) <|>
  (if listed u hpaUnits then
    (if first = "Pa" then some fun x => x * 100 else if u ≠ "hPa".toList ∧ u ≠ "mb".toList then some fun x => x else none) else none) <|>
  (if listed u kpaUnits then (if first = "Pa" then some fun x => x * 1000 else some fun x => x * 10) else none) <|>
  (if listed u atmUnits then (if first = "Pa" then some fun x => x * 101325 else some fun x => x * 1013.25) else none)

/-- xarray.py:536-655. -/
noncomputable def humidityRule (u : List Char) : Rule :=
  if listed u gramUnits then some fun x => x / 1000
  else if listed u milliUnits then some fun x => x / 1000000
  else if listed u kiloUnits then some fun x => x
  else if listed u percentUnits then some fun x => x / 100
  else if listed u ppmvUnits then some fun x => x * 0.622e-6
  else none

/-- xarray.py:302-314. -/
def temperatureVars : List String := ["temperature", "temp", "t", "air", "sst", "sea_surface_temperature", "tair", "air_temperature", "t2m", "tas", "ta"]

/-- xarray.py:397-411. -/
def pressureVars : List String := ["pressure", "pres", "p", "psl", "msl", "pressure_levels", "plev", "level", "slp", "sea_level_pressure", "pmsl", "air_pressure",
  "atmospheric_pressure"]

/-- xarray.py:537-552. -/
def humidityVars : List String := ["mixing_ratio", "specific_humidity", "q", "qv", "hus", "hur", "water_vapor", "water_vapor_mixing_ratio", "humidity", "shum", "spec_hum",
  "spec_humidity", "qvapor", "qvap"]

/-- `variable_name.lower() in names`. -/
def isVar (vname : String) (names : List String) : Bool := names.any fun v => decide (v.toList = lower vname)

/-- The values through `f`. -/
def mapVals (f : ℝ → ℝ) (a : PArr) : PArr := { a with data := ⟨a.data.shape, fun i => (a.data.get i).map f⟩ }

/-- `_check_units` (xarray.py:263-661), without the flag. No attribute is read afterwards: they are dropped here. -/
noncomputable def checkUnits (a : PArr) (vname : String) (expected : List String) : Except Err PArr :=
  match a.attrs.lookup "units" with
  | none => .ok { a with attrs := [] }
  | some s =>
    let u := tidy s
    let first := expected.headD ""
    if expected.any fun v => decide (v.toList = u) then .ok { a with attrs := [] }
    else
      match (if isVar vname temperatureVars ∧ first = "K" then temperatureRule u else none) <|>
        (if isVar vname pressureVars ∧ (first = "Pa" ∨ first = "hPa" ∨ first = "mb") then pressureRule first u else none) <|>
        (if isVar vname humidityVars ∧ first = "kg/kg" then humidityRule u else none) with
      | some f => .ok { mapVals f a with attrs := [] }
      | none => .error .value

/-! ### Dimensions -/

/-- xarray.py:159-170. -/
def lonNames : List String := ["lon", "longitude", "x", "X", "LON", "XLON", "LONS", "LONG", "LONGITUDE", "mlon"]

/-- xarray.py:171-182. -/
def latNames : List String := ["lat", "latitude", "y", "Y", "LAT", "YLAT", "LATS", "LATI", "LATITUDE", "nlat"]

/-- xarray.py:183-210. -/
def levNames : List String := ["level", "lev", "plev", "plevel", "p", "plevs", "pressure", "pressure_level", "z", "Z", "LEV", "PRES", "LEVEL", "PLEVEL",
  "PRES_LEVEL", "HEIGHT", "height", "altitude", "ALTITUDE", "depth", "DEPTH", "isobaric", "ISOBARIC", "model_level", "PRESSURE_LEVEL", "PRESSURE"]

/-- xarray.py:211. -/
def timeNames : List String := ["time", "t", "T", "year", "month", "yr", "mn", "season"]

/-- The kinds of dimensions. -/
inductive Kind
  | lon | lat | lev | time
  deriving DecidableEq

/-- xarray.py:221-226: the kind of a dimension. -/
def kind (s : String) : Option Kind :=
  if lonNames.any (fun n => contains (lower s) n.toList) then some .lon
  else if latNames.any (fun n => contains (lower s) n.toList) then some .lat
  else if levNames.any (fun n => contains (lower s) n.toList) then some .lev
  else if timeNames.any (fun n => contains (lower s) n.toList) then some .time
  else none

/-- xarray.py:221-233: the index of the last dimension of a kind. -/
def found (dims : List String) (k : Kind) : Option ℕ := dims.zipIdx.foldl (fun a p => if kind p.1 = some k then some p.2 else a) none

/-- `_detect_atmospheric_dimensions` (xarray.py:126-260): `levdim` and `timedim`. -/
def detect (dims : List String) : Except Err (ℕ × Option ℕ) :=
  match found dims .lev with
  | none => .error .value
  | some l =>
    if dims.length = 3 ∧ ((found dims .lon).isNone ∨ (found dims .lat).isNone) then .error .value
    else if dims.length = 4 ∧ ((found dims .lon).isNone ∨ (found dims .lat).isNone ∨ (found dims .time).isNone) then .error .value
    else .ok (l, found dims .time)

/-- `_transpose_if_needed` (xarray.py:27-33). -/
def transposeIfNeeded (a : PArr) (names : List String) : Except Err PArr :=
  if a.dims = names then .ok a else if names.Perm a.dims then .ok (transposeTo a names) else .error .value

/-- `_prepare_gridded_inputs` (xarray.py:62-123): the dimensions of the result, and temperature and mixing ratio as the array functions want them. -/
def prepareGridded (sst psl t r : PArr) : Except Err (List String × PArr × PArr) := do
  let nd := t.dims.length
  if r.dims.length ≠ nd then throw .value
  if sst.dims.length ≠ nd - 1 ∨ psl.dims.length ≠ nd - 1 then throw .value
  let (l, tm) ← detect t.dims
  let vertical := t.dims.getD l ""
  let output := t.dims.filter fun d => d ≠ vertical
  let time := t.dims.getD (tm.getD 0) ""
  let expected := if nd = 3 then vertical :: output else time :: vertical :: output.filter fun d => d ≠ time
  let t' ← transposeIfNeeded t expected
  let r' ← transposeIfNeeded r expected
  return (output, t', r')

/-- `_prepare_profile_inputs` (xarray.py:36-59): the tests. -/
def prepareProfileX (sst psl p t r : PArr) : Except Err Unit := do
  let _ ← detect t.dims
  if t.dims.length ≠ 1 ∨ r.dims.length ≠ 1 ∨ p.dims.length ≠ 1 then throw .value
  if sst.dims.length ≠ 0 then throw .value
  if psl.dims.length ≠ 0 then throw .value

/-- A Dataset whose variables share their dimensions (the flag and `lnCKCD` have none). -/
structure Labelled (R : Type) where
  /-- dimensions -/ dims : List String
  /-- coordinates -/ coords : List (Coord ℝ)
  /-- the variables -/ vars : R

/-- `_create_output_dataset` (xarray.py:664-757): xarray refuses values whose shape is not that of the coordinates. -/
def dataset {R : Type} (dims : List String) (coords : List (Coord ℝ)) (shape : List ℕ) (vars : R) : Except Err (Labelled R) :=
  if shape = coords.map fun c => c.vals.length then .ok ⟨dims, coords, vars⟩ else .error .value

/-- The arguments after the check of their units (xarray.py:800-804, 869-873). -/
noncomputable def checked (sst psl p t r : PArr) : Except Err (PArr × PArr × PArr × PArr × PArr) := do
  let sst ← checkUnits sst "SST" ["K"]
  let psl ← checkUnits psl "PSL" ["Pa"]
  let p ← checkUnits p "pressure_levels" ["mb", "hPa"]
  let t ← checkUnits t "temperature" ["K"]
  let r ← checkUnits r "mixing_ratio" ["kg/kg"]
  return (sst, psl, p, t, r)

/-- `potential_intensity` (xarray.py:760-855). `order` as in core.py: the order in which the points of a four-dimensional call set the flag. -/
noncomputable def potentialIntensityX (sst psl p t r : PArr) (order : List (List ℕ)) : Except Err (Labelled Intensity) := do
  let (sst, psl, p, t, r) ← checked sst psl p t r
  if t.dims.length ≠ 1 ∧ t.dims.length ≠ 3 ∧ t.dims.length ≠ 4 then throw .value
  if t.dims.length = 1 then
    prepareProfileX sst psl p t r
    let out ← potentialIntensity sst.data psl.data p.data t.data r.data none order
    dataset [] [] out.shape out
  else
    let (output, t', r') ← prepareGridded sst psl t r
    let out ← potentialIntensity sst.data psl.data p.data t'.data r'.data none order
    dataset output (output.map (coordOf t)) out.shape out

/-- `pi_log_decomposition` (xarray.py:858-997). -/
noncomputable def piLogDecompositionX (sst psl p t r : PArr) (ckcd : ℝ) (source : String) (order : List (List ℕ)) : Except Err (Labelled Decomposition) := do
  let (sst, psl, p, t, r) ← checked sst psl p t r
  if t.dims.length = 1 then
    prepareProfileX sst psl p t r
    let out ← piLogDecomposition sst.data psl.data p.data t.data r.data ckcd source order
    dataset [] [] out.shape out
  else
    if t.dims.length ≠ 3 ∧ t.dims.length ≠ 4 then throw .value
    let (output, t', r') ← prepareGridded sst psl t r
    let out ← piLogDecomposition sst.data psl.data p.data t'.data r'.data ckcd source order
    dataset output (output.map (coordOf t)) out.shape out

end Skyborn.Gpi.Xr
