/-
Model of dataset regridding of /repo/src/skyborn/interp/regridding.py: coordinate-name detection, grid comparison, validation,
`Regridder.regrid_dataset` and the convenience function `regrid_dataset`.

A dataset is described by its dimensions with sizes, one label vector per dimension (in degrees for the horizontal ones), its data
variables and its remaining coordinates. A variable is a list of dimension names and a value for every assignment of indices to
names; `none` is NaN. Not modelled: attributes, dask, rounding (including float32 storage), integer overflow, coordinates
depending on both horizontal dimensions (xarray realigns them), and the two names given explicitly as the same string.
-/
import Verif.Regrid.BilinProps
import Mathlib.Algebra.Order.Round

namespace Skyborn.Regrid

open Skyborn

/-- A data variable (or a non-index coordinate) of an xarray dataset. -/
structure Var where
  name : String
  dims : List String
  /-- the dtype is an integer type -/
  int : Bool
  val : (String → ℕ) → Option ℝ

/-- An xarray dataset: `dims` and `sizes`, the labels `ds[d].values` of every dimension, data variables, other coordinates. -/
structure DS where
  dims : List String
  size : String → ℕ
  axis : String → ℕ → ℝ
  vars : List Var
  coords : List Var

/-- The method `regrid_array` of one regridder on one (lon, lat) slice: source grid, target grid, slice. -/
abbrev Kernel := Grid ℝ → Grid ℝ → (ℕ → ℕ → Option ℝ) → Except RErr (ℕ → ℕ → Option ℝ)

/-- regridding.py:69-108 `_detect_coordinate_names`. -/
def detect (dims : List String) : Except RErr (String × String) :=
  match ["longitude", "lon", "long", "x"].find? (fun n => decide (n ∈ dims)),
    ["latitude", "lat", "y"].find? (fun n => decide (n ∈ dims)) with
  | some lon, some lat => .ok (lon, lat)
  | _, _ => .error .valueError

/-- `np.deg2rad`. -/
noncomputable def deg2rad (x : ℝ) : ℝ := x * (Real.pi / 180)

/-- `np.rad2deg`. -/
noncomputable def rad2deg (x : ℝ) : ℝ := x * (180 / Real.pi)

/-- regridding.py:175-185 `Grid.from_degrees(ds[lon].values, ds[lat].values)` (entries beyond the length are set to 0). -/
noncomputable def dsGrid (ds : DS) (lon lat : String) : Grid ℝ :=
  ⟨ds.size lon, fun i => if i < ds.size lon then deg2rad (ds.axis lon i) else 0,
   ds.size lat, fun j => if j < ds.size lat then deg2rad (ds.axis lat j) else 0⟩

/-- `np.allclose(a, b)` with the default tolerances, for vectors of equal length. -/
def allclose (n : ℕ) (a b : ℕ → ℝ) : Prop := ∀ i, i < n → |a i - b i| ≤ 1 / 10 ^ 8 + 1 / 10 ^ 5 * |b i|

/-- regridding.py:111-118 `_grid_allclose`. -/
def gridAllclose (left right : Grid ℝ) : Prop :=
  left.nlon = right.nlon ∧ left.nlat = right.nlat ∧ allclose left.nlon left.lon right.lon ∧ allclose left.nlat left.lat right.lat

/-- regridding.py:257 `Grid(self.source.lon, self.source.lat[::-1])`. -/
def flipGrid (g : Grid ℝ) : Grid ℝ := ⟨g.nlon, g.lon, g.nlat, fun j => if j < g.nlat then g.lat (g.nlat - 1 - j) else 0⟩

/-- `variable.isel({lat: slice(None, None, -1)})`, leaving variables without the dimension alone. -/
def flipVar (n : ℕ) (lat : String) (v : Var) : Var :=
  if lat ∈ v.dims then
    { v with val := fun ix => v.val (Function.update ix lat (if ix lat < n then n - 1 - ix lat else ix lat)) }
  else v

/-- `dataset.isel({lat: slice(None, None, -1)})` (regridding.py:247). -/
def flipDS (ds : DS) (lat : String) : DS :=
  { ds with
    axis := fun d i => if d = lat ∧ i < ds.size lat then ds.axis lat (ds.size lat - 1 - i) else ds.axis d i
    vars := ds.vars.map (flipVar (ds.size lat) lat)
    coords := ds.coords.map (flipVar (ds.size lat) lat) }

/-- regridding.py:121-127 `_has_partial_spatial_dims`. -/
def partialDims (lon lat : String) (v : Var) : Bool := decide (lon ∈ v.dims) != decide (lat ∈ v.dims)

/-- regridding.py:130-148 `_validate_no_partial_spatial_variables` (`true` = raises). The index coordinates of the other
dimensions depend on neither horizontal dimension and need no check. -/
def anyPartial (ds : DS) (lon lat : String) : Bool := ds.vars.any (partialDims lon lat) || ds.coords.any (partialDims lon lat)

/-- regridding.py:240-248: reverse a dataset whose latitudes decrease, refuse one whose latitudes are not strictly monotonic. -/
noncomputable def orient (ds : DS) (lat : String) : Except RErr DS :=
  open Classical in
  if ∀ i, i + 1 < ds.size lat → ds.axis lat (i + 1) - ds.axis lat i > 0 then .ok ds
  else if ∀ i, i + 1 < ds.size lat → ds.axis lat (i + 1) - ds.axis lat i < 0 then .ok (flipDS ds lat)
  else .error .valueError

/-- Conversion to an integer dtype by assignment: towards zero; `junk` is what the platform stores for NaN. -/
noncomputable def toInt (junk : ℝ) : Option ℝ → Option ℝ
  | some x => some (if 0 ≤ x then (⌊x⌋ : ℝ) else (⌈x⌉ : ℝ))
  | none => some junk

/-- The (lon, lat) slice of a variable at the other indices `ix`. -/
def slice (ds : DS) (lon lat : String) (v : Var) (ix : String → ℕ) : ℕ → ℕ → Option ℝ := fun i j =>
  if i < ds.size lon ∧ j < ds.size lat then v.val (Function.update (Function.update ix lon i) lat j) else none

/-- regridding.py:269-308: one data variable through `xarray.apply_ufunc(..., vectorize=True, output_dtypes=[var.dtype])` and the
transposition back. `np.vectorize` calls the function slice by slice, refuses an empty loop (its output size would be unknown) and
stores the result in an array of the given dtype. Which of several errors is reported is not distinguished. -/
noncomputable def regridVar (k : (ℕ → ℕ → Option ℝ) → Except RErr (ℕ → ℕ → Option ℝ)) (junk : ℝ) (ds : DS) (lon lat : String) (v : Var) :
    Except RErr Var :=
  open Classical in
  if lon ∈ v.dims ∧ lat ∈ v.dims then
    let other := v.dims.filter fun d => decide (d ≠ lon ∧ d ≠ lat)
    if ∃ d ∈ other, ds.size d = 0 then .error .valueError
    else if ∃ ix : String → ℕ, (∀ d ∈ other, ix d < ds.size d) ∧ ∃ e, k (slice ds lon lat v ix) = .error e then .error .valueError
    else
      let current := other ++ [lon, lat]
      .ok { v with
        dims := if current ≠ v.dims then v.dims else current
        val := fun ix =>
          let x := match k (slice ds lon lat v ix) with
            | .ok r => r (ix lon) (ix lat)
            | .error _ => none
          if v.int then toInt junk x else x }
  else .ok v

/-- regridding.py:229-233: the names used. -/
def names (ds : DS) (lon? lat? : Option String) : Except RErr (String × String) :=
  match lon?, lat? with
  | some lon, some lat => .ok (lon, lat)
  | _, _ =>
    match detect ds.dims with
    | .error e => .error e
    | .ok (dlon, dlat) =>
      let pick : Option String → String → String := fun o d => match o with
        | some s => if s = "" then d else s
        | none => d
      .ok (pick lon? dlon, pick lat? dlat)

/-- regridding.py:251-262: the regridder applied to the slices: `self`, or one built for the dataset's own grid. -/
noncomputable def activeKernel (K : Kernel) (source target g : Grid ℝ) :
    Except RErr ((ℕ → ℕ → Option ℝ) → Except RErr (ℕ → ℕ → Option ℝ)) :=
  open Classical in
  if gridAllclose source g then .ok (K source target)
  else if gridAllclose (flipGrid source) g then .ok (K g target)
  else .error .valueError

/-- regridding.py:264-266, 310-323: the new dataset. -/
noncomputable def assemble (target : Grid ℝ) (ds : DS) (lon lat : String) (vars : List Var) : DS :=
  { dims := ds.dims
    size := fun d => if d = lon then target.nlon else if d = lat then target.nlat else ds.size d
    axis := fun d i => if d = lon then rad2deg (target.lon i) else if d = lat then rad2deg (target.lat i) else ds.axis d i
    vars := vars
    coords := ds.coords.filter fun c => decide (lon ∉ c.dims ∧ lat ∉ c.dims) }

/-- regridding.py:212-325 `Regridder.regrid_dataset`. A name that is no dimension of the dataset raises (KeyError or ValueError,
not distinguished). -/
noncomputable def regridDataset (K : Kernel) (junk : ℝ) (source target : Grid ℝ) (ds : DS) (lon? lat? : Option String) : Except RErr DS := do
  let (lon, lat) ← names ds lon? lat?
  if lon ∉ ds.dims ∨ lat ∉ ds.dims then .error .valueError
  else
    let ds ← orient ds lat
    if anyPartial ds lon lat then .error .valueError
    else
      let k ← activeKernel K source target (dsGrid ds lon lat)
      let vars ← ds.vars.mapM (regridVar k junk ds lon lat)
      return assemble target ds lon lat vars

/-- A 2-D slice as an array. -/
def arr2 (nlon nlat : ℕ) (f : ℕ → ℕ → Option ℝ) : NDArr (Option ℝ) := ⟨[nlon, nlat], fun idx => f (idx.getD 0 0) (idx.getD 1 0)⟩

/-- `BilinearRegridder(source, target).regrid_array` on a slice. -/
noncomputable def bilinearK : Kernel := fun src tgt f => do
  let R ← bilinearRegrid src tgt (arr2 src.nlon src.nlat f)
  return fun i j => R.get [i, j]

/-- `ConservativeRegridder(source, target).regrid_array` on a slice. -/
noncomputable def conservativeK : Kernel := fun src tgt f => do
  let R ← conservativeRegrid src tgt (arr2 src.nlon src.nlat f)
  return fun i j => R.get [i, j]

/-- `NearestRegridder(source, target).regrid_array` on a slice; `tbl` = the table of nearest source points. -/
noncomputable def nearestK (tbl : Grid ℝ → Grid ℝ → Except RErr (ℕ → ℤ)) : Kernel := fun src tgt f => do
  let t ← tbl src tgt
  let R ← nearestRegrid src.nlon src.nlat tgt.nlon tgt.nlat (tgt.nlon * tgt.nlat) t (arr2 src.nlon src.nlat f)
  return fun i j => (R.get [i, j]).join

/-- regridding.py:151-165 `_select_regridder`. -/
noncomputable def selectK (tbl : Grid ℝ → Grid ℝ → Except RErr (ℕ → ℤ)) (method : String) : Except RErr Kernel :=
  if method = "nearest" then .ok (nearestK tbl)
  else if method = "bilinear" then .ok bilinearK
  else if method = "conservative" then .ok conservativeK
  else .error .valueError

/-- regridding.py:718-745 `regrid_dataset`. -/
noncomputable def regridDatasetFn (tbl : Grid ℝ → Grid ℝ → Except RErr (ℕ → ℤ)) (junk : ℝ) (ds : DS) (target : Grid ℝ) (method : String)
    (lon? lat? : Option String) : Except RErr DS := do
  let (lon, lat) ← detect ds.dims
  let K ← selectK tbl method
  regridDataset K junk (dsGrid ds lon lat) target ds lon? lat?

namespace Spec

/-- The horizontal dimension names of a dataset, by the documented convention: the first of the known names that is a dimension. -/
def Names (dims : List String) (lon lat : String) : Prop :=
  (("longitude" ∈ dims ∧ lon = "longitude") ∨ ("longitude" ∉ dims ∧ "lon" ∈ dims ∧ lon = "lon") ∨
    ("longitude" ∉ dims ∧ "lon" ∉ dims ∧ "long" ∈ dims ∧ lon = "long") ∨
    ("longitude" ∉ dims ∧ "lon" ∉ dims ∧ "long" ∉ dims ∧ "x" ∈ dims ∧ lon = "x")) ∧
  (("latitude" ∈ dims ∧ lat = "latitude") ∨ ("latitude" ∉ dims ∧ "lat" ∈ dims ∧ lat = "lat") ∨
    ("latitude" ∉ dims ∧ "lat" ∉ dims ∧ "y" ∈ dims ∧ lat = "y"))

/-- Degrees to radians. -/
noncomputable def rad (x : ℝ) : ℝ := x / 180 * Real.pi

/-- The first `n` entries decrease strictly. -/
def StrictDec (n : ℕ) (x : ℕ → ℝ) : Prop := ∀ i j, i < j → j < n → x j < x i

/-- The variable depends on both horizontal dimensions. -/
def Horizontal (lon lat : String) (v : Var) : Prop := lon ∈ v.dims ∧ lat ∈ v.dims

/-- The variable depends on neither horizontal dimension. -/
def Free (lon lat : String) (v : Var) : Prop := lon ∉ v.dims ∧ lat ∉ v.dims

/-- Index assignment `ix` with the horizontal indices replaced. -/
def at2 (lon lat : String) (ix : String → ℕ) (i j : ℕ) : String → ℕ := fun d => if d = lat then j else if d = lon then i else ix d

/-- `ds'` is `ds` with the order of the points along dimension `lat` (labels and values) reversed; nothing else changes. -/
def Reversed (lat : String) (ds ds' : DS) : Prop :=
  ds'.dims = ds.dims ∧ ds'.size = ds.size ∧ (∀ d i, d ≠ lat → ds'.axis d i = ds.axis d i) ∧
  (∀ i j, i + j + 1 = ds.size lat → ds'.axis lat i = ds.axis lat j) ∧
  (∀ i, ds.size lat ≤ i → ds'.axis lat i = ds.axis lat i) ∧
  (let R : Var → Var → Prop := fun v w => w.name = v.name ∧ w.dims = v.dims ∧ w.int = v.int ∧
      (lat ∉ v.dims → w.val = v.val) ∧
      (lat ∈ v.dims → ∀ ix jx : String → ℕ, (∀ d, d ≠ lat → ix d = jx d) →
        (ix lat + jx lat + 1 = ds.size lat ∨ (ix lat = jx lat ∧ ds.size lat ≤ ix lat)) → w.val ix = v.val jx)
   List.Forall₂ R ds.vars ds'.vars ∧ List.Forall₂ R ds.coords ds'.coords)

end Spec

end Skyborn.Regrid
