/-
Model of /repo/src/skyborn/calc/growth_rate/core.py on NumPy arrays.

Simplifications: xarray inputs are not modelled; an array element is a real or NaN (`none`), infinities are not modelled; the working arrays of the
tropopause code are parameters. `interp_pressure_1d` is the model of Verif/Interp/Pressure1D.lean, `trop_wmo` and `trop_wmo_profile` those of
Verif/Trop/Model.lean (without the conversion to float32). Copies are not modelled. A NaN latitude in the one-profile call, which hands NaN
matrices to the solver, is reported as `unmodelled`.
-/
import Verif.Growth.Model
import Verif.Interp.Pressure1D
import Verif.Trop.Model

namespace Skyborn.Growth

open Classical

/-- The exceptions. -/
inductive Err
  | value
  | type
  | notImplemented
  | index
  | runtime (code : List ℕ)
  | divZero
  | unmodelled
  | interp (e : Interp.PErr)
  | trop (e : Trop.TErr)
  deriving DecidableEq

/-- core.py:71-77 `_as_1d_float64`: the length and the elements. -/
def as1d (a : NDArr (Option ℝ)) : Except Err (ℕ × (ℕ → Option ℝ)) :=
  match a.shape with
  | [n] => .ok (n, fun i => a.get [i])
  | _ => .error .value

/-- core.py:171-176 `_require_monotonic`. A comparison with NaN is false. -/
def Monotone1 (n : ℕ) (v : ℕ → Option ℝ) : Prop :=
  (∀ i, i + 1 < n → ∃ a b, v i = some a ∧ v (i + 1) = some b ∧ 0 < b - a) ∨ ∀ i, i + 1 < n → ∃ a b, v i = some a ∧ v (i + 1) = some b ∧ b - a < 0

/-- `values[::-1]` (elements beyond the end are meaningless and stay). -/
def flip {α : Type} (n : ℕ) (v : ℕ → α) (i : ℕ) : α := if i < n then v (n - 1 - i) else v i

/-- A zero-based array as a Fortran argument. -/
def arg (v : ℕ → Option ℝ) (i : ℕ) : ℝ := (v (i - 1)).getD 0

/-- The status of a kernel as a result. -/
def Ret.raise : Ret → Except Err (Option ℝ)
  | .value v => .ok (some v)
  | .ier n => .error (.runtime [n])
  | .divZero => .error .divZero

/-- core.py:508-523: `barot_growth_rate` on arrays of the same length. -/
noncomputable def barotSolve (qz : Solver) (n : ℕ) (uv lv : ℕ → Option ℝ) : Except Err (Option ℝ) :=
  if (∃ i, i < n ∧ uv i = none) ∨ (∃ i, i < n ∧ lv i = none) then .ok none
  else if ¬ Monotone1 n lv then .error .value
  else if n = 0 then .error .index
  else
    let rev := (lv 0).getD 0 > (lv (n - 1)).getD 0
    (dbarot qz n (arg (if rev then flip n lv else lv)) (arg (if rev then flip n uv else uv))).raise

/-- core.py:434-523 `barot_growth_rate`. -/
noncomputable def barotGrowth (qz : Solver) (u lat : NDArr (Option ℝ)) (radius omega : ℝ) : Except Err (Option ℝ) := do
  if radius ≠ 6371000 ∨ omega ≠ 7.292e-5 then .error .notImplemented
  else
    let (n, uv) ← as1d u
    let (m, lv) ← as1d lat
    if n ≠ m then .error .value
    else barotSolve qz n uv lv

/-! ### Arguments of `baroc_growth_rate` -/

/-- `s.strip().lower()` and removal of the characters `drop` (ASCII). -/
def normalize (drop : List Char) (s : String) : List Char :=
  ((((s.toList.dropWhile Char.isWhitespace).reverse.dropWhile Char.isWhitespace).reverse.map Char.toLower).filter fun c => c ∉ drop)

/-- core.py:190-223 `_prepare_wavenumber_inputs`: mode, count, longitude span in radians. `int(round(n / 3))` is `(n + 1) / 3`. -/
noncomputable def waveInputs (mode : String) (lon : Option (NDArr (Option ℝ))) : Except Err (ℕ × ℕ × ℝ) :=
  let m := normalize ['_', '-'] mode
  if m = "high".toList ∨ m = "highres".toList ∨ m = "highresolution".toList then .ok (1, 200, 1)
  else if m = "low".toList ∨ m = "lowres".toList ∨ m = "lowresolution".toList then do
    let (n, v) ← (match lon with
      | none => .ok (241, fun i : ℕ => some ((i : ℝ) * 1.5))
      | some a => as1d a)
    if ¬ Monotone1 n v then .error .value
    else if n = 0 then .error .index
    else
      match v 0, v (n - 1) with
      | some a, some b =>
        let span := |a - b|
        if span ≤ 0 then .error .value
        else if (n + 1) / 3 < 2 then .error .value
        else .ok (2, (n + 1) / 3, span * Real.pi / 180)
      | _, _ => .error .value
  else .error .value

/-- core.py:761-769: the interpolation method, `true` for logarithmic. -/
def methodOf (method : String) : Except Err Bool :=
  let m := normalize ['_'] method
  if m = "logp".toList ∨ m = "log".toList then .ok true
  else if m = "linear".toList ∨ m = "pressure".toList then .ok false
  else .error .value

/-- core.py:179-187 `_f_beta_from_lat_bounds`. -/
noncomputable def fBetaBounds (a b : ℝ) : ℝ × ℝ :=
  let s := (Real.sin (a * (Real.pi / 180)) + Real.sin (b * (Real.pi / 180))) / 2
  let c := (Real.cos (a * (Real.pi / 180)) + Real.cos (b * (Real.pi / 180))) / 2
  (2 * 7.292e-5 * s, 2 * 7.292e-5 * c / 6371000)

/-- core.py:882-887, 962-976: Coriolis parameter and its gradient at one latitude. -/
noncomputable def fBetaLat (lat : ℝ) : ℝ × ℝ :=
  (2 * 7.292e-5 * Real.sin (lat * (Real.pi / 180)), 2 * 7.292e-5 * Real.cos (lat * (Real.pi / 180)) / 6371000)

/-- The axes of `shape` whose size is `n`. -/
def axesOf (shape : List ℕ) (n : ℕ) : List ℕ := (List.range shape.length).filter fun a => shape.getD a 0 = n

/-- core.py:359-379, one element of the band mean: over the selected latitudes that hold a number, weighted by the cosine. -/
noncomputable def weightedMean (sel : List ℕ) (lat : ℕ → ℝ) (x : ℕ → Option ℝ) : Option ℝ :=
  let ok := sel.filter fun j => (x j).isSome = true
  let num := (ok.map fun j => (x j).getD 0 * Real.cos (lat j * (Real.pi / 180))).sum / ok.length
  let den := (ok.map fun j => Real.cos (lat j * (Real.pi / 180))).sum / ok.length
  if ok.length = 0 ∨ den = 0 then none else some (num / den)

/-- core.py:331-379, one field. -/
noncomputable def bandField (a : NDArr (Option ℝ)) (np nlat : ℕ) (lat : ℕ → ℝ) (sel : List ℕ) : Except Err (NDArr (Option ℝ)) :=
  if a.shape.length ≠ 2 ∧ a.shape.length ≠ 3 then .error .value
  else
    match axesOf a.shape np with
    | [pa] =>
      match (axesOf a.shape nlat).filter (· ≠ pa) with
      | [la] => .ok ⟨a.shape.eraseIdx la, fun idx => weightedMean sel lat fun j => a.get (idx.insertIdx la j)⟩
      | _ => .error .value
    | _ => .error .value

/-- core.py:236, 323: the latitudes of the band; a latitude that is not a number is in no band. -/
noncomputable def insideBand (b0 b1 : ℝ) : Option ℝ → Bool
  | some x => decide (min b0 b1 ≤ x ∧ x ≤ max b0 b1)
  | none => false

/-- core.py:323-325: the positions the band selects. -/
noncomputable def bandRows (b0 b1 : ℝ) (nlat : ℕ) (l : NDArr (Option ℝ)) : List ℕ :=
  (List.range nlat).filter fun j => insideBand b0 b1 (l.get [j])

/-- core.py:226-381 `_reduce_latitude_band_inputs` on NumPy arrays. A NaN in `lat` is never selected. -/
noncomputable def reduceBand (u t : NDArr (Option ℝ)) (lat : Option (NDArr (Option ℝ))) (b0 b1 : ℝ) (np : ℕ) :
    Except Err (NDArr (Option ℝ) × NDArr (Option ℝ) × Option (NDArr (Option ℝ))) :=
  if max u.shape.length t.shape.length < 3 then .ok (u, t, lat)
  else
    match lat with
    | none => .error .value
    | some l =>
      match l.shape with
      | [nlat] =>
        let sel := bandRows b0 b1 nlat l
        if sel = [] then .error .value
        else do
          let u' ← bandField u np nlat (fun j => (l.get [j]).getD 0) sel
          let t' ← bandField t np nlat (fun j => (l.get [j]).getD 0) sel
          .ok (u', t', none)
      | _ => .error .value

/-- core.py:80-112 `_coerce_profile_matrix`: the number of profiles and the value at profile `i`, level `j`. -/
def coerce (a : NDArr (Option ℝ)) (np : ℕ) : Except Err (ℕ × (ℕ → ℕ → Option ℝ)) :=
  match a.shape with
  | [n] => if n ≠ np then .error .value else .ok (1, fun _ j => a.get [j])
  | [n, m] =>
    match axesOf a.shape np with
    | [0] => .ok (m, fun i j => a.get [j, i])
    | [1] => .ok (n, fun i j => a.get [i, j])
    | _ => .error .value
  | _ => .error .value

/-- core.py:115-132 `_broadcast_profile_matrix`. -/
def broadcast (m : ℕ × (ℕ → ℕ → Option ℝ)) (n : ℕ) : Except Err (ℕ → ℕ → Option ℝ) :=
  if m.1 = n then .ok m.2
  else if m.1 = 1 then .ok fun _ j => m.2 0 j
  else .error .value

/-- core.py:135-151 `_as_profile_vector`. -/
def profileVector (a : NDArr (Option ℝ)) (n : ℕ) : Except Err (ℕ → Option ℝ) :=
  match a.shape with
  | [] => .ok fun _ => a.get []
  | [m] => if m = n then .ok fun i => a.get [i] else if m = 1 then .ok fun _ => a.get [0] else .error .value
  | _ => .error .value

/-- `np.linspace(a, b, n)[i]` for `n >= 2` (core.py:848-853) and the ramp of core.py:1047-1052. -/
noncomputable def levelAt (a b : ℝ) (n i : ℕ) : ℝ := a + (b - a) * (i / ((n : ℝ) - 1))

/-- The settings shared by all profiles of one call: pressure levels in Pa, number of solver levels, smoothing window, interpolation method,
wavenumber mode, count and longitude span. -/
structure Setting where
  np : ℕ
  p : ℕ → Option ℝ
  bottom : ℝ
  levels : ℕ
  window : ℕ
  log : Bool
  mode : ℕ
  count : ℕ
  span : ℝ

/-- core.py:384-413 `_infer_tropopause_pressure_pa`. -/
noncomputable def inferTropopause (S : Setting) (t : ℕ → Option ℝ) (w : Trop.Work) : Except Err ℝ :=
  let rev : Prop := (S.p 0).getD 0 > (S.p (S.np - 1)).getD 0
  match Trop.tropWmoProfile ⟨[S.np], fun idx => (if rev then flip S.np t else t) (idx.getD 0 0)⟩
      ⟨[S.np], fun idx => (if rev then flip S.np S.p else S.p) (idx.getD 0 0)⟩ "Pa" 2 (-999) w with
  | .error e => .error (.trop e)
  | .ok cell => if cell.success = 0 ∨ cell.ptrop ≤ 0 then .error (.runtime []) else .ok (cell.ptrop * 100)

/-- `fBetaLat` or `fBetaBounds`, and the zonal length (core.py:882-899, 962-980, 1060-1071). -/
structure Place where
  f : ℝ
  beta : ℝ
  cos : ℝ

/-- The place of a latitude. -/
noncomputable def Place.lat (x : ℝ) : Place := ⟨(fBetaLat x).1, (fBetaLat x).2, Real.cos (x * (Real.pi / 180))⟩

/-- The place of a band (core.py:785-788 for the cosine). -/
noncomputable def Place.band (a b : ℝ) : Place :=
  ⟨(fBetaBounds a b).1, (fBetaBounds a b).2, (Real.cos (a * (Real.pi / 180)) + Real.cos (b * (Real.pi / 180))) / 2⟩

/-- core.py:888-899, 1060-1071: the zonal length, 1 in high-resolution mode. -/
noncomputable def zonalLength (S : Setting) (q : Place) : ℝ := if S.mode = 2 then S.span * 6371000 * q.cos else 1

/-- core.py:843-925: the solve of one profile; the profile holds numbers; the tropopause may be NaN (`none`), and so may the place, which is
looked at last. -/
noncomputable def solveOne (qz : Solver) (S : Setting) (u t : ℕ → Option ℝ) (tp : Option ℝ) (q : Except Err (Option Place)) :
    Except Err (Option ℝ) :=
  if (match tp with
    | some a => decide (a ≥ S.bottom)
    | none => false) = true then .error .value
  else
    let targets : List (Option ℝ) := (List.range S.levels).map fun i =>
      match tp with
      | some a => some (levelAt a S.bottom S.levels i)
      | none => if i + 1 = S.levels then some S.bottom else none
    let src := (List.range S.np).map S.p
    match Interp.interpPressure1d ((List.range S.np).map u) src targets S.log false none with
    | .error e => .error (.interp e)
    | .ok us =>
      match Interp.interpPressure1d ((List.range S.np).map t) src targets S.log false none with
      | .error e => .error (.interp e)
      | .ok ts =>
        if none ∈ us ∨ none ∈ ts then .ok none
        else
          match q with
          | .error e => .error e
          | .ok none => .error .unmodelled
          | .ok (some q) =>
            if S.mode = 2 ∧ zonalLength S q ≤ 0 then .error .value
            else
              let uf := fun i : ℕ => ((us[i - 1]?).getD none).getD 0
              let tf := fun i : ℕ => ((ts[i - 1]?).getD none).getD 0
              let pf := fun i : ℕ => ((targets[i - 1]?).getD none).getD 0
              (dbaroc qz S.levels uf (fun i => tf i * (referencePressure / pf i) ^ kappa) pf tf q.f q.beta S.window S.mode S.count
                (zonalLength S q)).raise

/-- core.py:882-887: the place of one profile. -/
noncomputable def placeOf (bounds : Option (ℝ × ℝ)) (lat : Option (NDArr (Option ℝ))) : Except Err (Option Place) :=
  match bounds with
  | some b => .ok (some (Place.band b.1 b.2))
  | none => match lat with
    | none => .error .value
    | some a => (profileVector a 1).map fun v => (v 0).map Place.lat

/-- core.py:826-841: the tropopause of one profile in Pa. -/
noncomputable def tropOf (S : Setting) (t : ℕ → Option ℝ) (trop : Option (NDArr (Option ℝ))) (w : Trop.Work) : Except Err (Option ℝ) :=
  match trop with
  | none => (inferTropopause S t w).map some
  | some a => (profileVector a 1).map fun v => (v 0).map fun x => if x ≤ 2000 then x * 100 else x

/-- core.py:805-925: the call with one profile. -/
noncomputable def oneProfile (qz : Solver) (S : Setting) (u t : ℕ → Option ℝ) (lat : Option (NDArr (Option ℝ))) (bounds : Option (ℝ × ℝ))
    (trop : Option (NDArr (Option ℝ))) (w : Trop.Work) : Except Err (Option ℝ) := do
  if ∃ i, i < S.np ∧ (u i = none ∨ t i = none ∨ S.p i = none) then .ok none
  else if ∃ i, i < S.np ∧ ∃ x, t i = some x ∧ x ≤ 0 then .error .value
  else
    let tp ← tropOf S t trop w
    solveOne qz S u t tp (placeOf bounds lat)

/-! ### Many profiles -/

/-- core.py:982-999: the explicit tropopause pressures of a batch in Pa: hPa only if all of them are at most 2000. -/
noncomputable def tropPa (n : ℕ) (v : ℕ → Option ℝ) : ℕ → Option ℝ :=
  if (∃ i, i < n ∧ v i ≠ none) ∧ ∀ i, i < n → ∀ x, v i = some x → x ≤ 2000 then fun i => (v i).map (· * 100) else v

/-- core.py:962-976: the places of the profiles. -/
noncomputable def placesOf (n : ℕ) (bounds : Option (ℝ × ℝ)) (lat : Option (NDArr (Option ℝ))) : Except Err (ℕ → Option Place) :=
  match bounds with
  | some b => .ok fun _ => some (Place.band b.1 b.2)
  | none => match lat with
    | none => .error .value
    | some a => (profileVector a n).map fun v i => (v i).map Place.lat

/-- core.py:982-999: the explicit tropopause pressures. -/
noncomputable def tropsOf (n : ℕ) (trop : Option (NDArr (Option ℝ))) : Except Err (Option (ℕ → Option ℝ)) :=
  match trop with
  | none => .ok none
  | some a => (profileVector a n).map fun v => some (tropPa n v)

/-- core.py:1013-1034: the tropopause pressures of the profiles `rows`; NaN where none is found. -/
noncomputable def findTrops (S : Setting) (t : ℕ → ℕ → Option ℝ) (rows : List ℕ) (explicit : Option (ℕ → Option ℝ)) (s : Trop.Scratch)
    (o : ℕ → ℕ → ℕ → Trop.Cell) : Except Err (ℕ → Option ℝ) :=
  match explicit with
  | some v => .ok v
  | none =>
    match Trop.tropWmo ⟨[rows.length, S.np], fun idx => t (rows.getD (idx.getD 0 0) 0) (idx.getD 1 0)⟩ ⟨[S.np], fun idx => S.p (idx.getD 0 0)⟩
        (-1) 0 1 none "Pa" 2 (-999) true s o with
    | .error e => .error (.trop e)
    | .ok cells => .ok fun i =>
      if i ∈ rows ∧ (cells.get [rows.idxOf i]).success ≠ 0 then some ((cells.get [rows.idxOf i]).ptrop * 100) else none

/-- core.py:1047-1094: one profile of the batch in the kernel. -/
noncomputable def runRow (qz : Solver) (S : Setting) (u t : ℕ → Option ℝ) (tp : Option ℝ) (place : Option Place) : Ret :=
  match tp, place with
  | some a, some q =>
    profileGrowth qz S.np (arg u) (arg t) (arg S.p) S.levels (fun k => levelAt a S.bottom S.levels (k - 1)) q.f q.beta
      (if S.log then 2 else 1) S.window S.mode S.count (zonalLength S q)
  | _, _ => .ier 100

/-- The number, if there is one. -/
def Ret.number : Ret → Option ℝ
  | .value v => some v
  | _ => none

/-- The statuses other than 0 and 100. -/
def Ret.failure : Ret → Option ℕ
  | .ier c => if c ≠ 100 then some c else none
  | _ => none

/-- core.py:1036-1111: the solve of the profiles `rows`. -/
noncomputable def solveRows (qz : Solver) (S : Setting) (n : ℕ) (u t : ℕ → ℕ → Option ℝ) (place : ℕ → Option Place) (tp : ℕ → Option ℝ) (rows : List ℕ) :
    Except Err (ℕ × (ℕ → Option ℝ)) :=
  if rows = [] then .ok (n, fun _ => none)
  else if S.mode = 2 ∧ ∃ i ∈ rows, ∃ q, place i = some q ∧ zonalLength S q ≤ 0 then .error .value
  else
    let run : ℕ → Ret := fun i => runRow qz S (u i) (t i) (tp i) (place i)
    if ∃ i ∈ rows, run i = .divZero then .error .divZero
    else if rows.filterMap (fun i => (run i).failure) ≠ [] then .error (.runtime (rows.filterMap fun i => (run i).failure))
    else .ok (n, fun i => if i ∈ rows then (run i).number else none)

/-- core.py:946-999: the profiles without missing values, at a latitude that is a number and with a tropopause (if it is given) that is a number. -/
def validRow (S : Setting) (u t : ℕ → ℕ → Option ℝ) (place : ℕ → Option Place) (explicit : Option (ℕ → Option ℝ)) (i : ℕ) : Prop :=
  ((∀ j, j < S.np → u i j ≠ none ∧ t i j ≠ none) ∧ place i ≠ none) ∧ ∀ v, explicit = some v → v i ≠ none

/-- core.py:946-1111: the profiles after broadcasting. -/
noncomputable def batchRun (qz : Solver) (S : Setting) (n : ℕ) (u t : ℕ → ℕ → Option ℝ) (place : ℕ → Option Place) (explicit : Option (ℕ → Option ℝ))
    (s : Trop.Scratch) (o : ℕ → ℕ → ℕ → Trop.Cell) : Except Err (ℕ × (ℕ → Option ℝ)) :=
  if ∃ i, i < n ∧ validRow S u t place explicit i ∧ ∃ v x, explicit = some v ∧ v i = some x ∧ (x ≤ 0 ∨ x ≥ S.bottom) then .error .value
  else if ∃ i, i < n ∧ validRow S u t place explicit i ∧ ∃ j, j < S.np ∧ ∃ x, t i j = some x ∧ x ≤ 0 then .error .value
  else
    match findTrops S t ((List.range n).filter fun i => decide (validRow S u t place explicit i)) explicit s o with
    | .error e => .error e
    | .ok tp => solveRows qz S n u t place tp
      (((List.range n).filter fun i => decide (validRow S u t place explicit i)).filter fun i => decide (tp i ≠ none))

/-- core.py:927-1111: the call with several profiles. -/
noncomputable def manyProfiles (qz : Solver) (S : Setting) (um tm : ℕ × (ℕ → ℕ → Option ℝ)) (lat : Option (NDArr (Option ℝ)))
    (bounds : Option (ℝ × ℝ)) (trop : Option (NDArr (Option ℝ))) (s : Trop.Scratch) (o : ℕ → ℕ → ℕ → Trop.Cell) :
    Except Err (ℕ × (ℕ → Option ℝ)) := do
  let u ← broadcast um (max um.1 tm.1)
  let t ← broadcast tm (max um.1 tm.1)
  let place ← placesOf (max um.1 tm.1) bounds lat
  let explicit ← tropsOf (max um.1 tm.1) trop
  batchRun qz S (max um.1 tm.1) u t place explicit s o

/-- What the call returns: a float or an array. -/
inductive Out
  | one (v : Option ℝ)
  | many (n : ℕ) (v : ℕ → Option ℝ)

/-- core.py:733-734. -/
def boundsOf (bounds : Option (List ℝ)) : Except Err (Option (ℝ × ℝ)) :=
  match bounds with
  | none => .ok none
  | some [x, y] => .ok (some (x, y))
  | some _ => .error .value

/-- core.py:743-749: `none` when it is not an integer (or is a boolean). -/
def levelsOf (levels : Option ℤ) : Except Err ℕ :=
  match levels with
  | none => .error .type
  | some l => if l < 2 then .error .value else .ok l.toNat

/-- core.py:751-759: `none` when it is not an integer (or is a boolean). -/
def windowOf (window : Option ℤ) : Except Err ℕ :=
  match window with
  | none => .error .type
  | some l => if l < 1 then .error .value else if l % 2 = 0 then .error .value else .ok l.toNat

/-- core.py:739-740: the pressures in Pa. -/
noncomputable def pascal (np : ℕ) (p : ℕ → Option ℝ) : ℕ → Option ℝ :=
  if (∃ i, i < np ∧ p i ≠ none) ∧ ∀ i, i < np → ∀ x, p i = some x → x ≤ 2000 then fun i => (p i).map (· * 100) else p

/-- core.py:736-772: the settings. -/
noncomputable def settings (pressure : NDArr (Option ℝ)) (lon : Option (NDArr (Option ℝ))) (mode method : String) (levels window : Option ℤ) :
    Except Err Setting := do
  let (np, p0) ← as1d pressure
  if ∃ i, i < np ∧ ∃ x, p0 i = some x ∧ x ≤ 0 then .error .value
  else if np = 0 then .error .value
  else
    let p := pascal np p0
    if ¬ Monotone1 np p then .error .value
    else
      let bottom := min referencePressure (max ((p 0).getD referencePressure) ((p (np - 1)).getD referencePressure))
      let lv ← levelsOf levels
      let win ← windowOf window
      let log ← methodOf method
      let (md, cnt, span) ← waveInputs mode lon
      .ok ⟨np, p, bottom, lv, win, log, md, cnt, span⟩

/-- core.py:794-1111: the rest of the call. -/
noncomputable def dispatch (qz : Solver) (S : Setting) (u t : NDArr (Option ℝ)) (lat : Option (NDArr (Option ℝ))) (b : Option (ℝ × ℝ))
    (trop : Option (NDArr (Option ℝ))) (w : Trop.Work) (s : Trop.Scratch) (o : ℕ → ℕ → ℕ → Trop.Cell) : Except Err Out :=
  if lat.isNone ∧ b.isNone then .error .value
  else if lat.isSome ∧ b.isSome then .error .value
  else do
    let um ← coerce u S.np
    let tm ← coerce t S.np
    if u.shape.length = 1 ∧ t.shape.length = 1 then
      (oneProfile qz S (um.2 0) (tm.2 0) lat b trop w).map .one
    else
      (manyProfiles qz S um tm lat b trop s o).map fun r => .many r.1 r.2

/-- core.py:526-1111 `baroc_growth_rate`. `levels`, `window`: `none` when they are not integers (or are booleans). -/
noncomputable def barocGrowth (qz : Solver) (u t pressure : NDArr (Option ℝ)) (lat : Option (NDArr (Option ℝ))) (bounds : Option (List ℝ))
    (lon : Option (NDArr (Option ℝ))) (mode method : String) (trop : Option (NDArr (Option ℝ))) (levels window : Option ℤ)
    (w : Trop.Work) (s : Trop.Scratch) (o : ℕ → ℕ → ℕ → Trop.Cell) : Except Err Out := do
  let b ← boundsOf bounds
  let S ← settings pressure lon mode method levels window
  match b with
  | none => dispatch qz S u t lat none trop w s o
  | some b =>
    let (u, t, lat) ← reduceBand u t lat b.1 b.2 S.np
    dispatch qz S u t lat (some b) trop w s o

end Skyborn.Growth
