/-
Model of the conversion between grids and lists of (x, y, value) triples: /repo/src/skyborn/interp/triple_to_grid.py, its C bindings
grid2triple_module.c and triple2grid_module.c, and its Fortran kernels fortran/grid2triple.f90 and fortran/triple2grid.f90.

Simplifications: float64 data only; finite numbers are reals (no rounding), a NaN is `none`; coordinates given to `triple_to_grid` are
finite; integers are unbounded; `.or.` is evaluated from the left and stops at the first true operand. Division by zero (repeated grid
coordinates) is Lean's; the theorems assume strictly increasing axes. Fortran arrays are functions with 1-based indices; `rd`/`wr` are
`none` outside the bounds. Three arrays indexed together are one array of records. The kernel `trip2grd3`, which no Python function can
reach (the binding passes `loop = 0`), dask and xarray metadata are not modelled.
-/
import Verif.Common.Loops
import Verif.Common.ND
import Verif.Common.Grid2
import Mathlib.Analysis.SpecialFunctions.Trigonometric.Inverse

namespace Skyborn.Triple

/-- A float64 value; `none` is NaN. -/
abbrev V := Option ℝ

/-- An n-dimensional float64 array. -/
abbrev Arr := NDArr V

/-- What the public functions can raise. -/
inductive Err
  /-- `CoordinateError`. -/
  | coordinate
  /-- `DimensionError`. -/
  | dimension
  /-- `TypeError` (bad `method`). -/
  | type
  /-- `ValueError`. -/
  | value
  /-- `IndexError` (`flat_data[0]` of an empty array). -/
  | index
  /-- An access outside an array (not an exception in the real program). -/
  | crash
  deriving DecidableEq

open Classical in
/-- missing_values.py:36-66 as used in triple_to_grid.py:46-60, 98-107: one element handed to Fortran; `mp` is the missing value on the
Python side (`none` is NaN), `M` the largest float64. -/
noncomputable def encode (M : ℝ) (mp : V) (v : V) : V := if v = mp then some M else v

open Classical in
/-- missing_values.py:71-98 as used in triple_to_grid.py:72-73, 127-133: one element handed back. -/
noncomputable def decode (M : ℝ) (mp : V) (v : V) : V := if v = some M then mp else v

open Classical in
/-- triple_to_grid.py:54-60 and 72-73 (98-107 and 126-127): what one element of the caller's array holds after the call; `any` says whether
some element is missing, the only case in which the array is written. -/
noncomputable def after (M : ℝ) (mp : V) (any : Prop) (v : V) : V :=
  if any ∧ mp ≠ some M then decode M mp (encode M mp v) else v

/-! ### `grid_to_triple` -/

open Classical in
/-- grid2triple.f90:13-62 `grid2triple_impl`; the state is `ld` and the rows of `d`. -/
noncomputable def grid2triple (mx ny ldmax : ℕ) (x y : ℕ → V) (z : ℕ → ℕ → V) (zmsg : ℝ) (d : ℕ → V × V × V) : Option (ℕ × (ℕ → V × V × V)) :=
  doLoopM 1 ny (0, d) fun n s => do
    let yn ← rd ny y n
    doLoopM 1 mx s fun m s => do
      let row ← rd mx (fun m => z m n) m
      if row ≠ some zmsg then do
        let xm ← rd mx x m
        let d ← wr ldmax s.2 (s.1 + 1) (xm, yn, row)
        some (s.1 + 1, d)
      else some s

/-- One component of a triple. -/
def comp (t : V × V × V) : ℕ → V
  | 0 => t.1
  | 1 => t.2.1
  | _ => t.2.2

/-- grid2triple_module.c:28-97 (`ldmax = mx * ny`) and triple_to_grid.py:34-75 `_grid_to_triple`: the 3 × `ld` array and the caller's data
after the call. `d0` is the content of the uninitialised result array. -/
noncomputable def gridToTripleInner (M : ℝ) (d0 : ℕ → V × V × V) (data x y : Arr) (mp : V) : Except Err (Arr × Arr) :=
  match data.shape, x.shape, y.shape with
  | [ny, mx], [nx], [ny'] =>
    if nx ≠ mx ∨ ny' ≠ ny then .error .value
    else match grid2triple mx ny (mx * ny) (fun m => x.get [m - 1]) (fun n => y.get [n - 1]) (fun m n => encode M mp (data.get [n - 1, m - 1])) M d0 with
      | none => .error .crash
      | some (ld, d) => .ok (⟨[3, ld], fun ix => comp (d (ix.getD 1 0 + 1)) (ix.getD 0 0)⟩,
          ⟨data.shape, fun ix => after M mp (∃ jx, InB data.shape jx ∧ data.get jx = mp) (data.get ix)⟩)
  | _, _, _ => .error .value

/-- triple_to_grid.py:200-335 `grid_to_triple` for NumPy input (`x`, `y` are `none` when not given); `msg_py` defaults to NaN. -/
noncomputable def gridToTriple (M : ℝ) (d0 : ℕ → V × V × V) (data : Arr) (x y : Option Arr) (mp : Option V) : Except Err (Arr × Arr) :=
  match x, y with
  | some x, some y =>
    if data.shape.length ≠ 2 then .error .dimension
    else if x.shape.length ≠ 1 then .error .dimension
    else if y.shape.length ≠ 1 then .error .dimension
    else if x.shape.getD 0 0 ≠ data.shape.getD 1 0 then .error .dimension
    else if y.shape.getD 0 0 ≠ data.shape.getD 0 0 then .error .dimension
    else gridToTripleInner M d0 data x y (mp.getD none)
  | _, _ => .error .coordinate

/-! ### `triple_to_grid`: the kernel -/

/-- Fortran `nint`: to the nearest integer, halves away from zero. -/
noncomputable def fnint (r : ℝ) : ℤ := if 0 ≤ r then ⌊r + 1 / 2⌋ else -⌊-r + 1 / 2⌋
/-- Fortran `int`: towards zero. -/
noncomputable def fint (r : ℝ) : ℤ := if 0 ≤ r then ⌊r⌋ else -⌊-r⌋

/-- One observation. -/
structure Obs where
  x : ℝ
  y : ℝ
  z : V

open Classical in
/-- triple2grid.f90:62-76 observations that are not missing are copied, those outside the grid counted; the state is `kpts`, `kout` and the
work arrays. -/
noncomputable def strip (kz mx ny : ℕ) (o : ℕ → Obs) (zmsg : ℝ) (gx gy : ℕ → ℝ) (w : ℕ → Obs) : Option (ℕ × ℕ × (ℕ → Obs)) :=
  doLoopM 1 kz (0, 0, w) fun k s => do
    let b ← rd kz o k
    if b.z ≠ some zmsg then do
      let w ← wr kz s.2.2 (s.1 + 1) b
      let x1 ← rd mx gx 1
      let xm ← rd mx gx mx
      let y1 ← rd ny gy 1
      let yn ← rd ny gy ny
      some (s.1 + 1, if b.x < x1 ∨ xm < b.x ∨ b.y < y1 ∨ yn < b.y then s.2.1 + 1 else s.2.1, w)
    else some s

open Classical in
/-- triple2grid.f90:89-94, 98-103 the loop `do m = 2, mx - 1` with its `exit`, from `m` with `left` passes left. -/
noncomputable def evenLoop (mx : ℕ) (g : ℕ → ℝ) (dd : ℝ) : (left m : ℕ) → Option Bool
  | 0, _ => some true
  | left + 1, m => do
    let a ← rd mx g m
    let b ← rd mx g (m + 1)
    if dd < (b - a) - 0.001 ∨ dd > (b - a) + 0.001 then some false else evenLoop mx g dd left (m + 1)

/-- triple2grid.f90:87-103 `mflag` (`nflag`). -/
noncomputable def even (mx : ℕ) (g : ℕ → ℝ) : Option Bool := do
  let a ← rd mx g 1
  let b ← rd mx g 2
  evenLoop mx g |b - a| (mx - 1 - 1) 2

open Classical in
/-- triple2grid.f90:202-205 the index of `v` on an evenly spaced axis, if `v` is exactly there (`none` for -1). -/
noncomputable def exactEven (n : ℕ) (g : ℕ → ℝ) (d v : ℝ) : Option (Option ℕ) := do
  let g1 ← rd n g 1
  let i := fnint ((v - g1) / d) + 1
  if i < 1 ∨ (n : ℤ) < i then some none
  else do
    let a ← rd n g i.toNat
    if v ≠ a then some none else some (some i.toNat)

open Classical in
/-- triple2grid.f90:216-223 the loop over `m`, from `i` with `left` passes left. -/
noncomputable def findEq (n : ℕ) (g : ℕ → ℝ) (v : ℝ) : (left i : ℕ) → Option (Option ℕ)
  | 0, _ => some none
  | left + 1, i => do
    let a ← rd n g i
    if v = a then some (some i) else findEq n g v left (i + 1)

open Classical in
/-- triple2grid.f90:214-227 the loop over `n`. -/
noncomputable def exactLoop (mx ny : ℕ) (gx gy : ℕ → ℝ) (b : Obs) : (left n : ℕ) → Option (Option (ℕ × ℕ))
  | 0, _ => some none
  | left + 1, n => do
    let a ← rd ny gy n
    if b.y = a then do
      match ← findEq mx gx b.x mx 1 with
      | some m => some (some (m, n))
      | none => exactLoop mx ny gx gy b left (n + 1)
    else exactLoop mx ny gx gy b left (n + 1)

/-- triple2grid.f90:201-228 the grid point that is exactly at an observation. -/
noncomputable def exactCell (mx ny : ℕ) (gx gy : ℕ → ℝ) (dx dy : ℝ) (mflag nflag : Bool) (b : Obs) : Option (Option (ℕ × ℕ)) :=
  if mflag = true ∧ nflag = true then do
    let m ← exactEven mx gx dx b.x
    let n ← exactEven ny gy dy b.y
    some (m.bind fun m => n.map fun n => (m, n))
  else exactLoop mx ny gx gy b ny 1

/-- triple2grid.f90:195-196 `gout` and `dout`. -/
structure Cells where
  gout : ℕ → ℕ → V
  dout : ℕ → ℕ → ℝ

/-- triple2grid.f90:198-229 the first pass; the state is `ksum` and the cells. -/
noncomputable def exactPass (kpts mx ny : ℕ) (o : ℕ → Obs) (zmsg : ℝ) (gx gy : ℕ → ℝ) (dx dy : ℝ) (mflag nflag : Bool) : Option (ℕ × Cells) :=
  doLoopM 1 kpts (0, ⟨fun _ _ => some zmsg, fun _ _ => 10 ^ 20⟩) fun k s => do
    let b ← rd kpts o k
    match ← exactCell mx ny gx gy dx dy mflag nflag b with
    | some (m, n) =>
      if (1 ≤ m ∧ m ≤ mx) ∧ (1 ≤ n ∧ n ≤ ny) then some (s.1 + 1, ⟨set2 s.2.gout m n b.z, set2 s.2.dout m n 0⟩) else none
    | none => some s

open Classical in
/-- triple2grid.f90:243-251, 257-266 the search on an unevenly spaced axis: the index (`none` when there is no cell) and the fraction. -/
noncomputable def cellLoop (n : ℕ) (g : ℕ → ℝ) (v : ℝ) : (left i : ℕ) → Option (Option (ℤ × ℝ))
  | 0, _ => some none
  | left + 1, i => do
    let a ← rd n g i
    let b ← rd n g (i + 1)
    if a ≤ v ∧ v < b then
      let slp := (v - a) / (b - a)
      some (some (fnint (i + slp), slp))
    else cellLoop n g v left (i + 1)

/-- triple2grid.f90:239-252 (254-267): `nn` (`mm`) and the fraction `slpy` (`slpx`), which keeps its old value on an evenly spaced axis. -/
noncomputable def axisTarget (n : ℕ) (g : ℕ → ℝ) (d : ℝ) (flag : Bool) (v : ℝ) (slp : V) : Option (ℤ × V) :=
  if flag = true then do
    let g1 ← rd n g 1
    some (fint ((v - g1) / d) + 2, slp)
  else do
    match ← cellLoop n g v (n - 1) 1 with
    | none => some (-1, slp)
    | some (i, s) => some (i, some s)

/-- triple2grid.f90:189-190 `re`, `rad`. -/
noncomputable def re : ℝ := 6371.22
@[inherit_doc re] noncomputable def rad : ℝ := Real.pi / 180

/-- triple2grid.f90:270-277 the distance `dd`; `gxm`, `gyn` are the coordinates of the grid point. -/
noncomputable def distance (method : ℤ) (b : Obs) (gxm gyn : ℝ) (slpx slpy : V) : V :=
  if method = 0 then slpx.bind fun sx => slpy.map fun sy => Real.sqrt (sx ^ 2 + sy ^ 2)
  else
    let ylat := b.y * rad
    let atmp := Real.sin ylat * Real.sin (gxm * rad) + Real.cos ylat * Real.cos (gyn * rad) * Real.cos ((b.x - gxm) * rad)
    let atmp := min 1 (max (-1) atmp)
    some (Real.arccos atmp * re)

open Classical in
/-- triple2grid.f90:279-283 the comparison and the update. -/
noncomputable def assign (ddcrit : ℝ) (m n : ℕ) (z dd : V) (c : Cells) : Cells :=
  match dd with
  | none => c
  | some d => if d < c.dout m n ∧ d < ddcrit then ⟨set2 c.gout m n z, set2 c.dout m n d⟩ else c

/-- triple2grid.f90:236-285 the second pass; the state is `slpx`, `slpy` and the cells. -/
noncomputable def nearPass (kpts mx ny : ℕ) (o : ℕ → Obs) (gx gy : ℕ → ℝ) (dx dy : ℝ) (mflag nflag : Bool) (method : ℤ) (ddcrit : ℝ)
    (slpx slpy : V) (c : Cells) : Option (V × V × Cells) :=
  doLoopM 1 kpts (slpx, slpy, c) fun k s => do
    let b ← rd kpts o k
    let (nn, sy) ← axisTarget ny gy dy nflag b.y s.2.1
    let (mm, sx) ← axisTarget mx gx dx mflag b.x s.1
    if 1 ≤ mm ∧ mm ≤ mx ∧ 1 ≤ nn ∧ nn ≤ ny then do
      let gxm ← rd mx gx mm.toNat
      let gyn ← rd ny gy nn.toNat
      some (sx, sy, assign ddcrit mm.toNat nn.toNat b.z (distance method b gxm gyn sx sy) s.2.2)
    else some (sx, sy, s.2.2)

/-- triple2grid.f90:170-286 `trip2grd2_impl`: the array `gout`. -/
noncomputable def trip2grd2 (kpts mx ny : ℕ) (o : ℕ → Obs) (zmsg : ℝ) (gx gy : ℕ → ℝ) (mflag nflag : Bool) (method : ℤ) (ddcrit : ℝ)
    (slpx slpy : V) : Option (ℕ → ℕ → V) := do
  let x3 ← rd mx gx 3
  let x2 ← rd mx gx 2
  let y3 ← rd ny gy 3
  let y2 ← rd ny gy 2
  let dx := |x3 - x2|
  let dy := |y3 - y2|
  let (ksum, c) ← exactPass kpts mx ny o zmsg gx gy dx dy mflag nflag
  if ksum = kpts then some c.gout
  else do
    let s ← nearPass kpts mx ny o gx gy dx dy mflag nflag method ddcrit slpx slpy c
    some s.2.2.gout

/-- triple2grid.f90:121-132 one axis of the oversized grid (`g0` is the content of the uninitialised array). -/
noncomputable def bigAxis (n : ℕ) (g : ℕ → ℝ) (domain : ℝ) (g0 : ℕ → ℝ) : Option (ℕ → ℝ) := do
  let b ← doLoopM 1 n g0 fun i b => do
    let v ← rd n g i
    wr (n + 2) b (i + 1) v
  let g1 ← rd n g 1
  let g2 ← rd n g 2
  let b ← wr (n + 2) b 1 (g1 - domain * (g2 - g1))
  let gn ← rd n g n
  let gm ← rd n g (n - 1)
  wr (n + 2) b (n + 2) (gn + domain * (gn - gm))

/-- Contents of uninitialised memory. -/
structure Garbage where
  w : ℕ → Obs
  gbx : ℕ → ℝ
  gby : ℕ → ℝ
  slpx : V
  slpy : V

/-- triple2grid.f90:41-149 `triple2grid1_impl` with `loop = 0`: the array `grid` (whose copy loops 143-147 are a shift of the indices). -/
noncomputable def triple2grid1 (G : Garbage) (kz mx ny : ℕ) (o : ℕ → Obs) (zmsg : ℝ) (gx gy : ℕ → ℝ) (domain : ℝ) (method : ℤ) (distmx : ℝ) :
    Option (ℕ → ℕ → V) := do
  let ddcrit := if distmx ≤ 0 then 10 ^ 20 else distmx
  let (kpts, kout, w) ← strip kz mx ny o zmsg gx gy G.w
  if kpts = 0 then some fun _ _ => some zmsg
  else do
    let mflag ← even mx gx
    let nflag ← even ny gy
    if kout = 0 then trip2grd2 kpts mx ny w zmsg gx gy mflag nflag method ddcrit G.slpx G.slpy
    else do
      let bx ← bigAxis mx gx domain G.gbx
      let by' ← bigAxis ny gy domain G.gby
      let big ← trip2grd2 kpts (mx + 2) (ny + 2) w zmsg bx by' mflag nflag method ddcrit G.slpx G.slpy
      some fun m n => big (m + 1) (n + 1)

/-! ### `triple_to_grid`: the Python side -/

/-- triple2grid_module.c:62-204 (a `distmx` of `None` becomes 1e20, the result is a Fortran-ordered (mx, ny) array) and
triple_to_grid.py:77-136 `_triple_to_grid` for one slice: the grid as a 1-D array of `mx * ny` elements, which `reshape` reads in C order. -/
noncomputable def sliceGrid (G : Garbage) (M : ℝ) (kz mx ny : ℕ) (z : ℕ → V) (x y gx gy : ℕ → ℝ) (domain : ℝ) (method : ℤ) (distmx : Option ℝ) (mp : V) :
    Except Err (ℕ → V) :=
  match triple2grid1 G kz mx ny (fun k => ⟨x (k - 1), y (k - 1), encode M mp (z (k - 1))⟩) M (fun m => gx (m - 1)) (fun n => gy (n - 1)) domain method
      (distmx.getD (10 ^ 20)) with
  | none => .error .crash
  | some grid => .ok fun k => decode M mp (grid (k / ny + 1) (k % ny + 1))

/-- triple_to_grid.py:338-560 `triple_to_grid` for unchunked data (with `_triple_to_grid_eager`, 139-185): the shape of `data` is
`lead ++ [kz]`; `g` is the uninitialised memory of each call. The result is the reshaped grid. -/
noncomputable def tripleToGrid (g : ℕ → Garbage) (M : ℝ) (data : Arr) (x y gx gy : NDArr ℝ) (method : ℤ) (domain : ℝ) (distmx : Option ℝ) (mp : Option V) :
    Except Err Arr :=
  let kz := data.shape.getLastD 0
  let lead := data.shape.dropLast
  if x.shape.getD 0 0 ≠ y.shape.getD 0 0 ∨ x.shape.getD 0 0 ≠ kz then .error .dimension
  else if 1 < x.shape.length ∨ 1 < y.shape.length then .error .dimension
  else if 1 < gx.shape.length ∨ 1 < gy.shape.length then .error .dimension
  else if method ≠ 0 ∧ method ≠ 1 then .error .type
  else if method = 0 ∧ distmx ≠ none then .error .value
  else
    let mx := gx.shape.getD 0 0
    let ny := gy.shape.getD 0 0
    if kz = 0 then .error .value
    else if lead.prod = 0 then .error .index
    else
      let slice : ℕ → Except Err (ℕ → V) := fun i =>
        sliceGrid (g i) M kz mx ny (fun k => data.get (unravel data.shape (i * kz + k))) (fun k => x.get [k]) (fun k => y.get [k]) (fun m => gx.get [m])
          (fun n => gy.get [n]) domain method distmx (mp.getD none)
      match (List.range lead.prod).mapM slice with
      | .error e => .error e
      | .ok grids => .ok ⟨lead ++ [ny, mx], fun ix =>
          let p := ravel (lead ++ [ny, mx]) ix
          (grids.getD (p / (mx * ny)) fun _ => none) (p % (mx * ny))⟩

end Skyborn.Triple
