/-
Model of the geostrophic wind code: /repo/src/skyborn/calc/geostrophic/core.py, its C binding geostrophicwind_module.c (argument
checks) and the compiled Fortran kernels fortran/z2geouv.f90 (the other Fortran files of that directory are not part of the build:
meson.build:127-128).

Simplifications: float64 numbers are reals, NaN and infinities are not modelled; the float32 cast of the height field
(core.py:234, 256) is the parameter `f32`. Fortran arrays are functions with 1-based indices (`zz` 0-based as declared);
`rdm`/`wrm`/`rd2`/`wr2` return `none` outside the declared bounds. A loop under `!$omp parallel do` or `simd` runs in index order (no
iteration touches another one's elements). The positional forms of the C functions and the explicit `nlat=...` keywords are not
modelled (core.py does not use them); the unused 4-D kernel is not modelled.
-/
import Verif.Common.Loops
import Verif.Common.Grid2
import Verif.Windspharm.Tools
import Mathlib.Analysis.SpecialFunctions.Trigonometric.Basic

namespace Skyborn.Geo
open Skyborn Windspharm

/-- Bounds-checked access to a 1-based matrix. -/
def rdm {α : Type} (n m : ℕ) (a : ℕ → ℕ → α) (i j : ℕ) : Option α :=
  if (1 ≤ i ∧ i ≤ n) ∧ (1 ≤ j ∧ j ≤ m) then some (a i j) else none

@[inherit_doc rdm]
def wrm {α : Type} (n m : ℕ) (a : ℕ → ℕ → α) (i j : ℕ) (v : α) : Option (ℕ → ℕ → α) :=
  if (1 ≤ i ∧ i ≤ n) ∧ (1 ≤ j ∧ j ≤ m) then some (set2 a i j v) else none

/-- z2geouv.f90:141-143 `gr`, `omega`, `re`. -/
noncomputable def gr : ℝ := 9.80616
@[inherit_doc gr]
noncomputable def omega : ℝ := 7.292e-5
@[inherit_doc gr]
noncomputable def re : ℝ := 6371220
/-- z2geouv.f90:144-145 `rad = pi / 180`. -/
noncomputable def rad : ℝ := Real.pi / 180

/-- The arrays `valid_lat`, `gf`, `inv_dx`, `inv_dy` (`dx`, `dy` are only used to build the inverses). -/
structure Rows where
  valid : ℕ → Bool
  gf : ℕ → ℝ
  invDx : ℕ → ℝ
  invDy : ℕ → ℝ

/-- z2geouv.f90:163-184 the loop over latitudes filling `valid_lat`, `gf`, `inv_dx`. -/
noncomputable def rowLoop (nlat : ℕ) (glat : ℕ → ℝ) (zmsg dlon2 : ℝ) (r : Rows) : Option Rows :=
  doLoopM 1 nlat r fun nl r => do
    let lat ← rd nlat glat nl
    let ok : Bool := decide (lat ≠ 0) && decide (|lat| ≤ 89.999)
    let valid ← wr nlat r.valid nl ok
    if ok then do
      let gf ← wr nlat r.gf nl (gr / (2 * omega) / Real.sin (lat * rad))
      let dx := dlon2 * Real.cos (lat * rad)
      let invDx ← wr nlat r.invDx nl (if dx ≠ 0 then 1 / dx else 0)
      some { r with valid := valid, gf := gf, invDx := invDx }
    else do
      let gf ← wr nlat r.gf nl zmsg
      let invDx ← wr nlat r.invDx nl 0
      some { r with valid := valid, gf := gf, invDx := invDx }

/-- z2geouv.f90:187-194 the poles. -/
noncomputable def poles (nlat : ℕ) (glat : ℕ → ℝ) (r : Rows) : Option Rows := do
  let s ← rd nlat glat 1
  let r ← (if s < -89.999 then do { let d ← wr nlat r.invDx 1 0; some { r with invDx := d } } else some r)
  let n ← rd nlat glat nlat
  if n > 89.999 then do { let d ← wr nlat r.invDx nlat 0; some { r with invDx := d } } else some r

/-- z2geouv.f90:196-207 `inv_dy`. -/
noncomputable def dyLoop (nlat : ℕ) (glat : ℕ → ℝ) (rr : ℝ) (r : Rows) : Option Rows := do
  let a ← rd nlat glat 2
  let b ← rd nlat glat 1
  let d ← wr nlat r.invDy 1 (1 / ((a - b) * rr))
  let d ← doLoopM 2 (nlat - 1) d fun nl d => do
    let a ← rd nlat glat (nl + 1)
    let b ← rd nlat glat (nl - 1)
    wr nlat d nl (1 / ((a - b) * rr))
  let a ← rd nlat glat nlat
  let b ← rd nlat glat (nlat - 1)
  let d ← wr nlat d nlat (1 / ((a - b) * rr))
  some { r with invDy := d }

/-- z2geouv.f90:209-238 the extended field `zz(0:nlat+1, 0:mlon+1)`. -/
noncomputable def extend (nlat mlon : ℕ) (z : ℕ → ℕ → ℝ) (cyclic : Bool) (zz : ℕ → ℕ → ℝ) : Option (ℕ → ℕ → ℝ) := do
  let zz ← doLoopM 1 nlat zz fun nl zz => doLoopM 1 mlon zz fun ml zz => do
    let v ← rdm nlat mlon z nl ml
    wr2 (nlat + 2) (mlon + 2) zz nl ml v
  let zz ← doLoopM 1 mlon zz fun ml zz => do
    let a ← rd2 (nlat + 2) (mlon + 2) zz 1 ml
    let zz ← wr2 (nlat + 2) (mlon + 2) zz 0 ml a
    let b ← rd2 (nlat + 2) (mlon + 2) zz nlat ml
    wr2 (nlat + 2) (mlon + 2) zz (nlat + 1) ml b
  doLoopM 0 (nlat + 1) zz fun nl zz => do
    let a ← rd2 (nlat + 2) (mlon + 2) zz nl (if cyclic then mlon else 1)
    let zz ← wr2 (nlat + 2) (mlon + 2) zz nl 0 a
    let b ← rd2 (nlat + 2) (mlon + 2) zz nl (if cyclic then 1 else mlon)
    wr2 (nlat + 2) (mlon + 2) zz nl (mlon + 1) b

/-- The two output arrays. -/
structure Wind where
  u : ℕ → ℕ → ℝ
  v : ℕ → ℕ → ℝ

/-- z2geouv.f90:240-261 the main loop. -/
noncomputable def mainLoop (nlat mlon : ℕ) (zz : ℕ → ℕ → ℝ) (zmsg : ℝ) (r : Rows) (w : Wind) : Option Wind :=
  doLoopM 1 nlat w fun nl w => do
    let ok ← rd nlat r.valid nl
    if ok then
      doLoopM 1 mlon w fun ml w => do
        let n ← rd2 (nlat + 2) (mlon + 2) zz (nl + 1) ml
        let s ← rd2 (nlat + 2) (mlon + 2) zz (nl - 1) ml
        let e ← rd2 (nlat + 2) (mlon + 2) zz nl (ml + 1)
        let ww ← rd2 (nlat + 2) (mlon + 2) zz nl (ml - 1)
        let gf ← rd nlat r.gf nl
        let dy ← rd nlat r.invDy nl
        let dx ← rd nlat r.invDx nl
        if n ≠ zmsg ∧ s ≠ zmsg ∧ e ≠ zmsg ∧ ww ≠ zmsg then do
          let u ← wrm nlat mlon w.u nl ml (-gf * (n - s) * dy)
          let v ← wrm nlat mlon w.v nl ml (gf * (e - ww) * dx)
          some ⟨u, v⟩
        else do
          let w ← (if n ≠ zmsg ∧ s ≠ zmsg then do { let u ← wrm nlat mlon w.u nl ml (-gf * (n - s) * dy); some { w with u := u } }
            else some w)
          if e ≠ zmsg ∧ ww ≠ zmsg then do { let v ← wrm nlat mlon w.v nl ml (gf * (e - ww) * dx); some { w with v := v } } else some w
    else some w

/-- z2geouv.f90:263-270 one-sided differences at the ends of a non-cyclic grid. -/
noncomputable def adjust (nlat mlon : ℕ) (zmsg : ℝ) (v : ℕ → ℕ → ℝ) : Option (ℕ → ℕ → ℝ) :=
  doLoopM 1 nlat v fun nl v => do
    let a ← rdm nlat mlon v nl 1
    let v ← (if a ≠ zmsg then wrm nlat mlon v nl 1 (a * 2) else some v)
    let b ← rdm nlat mlon v nl mlon
    if b ≠ zmsg then wrm nlat mlon v nl mlon (b * 2) else some v

/-- z2geouv.f90:124-271 `z2guv`; `r0`, `zz0` are the uninitialised local arrays. -/
noncomputable def z2guv (z : ℕ → ℕ → ℝ) (nlat mlon : ℕ) (zmsg : ℝ) (glon glat : ℕ → ℝ) (iopt : ℕ) (r0 : Rows) (zz0 : ℕ → ℕ → ℝ) :
    Option Wind :=
  let w : Wind := ⟨fun _ _ => zmsg, fun _ _ => zmsg⟩
  if nlat < 2 ∨ mlon < 2 then some w
  else do
    let rr := re * rad
    let l2 ← rd mlon glon 2
    let l1 ← rd mlon glon 1
    let dlon2 := 2 * (rr * (l2 - l1))
    let r ← rowLoop nlat glat zmsg dlon2 r0
    let r ← poles nlat glat r
    let r ← dyLoop nlat glat rr r
    let zz ← extend nlat mlon z (decide (iopt = 1)) zz0
    let w ← mainLoop nlat mlon zz zmsg r w
    if iopt ≠ 1 then do
      let v ← adjust nlat mlon zmsg w.v
      some { w with v := v }
    else some w

/-- z2geouv.f90:98-106 the reordering loop of `zuvnew`. -/
noncomputable def reverseIn (nlat mlon : ℕ) (z : ℕ → ℕ → ℝ) (glat : ℕ → ℝ) (zt : ℕ → ℕ → ℝ) (gt : ℕ → ℝ) : Option ((ℕ → ℕ → ℝ) × (ℕ → ℝ)) :=
  doLoopM 1 nlat (zt, gt) fun nl st => do
    let g ← rd nlat glat nl
    let gt ← wr nlat st.2 (nlat + 1 - nl) g
    let zt ← doLoopM 1 mlon st.1 fun ml zt => do
      let v ← rdm nlat mlon z nl ml
      wrm nlat mlon zt (nlat + 1 - nl) ml v
    some (zt, gt)

/-- z2geouv.f90:110-121 the results back in the original order, one array. -/
noncomputable def reverseOut (nlat mlon : ℕ) (u : ℕ → ℕ → ℝ) (tmp : ℕ → ℝ) : Option ((ℕ → ℕ → ℝ) × (ℕ → ℝ)) :=
  doLoopM 1 mlon (u, tmp) fun ml st => do
    let tmp ← doLoopM 1 nlat st.2 fun nl tmp => do
      let v ← rdm nlat mlon st.1 nl ml
      wr nlat tmp (nlat + 1 - nl) v
    let u ← doLoopM 1 nlat st.1 fun nl u => do
      let v ← rd nlat tmp nl
      wrm nlat mlon u nl ml v
    some (u, tmp)

/-- z2geouv.f90:83-122 `zuvnew`. -/
noncomputable def zuvnew (z : ℕ → ℕ → ℝ) (nlat mlon : ℕ) (zmsg : ℝ) (glon glat : ℕ → ℝ) (iopt : ℕ) (r0 : Rows) (zz0 : ℕ → ℕ → ℝ) :
    Option Wind := do
  let (zt, gt) ← reverseIn nlat mlon z glat zz0 (fun _ => 0)
  let w ← z2guv zt nlat mlon zmsg glon gt iopt r0 zz0
  let (u, _) ← reverseOut nlat mlon w.u (fun _ => 0)
  let (v, _) ← reverseOut nlat mlon w.v (fun _ => 0)
  some ⟨u, v⟩

/-- z2geouv.f90:7-31 `z2geouv`. -/
noncomputable def z2geouv (z : ℕ → ℕ → ℝ) (nlat mlon : ℕ) (zmsg : ℝ) (glon glat : ℕ → ℝ) (iopt : ℕ) (r0 : Rows) (zz0 : ℕ → ℕ → ℝ) :
    Option Wind :=
  if nlat < 2 ∨ mlon < 2 then some ⟨fun _ _ => zmsg, fun _ _ => zmsg⟩
  else do
    let g2 ← rd nlat glat 2
    let g1 ← rd nlat glat 1
    if g2 > g1 then z2guv z nlat mlon zmsg glon glat iopt r0 zz0 else zuvnew z nlat mlon zmsg glon glat iopt r0 zz0

/-- z2geouv.f90:33-53 `z2geouv_3d`; the outputs are kept as one array of slices. -/
noncomputable def z2geouv3d (z : ℕ → ℕ → ℕ → ℝ) (nlat mlon n3rd : ℕ) (zmsg : ℝ) (glon glat : ℕ → ℝ) (iopt : ℕ) (r0 : Rows)
    (zz0 : ℕ → ℕ → ℝ) (out0 : ℕ → Wind) : Option (ℕ → Wind) :=
  doLoopM 1 n3rd out0 fun k out => do
    let w ← z2geouv (fun i j => z i j k) nlat mlon zmsg glon glat iopt r0 zz0
    wr n3rd out k w

/-! ### core.py -/

/-- Why a call raises. -/
inductive GErr
  | index | noY | axis | prep | latLength | lonLength | ndim | crash | recover
  deriving DecidableEq

/-- core.py:51-91 `_is_longitude_cyclic` with the default tolerance 1. -/
noncomputable def isCyclic (glon : List ℝ) : Bool :=
  let n := glon.length
  if n < 3 then false
  else
    let g : ℕ → ℝ := fun k => glon.getD k 0
    let range := g (n - 1) - g 0
    let dlon := (∑ k ∈ Finset.range (n - 1), (g (k + 1) - g k)) / ((n - 1 : ℕ) : ℝ)
    let c360 := decide (|range + dlon - 360| < 1)
    let c360 := if c360 ∧ |dlon| ≤ 1 ∧ 1 < |dlon| then false else c360
    c360 || decide (|range - 360| < 1)

/-- core.py:94-134 `_ensure_south_to_north`. -/
noncomputable def ensureSN (z : NDArr ℝ) (glat : List ℝ) (order : List Char) : Except GErr (NDArr ℝ × List ℝ) :=
  match glat with
  | [] => .error .index
  | g0 :: rest =>
    if g0 > (g0 :: rest).getLast (by simp) then
      if 'y' ∉ order.map Char.toLower then .error .noY
      else
        let ax := (order.map Char.toLower).idxOf 'y'
        if z.shape.length ≤ ax then .error .axis
        else .ok (flipAxis z ax, (g0 :: rest).reverse)
    else .ok (z, glat)

/-- A Fortran (1-based) vector from a Python list. -/
def fvec (l : List ℝ) : ℕ → ℝ := fun k => l.getD (k - 1) 0

/-- A kernel result: `none` = out-of-bounds access. -/
def orCrash {α : Type} : Option α → Except GErr α
  | some a => .ok a
  | none => .error .crash

/-- An `Option`-valued helper: `none` = it raised. -/
def orRaise {α : Type} (e : GErr) : Option α → Except GErr α
  | some a => .ok a
  | none => .error e

/-- core.py:250-260 `_calc_geostrophic_2d` and geostrophicwind_module.c `prepare_common_inputs`, `validate_dims_2d`. -/
noncomputable def calc2d (f32 : ℝ → ℝ) (z : NDArr ℝ) (glon glat : List ℝ) (missing : ℝ) (iopt : ℕ) (r0 : Rows) (zz0 : ℕ → ℕ → ℝ) :
    Except GErr (NDArr ℝ × NDArr ℝ) :=
  match z.shape with
  | [nlat, mlon] =>
    if mlon ≠ glon.length then .error .lonLength
    else if nlat ≠ glat.length then .error .latLength
    else (orCrash (z2geouv (fun i j => f32 (z.get [i - 1, j - 1])) nlat mlon missing (fvec glon) (fvec glat) iopt r0 zz0)).map fun w =>
      (⟨[nlat, mlon], fun idx => w.u (idx.getD 0 0 + 1) (idx.getD 1 0 + 1)⟩,
        ⟨[nlat, mlon], fun idx => w.v (idx.getD 0 0 + 1) (idx.getD 1 0 + 1)⟩)
  | _ => .error .ndim

/-- core.py:206-247 `_geostrophic_wind_multidim` and geostrophicwind_module.c `validate_dims_3d`. -/
noncomputable def multidim (f32 : ℝ → ℝ) (z : NDArr ℝ) (glon glat : List ℝ) (order : List Char) (missing : ℝ) (iopt : ℕ) (r0 : Rows)
    (zz0 : ℕ → ℕ → ℝ) (out0 : ℕ → Wind) : Except GErr (NDArr ℝ × NDArr ℝ) := do
  let (p, info) ← orRaise .prep (prepData z order)
  match p.shape with
  | [nlat, mlon, n3] =>
    if glat.length ≠ nlat then .error .latLength
    else if glon.length ≠ mlon then .error .lonLength
    else do
      let w ← orCrash (z2geouv3d (fun i j k => f32 (p.get [i - 1, j - 1, k - 1])) nlat mlon n3 missing (fvec glon) (fvec glat) iopt r0 zz0 out0)
      let u ← orRaise .recover (recoverData (⟨[nlat, mlon, n3], fun idx => (w (idx.getD 2 0 + 1)).u (idx.getD 0 0 + 1) (idx.getD 1 0 + 1)⟩ : NDArr ℝ) info)
      let v ← orRaise .recover (recoverData (⟨[nlat, mlon, n3], fun idx => (w (idx.getD 2 0 + 1)).v (idx.getD 0 0 + 1) (idx.getD 1 0 + 1)⟩ : NDArr ℝ) info)
      .ok (u, v)
  | _ => .error .ndim

/-- core.py:137-203 `geostrophic_wind`. -/
noncomputable def geostrophicWind (f32 : ℝ → ℝ) (z : NDArr ℝ) (glon glat : List ℝ) (order : List Char) (missing : ℝ) (r0 : Rows)
    (zz0 : ℕ → ℕ → ℝ) (out0 : ℕ → Wind) : Except GErr (NDArr ℝ × NDArr ℝ) := do
  let iopt := if isCyclic glon then 1 else 0
  let (z, glat) ← ensureSN z glat order
  if z.shape.length > 2 then multidim f32 z glon glat order missing iopt r0 zz0 out0
  else calc2d f32 z glon glat missing iopt r0 zz0

/-- core.py:352-373 `GeostrophicWind.speed` from the two components. -/
noncomputable def speed (u v : NDArr ℝ) (missing : ℝ) : NDArr ℝ :=
  ⟨u.shape, fun idx =>
    let uu := if u.get idx = missing then 0 else u.get idx
    let vv := if v.get idx = missing then 0 else v.get idx
    let s := Real.sqrt (uu ^ 2 + vv ^ 2)
    if u.get idx = missing ∨ v.get idx = missing then missing else s⟩

end Skyborn.Geo
