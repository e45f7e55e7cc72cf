/-
Model of /repo/src/skyborn/gridfill/_gridfill.pyx. Exact arithmetic over an ordered field `K`; `unsigned int` is `ℕ`
(all differences taken are of in-range indices and non-negative). The kernel is compiled with bounds checking off, so every
buffer access goes through `rd2`/`wr2`/`rd0`/`wr0`; `none` = access outside the buffer.
-/
import Verif.Common.Grid2
import Mathlib.Algebra.Order.Field.Basic
import Mathlib.Algebra.Order.Group.Unbundled.Abs

namespace Skyborn.Gridfill

open Skyborn

variable {K : Type} [Field K] [LinearOrder K]

/-- _gridfill.pyx:30-49 `int_sum`: per row, blocks of four (the `while j < nx_unroll` loop in counted form), then the rest. -/
def intSum (ny nx : ℕ) (a : ℕ → ℕ → ℤ) : Option ℤ :=
  forM 0 ny 0 fun i s => do
    let nxUnroll := nx - nx % 4
    let s ← forM 0 (nxUnroll / 4) s fun q s => do
      let j := 4 * q
      let a0 ← rd2 ny nx a i j
      let a1 ← rd2 ny nx a i (j + 1)
      let a2 ← rd2 ny nx a i (j + 2)
      let a3 ← rd2 ny nx a i (j + 3)
      return s + (a0 + a1 + a2 + a3)
    forM nxUnroll nx s fun j s => do
      let a0 ← rd2 ny nx a i j
      return s + a0

/-- _gridfill.pyx:52-76 `latitude_indices`: `(im1, ip1)`. -/
def latitudeIndices (index nlat : ℕ) : ℕ × ℕ :=
  (if index = 0 then 1 else index - 1, if index = nlat - 1 then nlat - 2 else index + 1)

/-- _gridfill.pyx:79-111 `longitude_indices`: `(jm1, jp1)`. -/
def longitudeIndices (index nlon : ℕ) (cyclic : Bool) : ℕ × ℕ :=
  if cyclic then
    (if index = 0 then nlon - 1 else index - 1, if index = nlon - 1 then 0 else index + 1)
  else
    (if index = 0 then 1 else index - 1, if index = nlon - 1 then nlon - 2 else index + 1)

/-- _gridfill.pyx:167-184: zonal-mean initialisation. -/
def initZonal (nlat nlon : ℕ) (mask : ℕ → ℕ → ℤ) (grid : ℕ → ℕ → K) : Option (ℕ → ℕ → K) :=
  forM 0 nlat grid fun i grid => do
    let (n, zonalMean) ← forM 0 nlon ((0 : ℕ), (0 : K)) fun j (s : ℕ × K) => do
      let m ← rd2 nlat nlon mask i j
      if m = 0 then
        let v ← rd2 nlat nlon grid i j
        return (s.1 + 1, s.2 + v)
      else return s
    if n > 0 then
      let zonalMean := zonalMean / (n : K)
      forM 0 nlon grid fun j grid => do
        let m ← rd2 nlat nlon mask i j
        if m ≠ 0 then wr2 nlat nlon grid i j zonalMean else return grid
    else return grid

/-- Segment tables of one row (_gridfill.pyx:162-165, 187-188): starts, start values, ends, end values and their counters. -/
structure Segs (K : Type) where
  s : ℕ → ℕ
  sVal : ℕ → K
  nS : ℕ
  e : ℕ → ℕ
  eVal : ℕ → K
  nE : ℕ

/-- _gridfill.pyx:189-198: the scan collecting segment starters and endings of row `i`. -/
def scanSegments (nlat nlon : ℕ) (cyclic : Bool) (mask : ℕ → ℕ → ℤ) (grid : ℕ → ℕ → K) (i : ℕ) (sg : Segs K) : Option (Segs K) :=
  forM 0 nlon { sg with nS := 0, nE := 0 } fun j sg => do
    let jm1 := (longitudeIndices j nlon cyclic).1
    let ml ← rd2 nlat nlon mask i jm1
    let m ← rd2 nlat nlon mask i j
    if ml = 0 ∧ m ≠ 0 then
      let v ← rd2 nlat nlon grid i jm1
      let s ← wr0 nlon sg.s sg.nS j
      let sv ← wr0 nlon sg.sVal sg.nS v
      return { sg with s := s, sVal := sv, nS := sg.nS + 1 }
    else if ml ≠ 0 ∧ m = 0 then
      let v ← rd2 nlat nlon grid i j
      let e ← wr0 nlon sg.e sg.nE j
      let ev ← wr0 nlon sg.eVal sg.nE v
      return { sg with e := e, eVal := ev, nE := sg.nE + 1 }
    else return sg

/-- _gridfill.pyx:207-210 (= 213-216, 218-223): `for jj in range(lo, hi): grid[i, jj] = njj*(ev - sv)/len + sv; njj += 1`. -/
def fillRun (nlat nlon i lo hi : ℕ) (sv ev : K) (len : ℕ) (st : (ℕ → ℕ → K) × ℕ) : Option ((ℕ → ℕ → K) × ℕ) :=
  forM lo hi st fun jj (st : (ℕ → ℕ → K) × ℕ) => do
    let g ← wr2 nlat nlon st.1 i jj ((st.2 : K) * (ev - sv) / (len : K) + sv)
    return (g, st.2 + 1)

/-- _gridfill.pyx:185-223: zonal-linear initialisation (the segment tables keep their contents from one row to the next). -/
def initZonalLinear (nlat nlon : ℕ) (cyclic : Bool) (initialValue : K) (mask : ℕ → ℕ → ℤ) (grid : ℕ → ℕ → K) :
    Option (ℕ → ℕ → K) := do
  let sg0 : Segs K := ⟨fun _ => 0, fun _ => 0, 0, fun _ => 0, fun _ => 0, 0⟩
  let r ← forM 0 nlat (grid, sg0) fun i (st : (ℕ → ℕ → K) × Segs K) => do
    let sg ← scanSegments nlat nlon cyclic mask st.1 i st.2
    if sg.nS = 0 then
      let g ← forM 0 nlon st.1 fun j grid => do
        let m ← rd2 nlat nlon mask i j
        if m ≠ 0 then wr2 nlat nlon grid i j initialValue else return grid
      return (g, sg)
    else if sg.nS = sg.nE then
      let s0 ← rd0 nlon sg.s 0
      let e0 ← rd0 nlon sg.e 0
      if s0 < e0 then
        let g ← forM 0 sg.nS st.1 fun j grid => do
          let s ← rd0 nlon sg.s j
          let e ← rd0 nlon sg.e j
          let sv ← rd0 nlon sg.sVal j
          let ev ← rd0 nlon sg.eVal j
          let r ← fillRun nlat nlon i s e sv ev (e - s) (grid, 0)
          return r.1
        return (g, sg)
      else
        let g ← forM 0 (sg.nS - 1) st.1 fun j grid => do
          let s ← rd0 nlon sg.s j
          let e ← rd0 nlon sg.e (j + 1)
          let sv ← rd0 nlon sg.sVal j
          let ev ← rd0 nlon sg.eVal (j + 1)
          let r ← fillRun nlat nlon i s e sv ev (e - s) (grid, 0)
          return r.1
        let s ← rd0 nlon sg.s (sg.nS - 1)
        let sv ← rd0 nlon sg.sVal (sg.nS - 1)
        let ev ← rd0 nlon sg.eVal 0
        let r ← fillRun nlat nlon i s nlon sv ev (nlon - s + e0) (g, 0)
        let r ← fillRun nlat nlon i 0 e0 sv ev (nlon - s + e0) r
        return (r.1, sg)
    else return (st.1, sg)
  return r.1

/-- _gridfill.pyx:224-229: constant initialisation. -/
def initConst (nlat nlon : ℕ) (initialValue : K) (mask : ℕ → ℕ → ℤ) (grid : ℕ → ℕ → K) : Option (ℕ → ℕ → K) :=
  forM 0 nlat grid fun i grid =>
    forM 0 nlon grid fun j grid => do
      let m ← rd2 nlat nlon mask i j
      if m ≠ 0 then wr2 nlat nlon grid i j initialValue else return grid

/-- _gridfill.pyx:114-229 `initialize_missing`. -/
def initializeMissing (nlat nlon : ℕ) (initzonal initzonalLinear cyclic : Bool) (initialValue : K) (mask : ℕ → ℕ → ℤ)
    (grid : ℕ → ℕ → K) : Option (ℕ → ℕ → K) :=
  if initzonal then initZonal nlat nlon mask grid
  else if initzonalLinear then initZonalLinear nlat nlon cyclic initialValue mask grid
  else initConst nlat nlon initialValue mask grid

/-- _gridfill.pyx:319-326: the body of the sweep at point `(i, j)`; state = grid and running maximum residual. -/
def relaxPoint (nlat nlon : ℕ) (cyclic : Bool) (relaxc : K) (mask : ℕ → ℕ → ℤ) (i j : ℕ) (st : (ℕ → ℕ → K) × K) :
    Option ((ℕ → ℕ → K) × K) := do
  let (im1, ip1) := latitudeIndices i nlat
  let m ← rd2 nlat nlon mask i j
  if m ≠ 0 then
    let (jm1, jp1) := longitudeIndices j nlon cyclic
    let a ← rd2 nlat nlon st.1 im1 j
    let b ← rd2 nlat nlon st.1 ip1 j
    let c ← rd2 nlat nlon st.1 i jm1
    let d ← rd2 nlat nlon st.1 i jp1
    let x ← rd2 nlat nlon st.1 i j
    let residual := (1 / 4 * (a + b + c + d) - x) * relaxc
    let g ← wr2 nlat nlon st.1 i j (x + residual)
    return (g, max |residual| st.2)
  else return st

/-- _gridfill.pyx:313, 316-326: one sweep over the grid. -/
def sweep (nlat nlon : ℕ) (cyclic : Bool) (relaxc : K) (mask : ℕ → ℕ → ℤ) (grid : ℕ → ℕ → K) : Option ((ℕ → ℕ → K) × K) :=
  forM 0 nlat (grid, (0 : K)) fun i st => forM 0 nlon st fun j st => relaxPoint nlat nlon cyclic relaxc mask i j st

/-- _gridfill.pyx:308-333: the `while _numiter < itermax` loop; `left` = sweeps left, state = grid, `_numiter`, `_resmax`. -/
def relaxLoop (nlat nlon : ℕ) (cyclic : Bool) (relaxc tolerance : K) (mask : ℕ → ℕ → ℤ) :
    (left : ℕ) → (ℕ → ℕ → K) → ℕ → K → Option ((ℕ → ℕ → K) × ℕ × K)
  | 0, grid, numiter, resmax => some (grid, numiter, resmax)
  | left + 1, grid, numiter, _ => do
    let (g, r) ← sweep nlat nlon cyclic relaxc mask grid
    if r ≤ tolerance then return (g, numiter + 1, r)
    else relaxLoop nlat nlon cyclic relaxc tolerance mask left g (numiter + 1) r

/-- Relaxation settings passed down by `fill`. -/
structure Opts (K : Type) where
  relaxc : K
  tolerance : K
  itermax : ℕ
  cyclic : Bool
  initzonal : Bool
  initzonalLinear : Bool
  initialValue : K

/-- _gridfill.pyx:232-333 `poisson_fill`: `(grid, numiter, resmax)`. -/
def poissonFill (nlat nlon : ℕ) (o : Opts K) (mask : ℕ → ℕ → ℤ) (grid : ℕ → ℕ → K) : Option ((ℕ → ℕ → K) × ℕ × K) := do
  let total ← intSum nlat nlon mask
  if total = 0 then return (grid, 0, 0)
  else
    let g ← initializeMissing nlat nlon o.initzonal o.initzonalLinear o.cyclic o.initialValue mask grid
    relaxLoop nlat nlon o.cyclic o.relaxc o.tolerance mask o.itermax g 0 0

end Skyborn.Gridfill
