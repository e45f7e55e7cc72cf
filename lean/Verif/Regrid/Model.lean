/-
Model of /repo/src/skyborn/interp/regrid_module.c and of the numeric part of /repo/src/skyborn/interp/regridding.py.

Exact arithmetic; NaN in a field is `none`, coordinates and weights are finite. A C array is a flat buffer `ℕ → α` with its
length; every access goes through `rd0`/`wr0` (`none` = access outside the buffer). `PyMem_Malloc`/numpy allocation failures,
reference counting, dtype conversion, the limit NPY_MAXDIMS and the GIL are not modelled.
-/
import Verif.Common.Grid2
import Verif.Common.ND
import Mathlib.Algebra.Order.Floor.Ring
import Mathlib.Algebra.Order.Field.Basic
import Mathlib.Analysis.SpecialFunctions.Trigonometric.Basic

namespace Skyborn.Regrid

open Skyborn

/-- Ways in which a call raises; `fault` stands for an access outside a buffer (undefined behaviour in C). -/
inductive RErr where
  | valueError | fault
  deriving DecidableEq

/-- A kernel loop run inside a wrapper. -/
def run {α : Type} : Option α → Except RErr α
  | some a => .ok a
  | none => .error .fault

section Generic
variable {K : Type} [Field K] [LinearOrder K]

/-- regrid_module.c:12-21 `is_strictly_increasing`. -/
def isStrictlyIncreasing (n : ℕ) (values : ℕ → K) : Option Bool :=
  if n ≤ 1 then some true
  else forM 1 n true fun i ok =>
    if ok then do
      let a ← rd0 n values i
      let b ← rd0 n values (i - 1)
      return decide (a > b)
    else return false

/-- regrid_module.c:23-58 `normalize_weight_rows` (in place; the array after the call). -/
def normalizeWeightRows (nrows ncols : ℕ) (w : ℕ → K) : Except RErr (ℕ → K) :=
  if ncols = 0 then .error .valueError
  else run <| forM 0 nrows w fun i w => do
    let rowSum ← forM 0 ncols (0 : K) fun j s => do
      let x ← rd0 (nrows * ncols) w (i * ncols + j)
      return s + x
    if rowSum > 1 / 10 ^ 15 then
      forM 0 ncols w fun j w => do
        let x ← rd0 (nrows * ncols) w (i * ncols + j)
        wr0 (nrows * ncols) w (i * ncols + j) (x / rowSum)
    else
      let uniform := 1 / (ncols : K)
      forM 0 ncols w fun j w => wr0 (nrows * ncols) w (i * ncols + j) uniform

/-- regrid_module.c:107-115: cell bounds of a latitude axis; `halfpi` = `M_PI / 2.0`, `bounds` = the uninitialised buffer of
length `n + 1`. -/
def latBounds (halfpi : K) (n : ℕ) (x bounds : ℕ → K) : Option (ℕ → K) := do
  let b ← wr0 (n + 1) bounds 0 (-halfpi)
  let b ← wr0 (n + 1) b n halfpi
  forM 1 n b fun i b => do
    let u ← rd0 n x (i - 1)
    let v ← rd0 n x i
    wr0 (n + 1) b i (1 / 2 * (u + v))

/-- regrid_module.c:127-136: the latitude overlap matrix. -/
def latOverlap (sin : K → K) (nsrc ntgt : ℕ) (sb tb w : ℕ → K) : Option (ℕ → K) :=
  forM 0 ntgt w fun itgt w => forM 0 nsrc w fun isrc w => do
    let t1 ← rd0 (ntgt + 1) tb (itgt + 1)
    let s1 ← rd0 (nsrc + 1) sb (isrc + 1)
    let t0 ← rd0 (ntgt + 1) tb itgt
    let s0 ← rd0 (nsrc + 1) sb isrc
    let upper := min t1 s1
    let lower := max t0 s0
    let overlap := if upper > lower then sin upper - sin lower else 0
    wr0 (ntgt * nsrc) w (itgt * nsrc + isrc) overlap

/-- regrid_module.c:60-155 `conservative_latitude_weights`; `sin`, `halfpi` stand for the C library's `sin` and `M_PI / 2`
(instantiated with the real functions in the theorems). -/
def latitudeWeights (sin : K → K) (halfpi : K) (nsrc : ℕ) (src : ℕ → K) (ntgt : ℕ) (tgt : ℕ → K) : Except RErr (ℕ → K) :=
  if nsrc = 0 ∨ ntgt = 0 then .error .valueError
  else do
    let a ← run (isStrictlyIncreasing nsrc src)
    let b ← run (isStrictlyIncreasing ntgt tgt)
    if a && b then do
      let sb ← run (latBounds halfpi nsrc src fun _ => 0)
      let tb ← run (latBounds halfpi ntgt tgt fun _ => 0)
      let w ← run (latOverlap sin nsrc ntgt sb tb fun _ => 0)
      normalizeWeightRows ntgt nsrc w
    else .error .valueError

/-- regrid_module.c:157-163 `align_phase_with`. -/
def alignPhase (x target period : K) : K :=
  let x := if x > target + period / 2 then x - period else x
  if x < target - period / 2 then x + period else x

section Lon
variable [FloorRing K]

/-- regrid_module.c:220-229: `fmod` (truncation towards zero) followed by the correction of negative remainders. -/
def modPeriod (x period : K) : K :=
  let r := x - period * (if 0 ≤ x / period then (⌊x / period⌋ : K) else (⌈x / period⌉ : K))
  if r < 0 then r + period else r

/-- regrid_module.c:220-229: the reduced coordinates. -/
def modAll (n : ℕ) (x buf : ℕ → K) (period : K) : Option (ℕ → K) :=
  forM 0 n buf fun i b => do
    let v ← rd0 n x i
    wr0 n b i (modPeriod v period)
end Lon

/-- regrid_module.c:231-245: `(lower, upper)` bounds of the cells of a periodic axis. -/
def lonBounds (period : K) (n : ℕ) (m lower upper : ℕ → K) : Option ((ℕ → K) × (ℕ → K)) :=
  forM 0 n (lower, upper) fun i s => do
    let c ← rd0 n m i
    let p ← rd0 n m ((i + 1) % n)
    let q ← rd0 n m ((i + n - 1) % n)
    let xPlus := alignPhase p c period
    let xMinus := alignPhase q c period
    let up ← wr0 n s.2 i (1 / 2 * (c + xPlus))
    let lo ← wr0 n s.1 i (1 / 2 * (xMinus + c))
    return (lo, up)

/-- regrid_module.c:265-270: overlap of one target cell `[x0, x1]` with one source cell `[y0, y1]`. -/
def periodicOverlap (x0 x1 y0 y1 period : K) : K :=
  let y0 := alignPhase y0 x0 period
  let y1 := alignPhase y1 x0 period
  let overlap := min x1 y1 - max x0 y0
  if overlap > 0 then overlap else 0

/-- regrid_module.c:261-273: the longitude overlap matrix. -/
def lonOverlap (period : K) (nsrc ntgt : ℕ) (sl su tl tu w : ℕ → K) : Option (ℕ → K) :=
  forM 0 ntgt w fun itgt w => forM 0 nsrc w fun isrc w => do
    let a ← rd0 nsrc sl isrc
    let b ← rd0 nsrc su isrc
    let c ← rd0 ntgt tl itgt
    let d ← rd0 ntgt tu itgt
    wr0 (ntgt * nsrc) w (itgt * nsrc + isrc) (periodicOverlap c d a b period)

/-- regrid_module.c:165-295 `conservative_longitude_weights`; `period` = `2 * M_PI`. -/
def longitudeWeights [FloorRing K] (period : K) (nsrc : ℕ) (src : ℕ → K) (ntgt : ℕ) (tgt : ℕ → K) : Except RErr (ℕ → K) :=
  if nsrc = 0 ∨ ntgt = 0 then .error .valueError
  else do
    let a ← run (isStrictlyIncreasing nsrc src)
    let b ← run (isStrictlyIncreasing ntgt tgt)
    if a && b then do
      let sm ← run (modAll nsrc src (fun _ => 0) period)
      let tm ← run (modAll ntgt tgt (fun _ => 0) period)
      let s ← run (lonBounds period nsrc sm (fun _ => 0) fun _ => 0)
      let t ← run (lonBounds period ntgt tm (fun _ => 0) fun _ => 0)
      let w ← run (lonOverlap period nsrc ntgt s.1 s.2 t.1 t.2 fun _ => 0)
      normalizeWeightRows ntgt nsrc w
    else .error .valueError

/-- regrid_module.c:393-415 (and 417-439 for latitude): first and one-past-last positive weight of every row, the whole row
when no weight is positive. -/
def scanRows (ntgt nsrc : ℕ) (w : ℕ → K) (start stop : ℕ → ℕ) : Option ((ℕ → ℕ) × (ℕ → ℕ)) :=
  forM 0 ntgt (start, stop) fun itgt st => do
    let r ← forM 0 nsrc (nsrc, 0) fun isrc (r : ℕ × ℕ) => do
      let x ← rd0 (ntgt * nsrc) w (itgt * nsrc + isrc)
      if x > 0 then return (if r.1 = nsrc then isrc else r.1, isrc + 1) else return r
    let r := if r.1 = nsrc then (0, nsrc) else r
    let a ← wr0 ntgt st.1 itgt r.1
    let b ← wr0 ntgt st.2 itgt r.2
    return (a, b)

/-- regrid_module.c:446-472: reduction of one slice along latitude into `tmp_total`, `tmp_count`. -/
def reduceLat (size off nsl nsa nta : ℕ) (field : ℕ → Option K) (latW : ℕ → K) (la lb : ℕ → ℕ) (tmp : (ℕ → K) × (ℕ → K)) :
    Option ((ℕ → K) × (ℕ → K)) :=
  forM 0 nsl tmp fun isl tmp => forM 0 nta tmp fun ita tmp => do
    let b ← rd0 nta la ita
    let e ← rd0 nta lb ita
    let r ← forM b e ((0 : K), (0 : K)) fun isa (r : K × K) => do
      let value ← rd0 size field (off + (isl * nsa + isa))
      let weight ← rd0 (nta * nsa) latW (ita * nsa + isa)
      match value with
      | some v => return (r.1 + weight * v, r.2 + weight)
      | none => return r
    let t ← wr0 (nsl * nta) tmp.1 (isl * nta + ita) r.1
    let c ← wr0 (nsl * nta) tmp.2 (isl * nta + ita) r.2
    return (t, c)

/-- regrid_module.c:474-495: reduction along longitude into the output slice starting at `off`. -/
def reduceLon (size off nsl ntl nta : ℕ) (lonW : ℕ → K) (la lb : ℕ → ℕ) (tmp : (ℕ → K) × (ℕ → K)) (out : ℕ → Option K) :
    Option (ℕ → Option K) :=
  forM 0 ntl out fun itl out => do
    let b ← rd0 ntl la itl
    let e ← rd0 ntl lb itl
    forM 0 nta out fun ita out => do
      let r ← forM b e ((0 : K), (0 : K)) fun isl (r : K × K) => do
        let weight ← rd0 (ntl * nsl) lonW (itl * nsl + isl)
        let t ← rd0 (nsl * nta) tmp.1 (isl * nta + ita)
        let c ← rd0 (nsl * nta) tmp.2 (isl * nta + ita)
        return (r.1 + weight * t, r.2 + weight * c)
      wr0 size out (off + (itl * nta + ita)) (if r.2 > 0 then some (r.1 / r.2) else none)

/-- regrid_module.c:391-496: the body of `conservative_regrid` after the shape checks. `outer` = number of leading slices,
(`nsl`, `nsa`) the source, (`ntl`, `nta`) the target numbers of longitudes and latitudes. -/
def conservativeCore (outer nsl nsa ntl nta : ℕ) (field : ℕ → Option K) (lonW latW : ℕ → K) : Option (ℕ → Option K) := do
  let lon ← scanRows ntl nsl lonW (fun _ => 0) fun _ => 0
  let lat ← scanRows nta nsa latW (fun _ => 0) fun _ => 0
  let r ← forM 0 outer ((fun _ => none : ℕ → Option K), ((fun _ => 0 : ℕ → K), (fun _ => 0 : ℕ → K))) fun o st => do
    let tmp ← reduceLat (outer * (nsl * nsa)) (o * (nsl * nsa)) nsl nsa nta field latW lat.1 lat.2 st.2
    let out ← reduceLon (outer * (ntl * nta)) (o * (ntl * nta)) nsl ntl nta lonW lon.1 lon.2 tmp st.1
    return (out, tmp)
  return r.1

/-- regrid_module.c:545-556: the binary search. -/
def bracketLoop (n : ℕ) (values : ℕ → K) (x : K) (lo hi : ℕ) : Option ℕ :=
  if hi - lo > 1 then do
    let mid := lo + (hi - lo) / 2
    let v ← rd0 n values mid
    if v ≤ x then bracketLoop n values x mid hi else bracketLoop n values x lo mid
  else some lo
termination_by hi - lo
decreasing_by all_goals omega

/-- regrid_module.c:522-569 `bracket_clamped`: outer `none` = access outside the buffer, inner `none` = return value -1. -/
def bracketClamped (x : K) (n : ℕ) (values : ℕ → K) : Option (Option (ℕ × K)) :=
  if n ≤ 1 then some (some (0, 0))
  else do
    let first ← rd0 n values 0
    if x ≤ first then return some (0, 0)
    else do
      let last ← rd0 n values (n - 1)
      if x ≥ last then return some (n - 2, 1)
      else do
        let lo ← bracketLoop n values x 0 (n - 1)
        let a ← rd0 n values (lo + 1)
        let b ← rd0 n values lo
        let denom := a - b
        if denom ≤ 0 then return none else return some (lo, (x - b) / denom)

/-- `a + frac * (b - a)` in floating point: NaN as soon as `a` or `b` is NaN. -/
def lerp (frac : K) (a b : Option K) : Option K := a.bind fun a => b.map fun b => a + frac * (b - a)

/-- regrid_module.c:571-617 `bilinear_regrid_2d_core` on the slices of `field` and `out` starting at `foff`, `ooff`; outer
`none` = fault, inner `none` = return value -1. -/
def bilinearCore (fsize foff osize ooff nsl nsa : ℕ) (field : ℕ → Option K) (srcLon srcLat : ℕ → K) (ntl nta : ℕ)
    (tgtLon tgtLat : ℕ → K) (out : ℕ → Option K) : Option (Option (ℕ → Option K)) :=
  forM 0 ntl (some out) fun ilon st => match st with
    | none => some none
    | some out => do
      let tl ← rd0 ntl tgtLon ilon
      match ← bracketClamped tl nsl srcLon with
      | none => return none
      | some (lonLeft, lonFrac) =>
        let lonRight := if nsl > 1 then lonLeft + 1 else lonLeft
        forM 0 nta (some out) fun ilat st => match st with
          | none => some none
          | some out => do
            let ta ← rd0 nta tgtLat ilat
            match ← bracketClamped ta nsa srcLat with
            | none => return none
            | some (latLeft, latFrac) =>
              let latRight := if nsa > 1 then latLeft + 1 else latLeft
              let v00 ← rd0 fsize field (foff + (lonLeft * nsa + latLeft))
              let v10 ← rd0 fsize field (foff + (lonRight * nsa + latLeft))
              let v01 ← rd0 fsize field (foff + (lonLeft * nsa + latRight))
              let v11 ← rd0 fsize field (foff + (lonRight * nsa + latRight))
              let v0 := lerp lonFrac v00 v10
              let v1 := lerp lonFrac v01 v11
              let out ← wr0 osize out (ooff + (ilon * nta + ilat)) (lerp latFrac v0 v1)
              return some out

/-- regrid_module.c:718-853 `bilinear_regrid_nd` on a field with `outer` leading slices whose trailing shape matches the source
axes (619-716 `bilinear_regrid` is the case `outer = 1`). -/
def bilinearNative (outer nsl nsa : ℕ) (field : ℕ → Option K) (srcLon srcLat : ℕ → K) (ntl nta : ℕ) (tgtLon tgtLat : ℕ → K) :
    Except RErr (ℕ → Option K) :=
  if nsl = 0 ∨ nsa = 0 ∨ ntl = 0 ∨ nta = 0 then .error .valueError
  else do
    let a ← run (isStrictlyIncreasing nsl srcLon)
    let b ← run (isStrictlyIncreasing nsa srcLat)
    let c ← run (isStrictlyIncreasing ntl tgtLon)
    let d ← run (isStrictlyIncreasing nta tgtLat)
    if a && b && c && d then do
      let r ← run <| forM 0 outer (some fun _ => none : Option (ℕ → Option K)) fun o st => match st with
        | none => some none
        | some out => bilinearCore (outer * (nsl * nsa)) (o * (nsl * nsa)) (outer * (ntl * nta)) (o * (ntl * nta)) nsl nsa field
            srcLon srcLat ntl nta tgtLon tgtLat out
      match r with
      | some out => return out
      | none => .error .valueError
    else .error .valueError

end Generic

/-- regrid_module.c:1013-1120 `nearest_regrid_apply` on a field with `outer` leading slices of `nsrc` elements; `idx` holds
`nidx` (possibly negative) indices; the result has `outer * ntgt` elements. (`none` elements of the output buffer are
uninitialised memory.) -/
def nearestApply {α : Type} (outer nsrc : ℕ) (field : ℕ → α) (nidx : ℕ) (idx : ℕ → ℤ) (ntl nta : ℕ) :
    Except RErr (ℕ → Option α) :=
  if ntl = 0 ∨ nta = 0 then .error .valueError
  else if nidx ≠ ntl * nta then .error .valueError
  else do
    let ok ← run <| forM 0 nidx true fun i ok =>
      if ok then do
        let k ← rd0 nidx idx i
        return !(decide (k < 0) || decide (k ≥ nsrc))
      else return false
    if ok then
      run <| forM 0 outer (fun _ => none : ℕ → Option α) fun o out => forM 0 (ntl * nta) out fun t out => do
        let k ← rd0 nidx idx t
        let v ← if 0 ≤ k then rd0 (outer * nsrc) field (o * nsrc + k.toNat) else none
        wr0 (outer * (ntl * nta)) out (o * (ntl * nta) + t) (some v)
    else .error .valueError

/-- regrid_module.c:954-990: the search for one target point. The tables of sines and cosines (933-952) are inlined. -/
noncomputable def nearestOne (nsl nsa : ℕ) (srcLon srcLat : ℕ → ℝ) (tlon tlat : ℝ) : Option ℕ := do
  let r ← forM 0 nsl (((-2 : ℝ), (0 : ℕ))) fun isl r => do
    let sl ← rd0 nsl srcLon isl
    let cosDlon := Real.cos tlon * Real.cos sl + Real.sin tlon * Real.sin sl
    forM 0 nsa r fun isa (r : ℝ × ℕ) => do
      let sa ← rd0 nsa srcLat isa
      let score := Real.sin tlat * Real.sin sa + Real.cos tlat * Real.cos sa * cosDlon
      let cur := isl * nsa + isa
      if score > r.1 ∨ (|score - r.1| ≤ 1 / 10 ^ 15 ∧ cur < r.2) then return (score, cur) else return r
  return r.2

/-- regrid_module.c:855-1011 `nearest_neighbor_indices`. -/
noncomputable def nearestIndices (nsl nsa : ℕ) (srcLon srcLat : ℕ → ℝ) (ntl nta : ℕ) (tgtLon tgtLat : ℕ → ℝ) :
    Except RErr (ℕ → ℕ) :=
  if nsl = 0 ∨ nsa = 0 ∨ ntl = 0 ∨ nta = 0 then .error .valueError
  else run <| forM 0 ntl (fun _ => 0 : ℕ → ℕ) fun il ind => do
    let tl ← rd0 ntl tgtLon il
    forM 0 nta ind fun ia ind => do
      let ta ← rd0 nta tgtLat ia
      let k ← nearestOne nsl nsa srcLon srcLat tl ta
      wr0 (ntl * nta) ind (il * nta + ia) k

end Skyborn.Regrid
