/-
Model of the conversions between curvilinear and rectilinear grids and from curvilinear grids to points:
/repo/src/skyborn/interp/rcm2rgrid.py, rcm2points.py, their C bindings rcm2rgrid_module.c and rcm2points_module.c, and their Fortran kernels
fortran/rcm2rgrid.f90, fortran/rcm2points.f90, fortran/rcm_geodesy.f90, fortran/linmsg_dp.f90 (and `dmonoinc` of fortran/linint2.f90).

Simplifications: float64 data only; numbers are reals (no rounding, no overflow); a missing value is the number `xmsg`, as in the kernels;
data in which a NaN remains because the caller declared another missing value are not modelled. Fortran arrays are functions with 1-based
indices; an access outside the bounds makes the result `none`. `.and.` is evaluated from the left and stops at the first false operand.
Loops over output points and over fields whose iterations touch only their own element are functions of the element. dask, xarray
metadata and the unused arguments `opt` of the grid kernels are not modelled.
-/
import Verif.Common.Loops
import Verif.Common.ND
import Mathlib.Analysis.SpecialFunctions.Complex.Arg
import Mathlib.Analysis.SpecialFunctions.Trigonometric.Basic
import Mathlib.Analysis.SpecialFunctions.Trigonometric.Arctan

namespace Skyborn.Rcm

open Classical

/-! ### Distances (rcm_geodesy.f90) -/

/-- `atan2(y, x)`. -/
noncomputable def atan2 (y x : ℝ) : ℝ := Complex.arg ⟨x, y⟩

/-- rcm_geodesy.f90:22-48 `dgcdist_core` with `iu = 2` (degrees). -/
noncomputable def dgcdist (rlat1 rlon1 rlat2 rlon2 : ℝ) : ℝ :=
  if rlat1 = rlat2 ∧ rlon1 = rlon2 then 0
  else
    let rad : ℝ := 0.01745329238474369
    let a := rlat1 * rad
    let b := rlat2 * rad
    let d := min (min |rlon1 - rlon2| |360 - rlon1 + rlon2|) |360 - rlon2 + rlon1| * rad
    atan2 (Real.sqrt ((Real.cos b * Real.sin d) ^ 2 + (Real.cos a * Real.sin b - Real.sin a * Real.cos b * Real.cos d) ^ 2))
      (Real.sin a * Real.sin b + Real.cos a * Real.cos b * Real.cos d) * 57.29577995691645

/-! ### Filling short gaps (linmsg_dp.f90) -/

/-- `x(lo:hi) = v`. -/
def setRange (x : ℕ → ℝ) (lo hi : ℕ) (v : ℝ) : ℕ → ℝ := fun i => if lo ≤ i ∧ i ≤ hi then v else x i

/-- linmsg_dp.f90:52-83: the state of the loop of `dlinmsg`. -/
structure Lin where
  x : ℕ → ℝ
  nstrt : ℕ
  nend : ℕ
  seen : Bool

/-- linmsg_dp.f90:66-72: the interpolation of one gap (`nbase = nstrt - 1`). -/
noncomputable def ramp (x : ℕ → ℝ) (nstrt nend n : ℕ) : ℕ → ℝ :=
  let nbase := nstrt - 1
  let slope := (x n - x nbase) / ((n : ℝ) - nbase)
  fun nn => if nstrt ≤ nn ∧ nn ≤ nend then x nbase + slope * ((nn : ℝ) - nbase) else x nn

/-- linmsg_dp.f90:57-83: one iteration of the loop of `dlinmsg`. -/
noncomputable def linStep (xmsg : ℝ) (mflag mptcrt : ℤ) (n : ℕ) (s : Lin) : Lin :=
  if s.x n = xmsg then ⟨s.x, if s.nstrt = 0 then n else s.nstrt, n, s.seen⟩
  else if s.nstrt ≠ 0 then
    let x := if ((s.nend : ℤ) - s.nstrt + 1) ≤ |mptcrt| then
        if s.nstrt = 1 then
          if mflag < 0 then setRange s.x s.nstrt s.nend (s.x n) else setRange s.x s.nstrt s.nend xmsg
        else ramp s.x s.nstrt s.nend n
      else s.x
    ⟨x, 0, 0, true⟩
  else ⟨s.x, s.nstrt, s.nend, true⟩

/-- linmsg_dp.f90:39-94 `dlinmsg`. -/
noncomputable def dlinmsg (x : ℕ → ℝ) (npts : ℕ) (xmsg : ℝ) (mflag mptcrt : ℤ) : ℕ → ℝ :=
  let s := doLoop 1 npts (⟨x, 0, 0, false⟩ : Lin) fun n s => linStep xmsg mflag mptcrt n s
  if s.nstrt ≠ 0 ∧ s.nend = npts then
    if s.seen = false then s.x
    else if mflag < 0 then setRange s.x s.nstrt npts (s.x (s.nstrt - 1))
    else setRange s.x s.nstrt npts xmsg
  else s.x

/-- linmsg_dp.f90:118-120: the end of a run of missing values. -/
noncomputable def gapEnd (x : ℕ → ℝ) (npts : ℕ) (xmsg : ℝ) (n : ℕ) : ℕ :=
  if n ≤ npts ∧ x n = xmsg then gapEnd x npts xmsg (n + 1) else n
termination_by npts + 1 - n

theorem le_gapEnd (x : ℕ → ℝ) (npts : ℕ) (xmsg : ℝ) (n : ℕ) : n ≤ gapEnd x npts xmsg n := by
  induction n using gapEnd.induct x npts xmsg with
  | case1 n h ih => rw [gapEnd, if_pos h]; omega
  | case2 n h => rw [gapEnd, if_neg h]

theorem lt_gapEnd {x : ℕ → ℝ} {npts : ℕ} {xmsg : ℝ} {n : ℕ} (h : n ≤ npts) (h' : x n = xmsg) : n < gapEnd x npts xmsg n := by
  rw [gapEnd, if_pos ⟨h, h'⟩]
  have := le_gapEnd x npts xmsg (n + 1)
  omega

/-- linmsg_dp.f90:122-136: one gap from `g` to `n - 1`. -/
noncomputable def fillGap (x : ℕ → ℝ) (npts : ℕ) (xmsg : ℝ) (g n : ℕ) : ℕ → ℝ :=
  if n > npts ∨ n - g > 2 then x
  else if x (g - 1) = xmsg ∨ x n = xmsg then x
  else if n - g = 1 then Function.update x g (0.5 * (x (g - 1) + x n))
  else
    let step := (x n - x (g - 1)) / 3
    Function.update (Function.update x g (x (g - 1) + step)) (g + 1) (x (g - 1) + 2 * step)

/-- linmsg_dp.f90:110-137: the loop `do while (n <= npts - 1)`. -/
noncomputable def gapLoop (npts : ℕ) (xmsg : ℝ) (x : ℕ → ℝ) (n : ℕ) : ℕ → ℝ :=
  if h : n + 1 ≤ npts then
    if h' : x n ≠ xmsg then gapLoop npts xmsg x (n + 1)
    else gapLoop npts xmsg (fillGap x npts xmsg n (gapEnd x npts xmsg n)) (gapEnd x npts xmsg n)
  else x
termination_by npts + 1 - n
decreasing_by
  · omega
  · have := lt_gapEnd (x := x) (npts := npts) (xmsg := xmsg) (n := n) (by omega) (not_not.mp h')
    omega

/-- linmsg_dp.f90:99-138 `dlinmsg_interior_short_gaps`. -/
noncomputable def shortGaps (x : ℕ → ℝ) (npts : ℕ) (xmsg : ℝ) : ℕ → ℝ :=
  if npts ≤ 2 then x else gapLoop npts xmsg x 2

/-! ### Searching (rcm2rgrid.f90, rcm2points.f90) -/

/-- Bounds-checked element of an `nx` by `ny` array. -/
def at2 {α : Type} (nx ny : ℕ) (a : ℕ → ℕ → α) (i j : ℕ) : Option α :=
  if (1 ≤ i ∧ i ≤ nx) ∧ (1 ≤ j ∧ j ≤ ny) then some (a i j) else none

/-- rcm2rgrid.f90:30-35: the loop of `is_strictly_increasing` (= rcm2points.f90:30-35), from `i` with `left` passes left. -/
noncomputable def incLoop (n : ℕ) (x : ℕ → ℝ) : (left i : ℕ) → Option Bool
  | 0, _ => some true
  | left + 1, i => do
    let b ← rd n x (i + 1)
    let a ← rd n x i
    if b ≤ a then some false else incLoop n x left (i + 1)

/-- rcm2rgrid.f90:23-36 `is_strictly_increasing` (= rcm2points.f90:20-36). -/
noncomputable def isIncreasing (n : ℕ) (x : ℕ → ℝ) : Option Bool := if n ≤ 1 then some true else incLoop n x (n - 1) 1

/-- rcm2rgrid.f90:62-70: the binary search (= rcm2points.f90:60-68). -/
noncomputable def bisect (n : ℕ) (x : ℕ → ℝ) (value : ℝ) (lo hi : ℕ) : Option ℕ :=
  if _h : hi - lo > 1 then
    match rd n x ((lo + hi) / 2) with
    | none => none
    | some a => if a ≤ value then bisect n x value ((lo + hi) / 2) hi else bisect n x value lo ((lo + hi) / 2)
  else some lo
termination_by hi - lo
decreasing_by all_goals omega

/-- rcm2rgrid.f90:40-73 `lower_bracket_increasing` (= rcm2points.f90:40-71). -/
noncomputable def lowerBracket (n : ℕ) (x : ℕ → ℝ) (value : ℝ) : Option ℕ :=
  if n ≤ 1 then some 1
  else do
    let x1 ← rd n x 1
    if value ≤ x1 then some 1
    else do
      let xn ← rd n x n
      if value ≥ xn then some (n - 1) else bisect n x value 1 n

/-- rcm2points.f90:75-89 `earliest_stride_candidate`. -/
noncomputable def earliest (n : ℕ) (x : ℕ → ℝ) (value : ℝ) (stride : ℕ) : Option ℕ :=
  if n ≤ stride then some 1
  else do
    let base ← lowerBracket n x value
    some (max 1 (min (n - stride) (base + 1 - stride)))

/-- rcm2rgrid.f90:119-121: the walk of the cursor. -/
noncomputable def walk (n : ℕ) (x : ℕ → ℝ) (v : ℝ) (cursor : ℕ) : Option ℕ :=
  if _h : cursor < n - 1 then
    match rd n x (cursor + 1) with
    | none => none
    | some a => if a ≤ v then walk n x v (cursor + 1) else some cursor
  else some cursor
termination_by n - cursor

/-- rcm2rgrid.f90:98-127 `build_stride_candidates_increasing`; the state is `cursor` and `idx`. -/
noncomputable def candidates (n : ℕ) (x : ℕ → ℝ) (m : ℕ) (values : ℕ → ℝ) (stride : ℕ) (idx : ℕ → ℕ) : Option (ℕ → ℕ) :=
  if n ≤ stride then some fun _ => 1
  else do
    let s ← doLoopM 1 m ((1, idx) : ℕ × (ℕ → ℕ)) fun j s => do
      let v ← rd m values j
      let x1 ← rd n x 1
      let xn ← rd n x n
      if v ≤ x1 then some (s.1, Function.update s.2 j (max 1 (min (n - stride) (1 + 1 - stride))))
      else if v ≥ xn then some (n - 1, Function.update s.2 j (max 1 (min (n - stride) (n - 1 + 1 - stride))))
      else do
        let c ← walk n x v s.1
        some (c, Function.update s.2 j (max 1 (min (n - stride) (c + 1 - stride))))
    some s.2

/-- The pairs `(ix, iy)` in the order of `do iy = iy_lo, iy_hi; do ix = ix_lo, ix_hi`. -/
def box (ixlo ixhi iylo iyhi : ℕ) : List (ℕ × ℕ) :=
  (List.range' iylo (iyhi + 1 - iylo)).flatMap fun iy => (List.range' ixlo (ixhi + 1 - ixlo)).map fun ix => (ix, iy)

/-- A search loop that returns at its first hit. -/
def firstM {α : Type} (p : α → Option Bool) : List α → Option (Option α)
  | [] => some none
  | a :: l => do if ← p a then some (some a) else firstM p l

/-- A curvilinear source grid with its fields: `xi(ix, iy)`, `yi(ix, iy)`, `fi(ix, iy, ng)`. -/
structure Src where
  nx : ℕ
  ny : ℕ
  ngrd : ℕ
  xi : ℕ → ℕ → ℝ
  yi : ℕ → ℕ → ℝ
  fi : ℕ → ℕ → ℕ → ℝ

/-- rcm2rgrid.f90:146-147, 174-175: the test of `find_exact_curv_local` and `find_exact_curv_full`. -/
noncomputable def nearTest (S : Src) (xo yo eps : ℝ) (p : ℕ × ℕ) : Option Bool := do
  let x ← at2 S.nx S.ny S.xi p.1 p.2
  let y ← at2 S.nx S.ny S.yi p.1 p.2
  some (decide (xo ≥ x - eps ∧ xo ≤ x + eps ∧ yo ≥ y - eps ∧ yo ≤ y + eps))

/-- rcm2rgrid.f90:203-204, 231-232 (= rcm2points.f90:112-113, 140-141): the test of the cell searches. -/
noncomputable def cellTest (S : Src) (k : ℕ) (xo yo : ℝ) (p : ℕ × ℕ) : Option Bool := do
  let x ← at2 S.nx S.ny S.xi p.1 p.2
  let x' ← at2 S.nx S.ny S.xi (p.1 + k) p.2
  let y ← at2 S.nx S.ny S.yi p.1 p.2
  let y' ← at2 S.nx S.ny S.yi p.1 (p.2 + k)
  some (decide (xo ≥ x ∧ xo ≤ x' ∧ yo ≥ y ∧ yo ≤ y'))

/-- A search window: lower and upper `ix`, lower and upper `iy`. -/
structure Win where
  ixlo : ℕ
  ixhi : ℕ
  iylo : ℕ
  iyhi : ℕ

/-- rcm2rgrid.f90:130-153 `find_exact_curv_local`. -/
noncomputable def exactLocal (S : Src) (xo yo eps : ℝ) (w : Win) : Option (Option (ℕ × ℕ)) :=
  firstM (nearTest S xo yo eps) (box w.ixlo w.ixhi w.iylo w.iyhi)

/-- rcm2rgrid.f90:157-183 `find_exact_curv_full`. -/
noncomputable def exactFull (S : Src) (xo yo eps : ℝ) : Option (Option (ℕ × ℕ)) :=
  firstM (nearTest S xo yo eps) (box 1 S.nx 1 S.ny)

/-- rcm2rgrid.f90:187-211 `find_curv_cell_local` (= rcm2points.f90:93-120). -/
noncomputable def cellLocal (S : Src) (k : ℕ) (xo yo : ℝ) (w : Win) : Option (Option (ℕ × ℕ)) :=
  firstM (cellTest S k xo yo) (box w.ixlo w.ixhi w.iylo w.iyhi)

/-- rcm2rgrid.f90:215-239 `find_curv_cell_full` (= rcm2points.f90:124-148). -/
noncomputable def cellFull (S : Src) (k : ℕ) (xo yo : ℝ) : Option (Option (ℕ × ℕ)) :=
  firstM (cellTest S k xo yo) (box 1 (S.nx - k) 1 (S.ny - k))

/-! ### `rcm2rgrid` -/

/-- The largest float64 (`huge(1.0_real64)`, `np.finfo(np.float64).max`). -/
noncomputable def huge : ℝ := (2 - 1 / 2 ^ 52) * 2 ^ 1023

/-- `merge(huge, (1/dist)**2, dist == 0)` (rcm2rgrid.f90:262-265). -/
noncomputable def weight (d : ℝ) : ℝ := if d = 0 then huge else (1 / d) ^ 2

/-- rcm2rgrid.f90:292-304 (= 476-488): sums over the corners (value, weight) that are not missing: `nw`, `sumf`, `sumw`. -/
noncomputable def sums (xmsg : ℝ) (c : List (ℝ × ℝ)) : ℕ × ℝ × ℝ :=
  c.foldl (fun s q => if q.1 ≠ xmsg then (s.1 + 1, s.2.1 + q.1 * q.2, s.2.2 + q.2) else s) (0, 0, 0)

/-- rcm2rgrid.f90:275-289: the value of a corner at distance zero, the first in the order (1,1), (2,1), (1,2), (2,2). -/
noncomputable def atCorner (xmsg : ℝ) (c : List (ℝ × ℝ)) : Option ℝ :=
  (c.find? fun q => decide (q.2 = 0 ∧ q.1 ≠ xmsg)).map (·.1)

/-- rcm2rgrid.f90:267-308: one field; `c` are the corners (value, distance), `old` what the output holds. -/
noncomputable def curvValue (xmsg : ℝ) (ncrit : ℕ) (c : List (ℝ × ℝ)) (old : ℝ) : ℝ :=
  if old ≠ xmsg then old
  else match atCorner xmsg c with
    | some v => v
    | none =>
      let s := sums xmsg (c.map fun q => (q.1, weight q.2))
      if s.1 ≥ ncrit ∧ s.2.2 > 0 then s.2.1 / s.2.2 else old

/-- The four corners of the cell at `p` in the order of the sums: (1,1), (2,1), (1,2), (2,2). -/
def cornersOf (k : ℕ) (p : ℕ × ℕ) : List (ℕ × ℕ) := [(p.1, p.2), (p.1 + k, p.2), (p.1, p.2 + k), (p.1 + k, p.2 + k)]

/-- All indices of a list of grid points are inside the arrays. -/
def inside (nx ny : ℕ) (l : List (ℕ × ℕ)) : Prop := ∀ p ∈ l, (1 ≤ p.1 ∧ p.1 ≤ nx) ∧ (1 ≤ p.2 ∧ p.2 ≤ ny)

/-- rcm2rgrid.f90:245-310 `interpolate_curv_cell`. -/
noncomputable def interpCurv (S : Src) (xmsg : ℝ) (k ncrit : ℕ) (xo yo : ℝ) (p : ℕ × ℕ) (out : ℕ → ℝ) : Option (ℕ → ℝ) :=
  if inside S.nx S.ny (cornersOf k p) then
    some fun ng => curvValue xmsg ncrit
      ((cornersOf k p).map fun q => (S.fi q.1 q.2 ng, dgcdist yo xo (S.yi q.1 q.2) (S.xi q.1 q.2))) (out ng)
  else none

/-- `fo(nx, ny, :) = fi(ix_hit, iy_hit, :)`. -/
noncomputable def copyPoint (S : Src) (p : ℕ × ℕ) : Option (ℕ → ℝ) :=
  if inside S.nx S.ny [p] then some fun ng => S.fi p.1 p.2 ng else none

/-- `all(fo(nx, ny, :) /= xmsg)`. -/
def complete (S : Src) (xmsg : ℝ) (out : ℕ → ℝ) : Prop := ∀ ng, 1 ≤ ng → ng ≤ S.ngrd → out ng ≠ xmsg

/-- rcm2rgrid.f90:609-621: what follows when the local cell search found nothing; `hit` says whether the local exact search succeeded. -/
noncomputable def curvFull (S : Src) (xmsg : ℝ) (k ncrit : ℕ) (eps xo yo : ℝ) (hit : Bool) (out : ℕ → ℝ) : Option (ℕ → ℝ) := do
  let h ← if hit = true then some none else exactFull S xo yo eps
  let out ← match h with
    | some p => copyPoint S p
    | none => some out
  if h.isSome ∧ complete S xmsg out then some out
  else match ← cellFull S k xo yo with
    | some p => interpCurv S xmsg k ncrit xo yo p out
    | none => some out

/-- rcm2rgrid.f90:577-630: one output point; the windows (exact, cell) of the fast path, if it is used. -/
noncomputable def curvPoint (S : Src) (xmsg : ℝ) (k ncrit : ℕ) (eps : ℝ) (fast : Option (Win × Win)) (xo yo : ℝ) : Option (ℕ → ℝ) := do
  match fast with
  | none => curvFull S xmsg k ncrit eps xo yo false fun _ => xmsg
  | some (we, wc) =>
    let h ← exactLocal S xo yo eps we
    let out ← match h with
      | some p => copyPoint S p
      | none => some fun _ => xmsg
    if h.isSome ∧ complete S xmsg out then some out
    else match ← cellLocal S k xo yo wc with
      | some p => interpCurv S xmsg k ncrit xo yo p out
      | none => curvFull S xmsg k ncrit eps xo yo h.isSome out

/-- rcm2rgrid.f90:545-556: the windows of the fast path around the anchors `ax`, `ay`: for exact hits and for cells. -/
def windows (S : Src) (k ax ay : ℕ) : Win × Win :=
  (⟨max 1 (ax - k), min S.nx (ax + 2 * k), max 1 (ay - k), min S.ny (ay + 2 * k)⟩,
    ⟨max 1 (ax - 1), min (S.nx - k) (ax + 2), max 1 (ay - 1), min (S.ny - k) (ay + 2)⟩)

/-- rcm2rgrid.f90:535-571: the windows of every output point (`none` without the fast path). -/
noncomputable def anchors (S : Src) (k nxo nyo : ℕ) (xo yo : ℕ → ℝ) : Option (Option (ℕ → ℕ → Win × Win)) := do
  let a ← isIncreasing S.nx fun i => S.xi i 1
  let b ← isIncreasing S.ny fun j => S.yi 1 j
  let c ← isIncreasing nxo xo
  let d ← isIncreasing nyo yo
  if (a && b && c && d) = true then do
    let ax ← candidates S.nx (fun i => S.xi i 1) nxo xo k fun _ => 0
    let ay ← candidates S.ny (fun j => S.yi 1 j) nyo yo k fun _ => 0
    some (some fun nx ny => windows S k (ax nx) (ay ny))
  else some none

/-- The kernels' error code, or success. -/
inductive Ret (α : Type)
  | done (a : α)
  | ier (n : ℕ)

/-- rcm2rgrid.f90:508-633 `drcm2rgrid_impl`: the array `fo(nx, ny, ng)`. -/
noncomputable def drcm2rgrid (S : Src) (nyo nxo : ℕ) (yo xo : ℕ → ℝ) (xmsg : ℝ) (ncrit : ℤ) : Option (Ret (ℕ → ℕ → ℕ → ℝ)) :=
  if S.nx ≤ 1 ∨ S.ny ≤ 1 ∨ nxo ≤ 1 ∨ nyo ≤ 1 then some (.ier 1)
  else do
    let k := 2
    let nc := (max 1 (min 4 ncrit)).toNat
    let w ← anchors S k nxo nyo xo yo
    let point := fun nx ny => curvPoint S xmsg k nc 0.0001 (w.map fun f => f nx ny) (xo nx) (yo ny)
    if ∀ nx ny, 1 ≤ nx → nx ≤ nxo → 1 ≤ ny → ny ≤ nyo → (point nx ny).isSome then
      some (.done fun nx ny ng => shortGaps (fun i => ((point i ny).getD fun _ => 0) ng) nxo xmsg nx)
    else none

/-! ### `rgrid2rcm` -/

/-- A rectilinear source grid: `xi(ix)`, `yi(iy)`, `fi(ix, iy, ng)`. -/
structure Reg where
  nx : ℕ
  ny : ℕ
  ngrd : ℕ
  xi : ℕ → ℝ
  yi : ℕ → ℝ
  fi : ℕ → ℕ → ℕ → ℝ

/-- The same grid with two-dimensional coordinates. -/
def Reg.src (R : Reg) : Src := ⟨R.nx, R.ny, R.ngrd, fun i _ => R.xi i, fun _ j => R.yi j, R.fi⟩

/-- rcm2rgrid.f90:364-365, 392-393: the test of the exact searches on a rectilinear grid. -/
noncomputable def nearReg (R : Reg) (xo yo eps : ℝ) (p : ℕ × ℕ) : Option Bool := do
  let x ← rd R.nx R.xi p.1
  let y ← rd R.ny R.yi p.2
  some (decide (xo ≥ x - eps ∧ xo ≤ x + eps ∧ yo ≥ y - eps ∧ yo ≤ y + eps))

/-- rcm2rgrid.f90:420-421: the test of `find_regular_cell_full`. -/
noncomputable def cellReg (R : Reg) (xo yo : ℝ) (p : ℕ × ℕ) : Option Bool := do
  let x ← rd R.nx R.xi p.1
  let x' ← rd R.nx R.xi (p.1 + 1)
  let y ← rd R.ny R.yi p.2
  let y' ← rd R.ny R.yi (p.2 + 1)
  some (decide (xo ≥ x ∧ xo < x' ∧ yo ≥ y ∧ yo < y'))

/-- rcm2rgrid.f90:447-494: one field of `interpolate_regular_cell`. -/
noncomputable def regValue (R : Reg) (xmsg : ℝ) (ncrit : ℤ) (xo yo : ℝ) (p : ℕ × ℕ) (ng : ℕ) (old : ℝ) : ℝ :=
  if old ≠ xmsg then old
  else
    let ix := p.1
    let iy := p.2
    let f11 := R.fi ix iy ng
    let f21 := R.fi (ix + 1) iy ng
    let f12 := R.fi ix (iy + 1) ng
    let f22 := R.fi (ix + 1) (iy + 1) ng
    if f11 ≠ xmsg ∧ f21 ≠ xmsg ∧ f12 ≠ xmsg ∧ f22 ≠ xmsg then
      let sx := (xo - R.xi ix) / (R.xi (ix + 1) - R.xi ix)
      let sy := (yo - R.yi iy) / (R.yi (iy + 1) - R.yi iy)
      (f11 + sx * (f21 - f11)) + sy * ((f12 + sx * (f22 - f12)) - (f11 + sx * (f21 - f11)))
    else
      let s := sums xmsg [(f11, weight (dgcdist yo xo (R.yi iy) (R.xi ix))), (f21, weight (dgcdist yo xo (R.yi iy) (R.xi (ix + 1)))),
        (f12, weight (dgcdist yo xo (R.yi (iy + 1)) (R.xi ix))), (f22, weight (dgcdist yo xo (R.yi (iy + 1)) (R.xi (ix + 1))))]
      if ncrit ≥ 1 ∧ s.2.2 > 0 then s.2.1 / s.2.2 else old

/-- rcm2rgrid.f90:433-496 `interpolate_regular_cell`. -/
noncomputable def interpReg (R : Reg) (xmsg : ℝ) (ncrit : ℤ) (xo yo : ℝ) (p : ℕ × ℕ) (out : ℕ → ℝ) : Option (ℕ → ℝ) :=
  if inside R.nx R.ny (cornersOf 1 p) then some fun ng => regValue R xmsg ncrit xo yo p ng (out ng) else none

/-- rcm2rgrid.f90:678-690: what follows when the anchors gave no cell. -/
noncomputable def regFull (R : Reg) (xmsg : ℝ) (ncrit : ℤ) (eps xo yo : ℝ) (hit : Bool) (out : ℕ → ℝ) : Option (ℕ → ℝ) := do
  let h ← if hit = true then some none else firstM (nearReg R xo yo eps) (box 1 R.nx 1 R.ny)
  let out ← match h with
    | some p => copyPoint R.src p
    | none => some out
  if h.isSome ∧ complete R.src xmsg out then some out
  else match ← firstM (cellReg R xo yo) (box 1 (R.nx - 1) 1 (R.ny - 1)) with
    | some p => interpReg R xmsg ncrit xo yo p out
    | none => some out

/-- rcm2rgrid.f90:656-694: one output point of `drgrid2rcm_impl`. -/
noncomputable def regPoint (R : Reg) (xmsg : ℝ) (ncrit : ℤ) (eps : ℝ) (fast : Bool) (xo yo : ℝ) : Option (ℕ → ℝ) := do
  if fast = true then do
    let ax ← lowerBracket R.nx R.xi xo
    let ay ← lowerBracket R.ny R.yi yo
    let h ← firstM (nearReg R xo yo eps) (box (max 1 ax) (min R.nx (ax + 1)) (max 1 ay) (min R.ny (ay + 1)))
    let out ← match h with
      | some p => copyPoint R.src p
      | none => some fun _ => xmsg
    if h.isSome ∧ complete R.src xmsg out then some out
    else if ← cellReg R xo yo (ax, ay) then interpReg R xmsg ncrit xo yo (ax, ay) out
    else regFull R xmsg ncrit eps xo yo h.isSome out
  else regFull R xmsg ncrit eps xo yo false fun _ => xmsg

/-- rcm2rgrid.f90:635-695 `drgrid2rcm_impl`: the array `fo(nx, ny, ng)`. -/
noncomputable def drgrid2rcm (R : Reg) (nyo nxo : ℕ) (yo xo : ℕ → ℕ → ℝ) (xmsg : ℝ) (ncrit : ℤ) : Option (Ret (ℕ → ℕ → ℕ → ℝ)) :=
  if R.nx ≤ 1 ∨ R.ny ≤ 1 ∨ nxo ≤ 1 ∨ nyo ≤ 1 then some (.ier 1)
  else do
    let a ← isIncreasing R.nx R.xi
    let b ← isIncreasing R.ny R.yi
    let point := fun nx ny => regPoint R xmsg ncrit 0.001 (a && b) (xo nx ny) (yo nx ny)
    if ∀ nx ny, 1 ≤ nx → nx ≤ nxo → 1 ≤ ny → ny ≤ nyo → (point nx ny).isSome then
      some (.done fun nx ny ng => ((point nx ny).getD fun _ => 0) ng)
    else none

/-! ### `rcm2points` -/

/-- linint2.f90:361-377 `dmonoinc(x, nx, ner, ier)`: the value of `ier` on return; `ner` is an argument. -/
noncomputable def dmonoinc (n : ℕ) (x : ℕ → ℝ) (ner : ℕ) : Option ℕ :=
  if n ≤ 1 then some 0 else (incLoop n x (n - 1) 1).map fun ok => if ok = true then 0 else ner

/-- rcm2points.f90:209-223: `call dmonoinc(chklat, nyi, ier, ner)`, twice: the third argument (`ner` of the routine) is the caller's
`ier`, the fourth (`ier` of the routine) is the caller's `ner`. The value is the caller's `ier` after both calls. -/
noncomputable def pointsCheck (S : Src) : Option ℕ := do
  let ier := 0
  let _ner ← dmonoinc S.ny (fun j => S.yi 1 j) ier
  let _ner ← dmonoinc S.ny (fun j => S.yi 1 j) ier
  some ier

/-- `minval`, `maxval` of `f 1 .. f n` (rcm2points.f90:231-238). -/
noncomputable def minval (n : ℕ) (f : ℕ → ℝ) : ℝ := (List.range' 1 n).foldl (fun m i => min m (f i)) (f 1)
@[inherit_doc minval] noncomputable def maxval (n : ℕ) (f : ℕ → ℝ) : ℝ := (List.range' 1 n).foldl (fun m i => max m (f i)) (f 1)

/-- rcm2points.f90:274-283: the tests of the exact pass. -/
noncomputable def sameTest (S : Src) (xo yo : ℝ) (p : ℕ × ℕ) : Option Bool := do
  let x ← at2 S.nx S.ny S.xi p.1 p.2
  let y ← at2 S.nx S.ny S.yi p.1 p.2
  some (decide ((yo ≥ minval S.nx (fun i => S.yi i p.2) ∧ yo ≤ maxval S.nx fun i => S.yi i p.2) ∧
    (xo ≥ minval S.ny (fun j => S.xi p.1 j) ∧ xo ≤ maxval S.ny fun j => S.xi p.1 j) ∧ xo = x ∧ yo = y))

/-- rcm2points.f90:268-292: the exact pass at one output point. -/
noncomputable def pass1 (S : Src) (xmsg xo yo : ℝ) : Option (ℕ → ℝ) := do
  match ← firstM (sameTest S xo yo) (box 1 S.nx 1 S.ny) with
  | some p => copyPoint S p
  | none => some fun _ => xmsg

/-- rcm2points.f90:316-331: the weights of the four corners of the cell at `p`; `none`: bilinear weights that are not numbers (a side of the
cell has length zero). -/
noncomputable def pointWeights (S : Src) (opt : ℤ) (k : ℕ) (xo yo : ℝ) (p : ℕ × ℕ) : Option (List ℝ) :=
  if |opt| = 2 then
    let dx := S.xi (p.1 + k) p.2 - S.xi p.1 p.2
    let dy := S.yi p.1 (p.2 + k) - S.yi p.1 p.2
    if dx = 0 ∨ dy = 0 then none
    else
      let wx := (xo - S.xi p.1 p.2) / dx
      let wy := (yo - S.yi p.1 p.2) / dy
      some [(1 - wx) * (1 - wy), wx * (1 - wy), (1 - wx) * wy, wx * wy]
  else some ((cornersOf k p).map fun q => (1 / dgcdist yo xo (S.yi q.1 q.2) (S.xi q.1 q.2)) ^ 2)

/-- rcm2points.f90:316-356: one field of the cell pass. Weights that are not numbers leave the field as it is (`sumw > 0` is false).
The result is `none` when a corner that is used has distance zero (the program divides by zero). -/
noncomputable def cellValue (S : Src) (xmsg : ℝ) (opt : ℤ) (ncrit : ℤ) (k : ℕ) (xo yo : ℝ) (p : ℕ × ℕ) (ng : ℕ) (old : ℝ) : Option ℝ :=
  if old ≠ xmsg then some old
  else match pointWeights S opt k xo yo p with
    | none => some old
    | some w =>
      let f := (cornersOf k p).map fun q => S.fi q.1 q.2 ng
      if |opt| ≠ 2 ∧ (∃ q ∈ cornersOf k p, S.fi q.1 q.2 ng ≠ xmsg ∧ dgcdist yo xo (S.yi q.1 q.2) (S.xi q.1 q.2) = 0) then none
      else
        let s := sums xmsg (f.zip w)
        if (s.1 : ℤ) ≥ ncrit ∧ s.2.2 > 0 then some (s.2.1 / s.2.2) else some old

/-- `some` of all the numbers of the fields, if each is one. -/
noncomputable def gather (ngrd : ℕ) (f : ℕ → Option ℝ) : Option (ℕ → ℝ) :=
  if ∀ ng, 1 ≤ ng → ng ≤ ngrd → (f ng).isSome then some fun ng => (f ng).getD 0 else none

/-- rcm2points.f90:294-362: the cell pass at one output point. -/
noncomputable def pass2 (S : Src) (xmsg : ℝ) (opt ncrit : ℤ) (k : ℕ) (fast : Option Win) (xo yo : ℝ) (out : ℕ → ℝ) : Option (ℕ → ℝ) := do
  if complete S xmsg out then some out
  else do
    let c ← match fast with
      | some w => cellLocal S k xo yo w
      | none => some none
    let c ← match c with
      | some p => some (some p)
      | none => cellFull S k xo yo
    match c with
    | some p =>
      if inside S.nx S.ny (cornersOf k p) then gather S.ngrd fun ng => cellValue S xmsg opt ncrit k xo yo p ng (out ng) else none
    | none => some out

/-- rcm2points.f90:374-377 `dkm`. -/
noncomputable def dkm : ℝ := 5 * (2 * (4 * Real.arctan 1) * 6371) / 360

/-- rcm2points.f90:398-424: the candidates of the fallback at one output point, each with its weight. -/
noncomputable def nearby (S : Src) (xo yo : ℝ) : List ((ℕ × ℕ) × ℝ) :=
  (box 1 S.nx 1 S.ny).filterMap fun p =>
    if (maxval S.nx (fun i => S.yi i p.2) ≥ yo - 5 ∧ minval S.nx (fun i => S.yi i p.2) ≤ yo + 5) ∧
        (S.yi p.1 p.2 ≥ yo - 5 ∧ S.yi p.1 p.2 ≤ yo + 5) ∧
        (dgcdist yo xo (S.yi p.1 p.2) (S.xi p.1 p.2) ≤ dkm ∧ dgcdist yo xo (S.yi p.1 p.2) (S.xi p.1 p.2) > 0) then
      some (p, 1 / dgcdist yo xo (S.yi p.1 p.2) (S.xi p.1 p.2) ^ 2)
    else none

/-- rcm2points.f90:381-446: the fallback at one output point. -/
noncomputable def pass3 (S : Src) (xmsg xo yo : ℝ) (out : ℕ → ℝ) : ℕ → ℝ := fun ng =>
  if out ng ≠ xmsg then out ng
  else
    let s := sums xmsg ((nearby S xo yo).map fun c => (S.fi c.1.1 c.1.2 ng, c.2))
    if s.2.2 > 0 then s.2.1 / s.2.2 else out ng

/-- rcm2points.f90:243-262: the cell windows, if the fast path is used. -/
noncomputable def pointWindows (S : Src) (k : ℕ) (xo yo : ℝ) : Option (Option Win) := do
  if S.nx > k ∧ S.ny > k then do
    let a ← isIncreasing S.nx fun i => S.xi i 1
    let b ← isIncreasing S.ny fun j => S.yi 1 j
    if (a && b) = true then do
      let gx ← earliest S.nx (fun i => S.xi i 1) xo k
      let gy ← earliest S.ny (fun j => S.yi 1 j) yo k
      some (some ⟨max 1 (gx - 1), min (S.nx - k) (gx + 2), max 1 (gy - 1), min (S.ny - k) (gy + 2)⟩)
    else some none
  else some none

/-- rcm2points.f90:268-362: the first two passes at one output point. -/
noncomputable def pass12 (S : Src) (xmsg : ℝ) (opt ncrit : ℤ) (k : ℕ) (xo yo : ℝ) : Option (ℕ → ℝ) := do
  let w ← pointWindows S k xo yo
  let out ← pass1 S xmsg xo yo
  pass2 S xmsg opt ncrit k w xo yo out

/-- rcm2points.f90:151-450 `drcm2points_impl`: the array `fo(nxy, ng)`. -/
noncomputable def drcm2points (S : Src) (nxyo : ℕ) (yo xo : ℕ → ℝ) (xmsg : ℝ) (opt ncrit kval : ℤ) : Option (Ret (ℕ → ℕ → ℝ)) :=
  if S.nx ≤ 1 ∨ S.ny ≤ 1 ∨ nxyo ≤ 0 then some (.ier 1)
  else do
    let ier ← pointsCheck S
    if ier ≠ 0 then some (.ier ier)
    else
      let k := if kval ≤ 0 then 1 else kval.toNat
      let point := fun n => pass12 S xmsg opt ncrit k (xo n) (yo n)
      if ∀ n, 1 ≤ n → n ≤ nxyo → (point n).isSome then
        let fo := fun n => (point n).getD fun _ => 0
        if ∀ n, 1 ≤ n → n ≤ nxyo → complete S xmsg (fo n) then some (.done fo)
        else some (.done fun n => pass3 S xmsg (xo n) (yo n) (fo n))
      else none

/-! ### The Python functions -/

/-- A float64 value; `none` is NaN. -/
abbrev V := Option ℝ

/-- What the public functions can raise. -/
inductive Err
  /-- `CoordinateError`. -/
  | coordinate
  /-- `DimensionError`. -/
  | dimension
  /-- `ValueError` (`np.transpose` of an array that is not three-dimensional; the C bindings). -/
  | value
  /-- `RuntimeError` (the kernel's `ier`). -/
  | runtime
  /-- An access outside an array, or a division by zero (not an exception in the real program). -/
  | crash
  deriving DecidableEq

/-- missing_values.py:36-66 `py2fort_msg`: one element handed to Fortran; `mp` is the missing value on the Python side (`none` is NaN). -/
noncomputable def encode (mp : V) (v : V) : V := if v = mp then some huge else v

/-- missing_values.py:71-98 `fort2py_msg`: one element handed back. -/
noncomputable def decode (mp : V) (v : ℝ) : V := if v = huge then mp else some v

/-- The fields of a three-dimensional array after `np.transpose(fi, (2, 1, 0))` and `py2fort_msg`; a NaN that stays is not modelled. -/
noncomputable def fieldsOf (mp : V) (fi : NDArr V) : ℕ → ℕ → ℕ → ℝ := fun ix iy ng => (encode mp (fi.get [ng - 1, iy - 1, ix - 1])).getD 0

/-- `None` or NaN stand for NaN (missing_values.py:46-52). -/
def missing (msg : Option V) : V := msg.getD none

/-- rcm2rgrid.py:80-228 `rcm2rgrid` with rcm2rgrid.py:19-36 `_rcm2rgrid` and rcm2rgrid_module.c:49-180 (`ncrit = 1`): the result and the
caller's array `fi` after the call, whose missing elements `py2fort_msg` has overwritten (NumPy input is not copied). -/
noncomputable def rcm2rgrid (lat2d lon2d : Option (NDArr ℝ)) (fi : NDArr V) (lat1d lon1d : NDArr ℝ) (msg : Option V) :
    Except Err (NDArr V × NDArr V) :=
  match lat2d, lon2d with
  | some lat2d, some lon2d =>
    match lat2d.shape, lon2d.shape, fi.shape, lat1d.shape, lon1d.shape with
    | [nyi, nxi], [nyi', nxi'], [ngrd, fy, fx], [nyo], [nxo] =>
      if nxi' ≠ nxi ∨ nyi' ≠ nyi then .error .value
      else if fx ≠ nxi ∨ fy ≠ nyi then .error .value
      else if nyo = 0 ∨ nxo = 0 then .error .value
      else
        let mp := missing msg
        match drcm2rgrid ⟨nxi, nyi, ngrd, fun i j => lon2d.get [j - 1, i - 1], fun i j => lat2d.get [j - 1, i - 1], fieldsOf mp fi⟩
            nyo nxo (fun j => lat1d.get [j - 1]) (fun i => lon1d.get [i - 1]) huge 1 with
        | none => .error .crash
        | some (.ier _) => .error .runtime
        | some (.done fo) => .ok (⟨[ngrd, nyo, nxo], fun ix => decode mp (fo (ix.getD 2 0 + 1) (ix.getD 1 0 + 1) (ix.getD 0 0 + 1))⟩,
            ⟨fi.shape, fun ix => encode mp (fi.get ix)⟩)
    | _, _, _, _, _ => .error .value
  | _, _ => .error .coordinate

/-- rcm2rgrid.py:237-377 `rgrid2rcm` for NumPy input (`assign_coords` refuses coordinates of the wrong length) with rcm2rgrid.py:39-56
`_rgrid2rcm` and rcm2rgrid_module.c:182-311 (`ncrit = 1`). -/
noncomputable def rgrid2rcm (lat1d lon1d : Option (NDArr ℝ)) (fi : NDArr V) (lat2d lon2d : NDArr ℝ) (msg : Option V) :
    Except Err (NDArr V × NDArr V) :=
  match lat1d, lon1d with
  | some lat1d, some lon1d =>
    match lat1d.shape, lon1d.shape, fi.shape, lat2d.shape, lon2d.shape with
    | [nyi], [nxi], [ngrd, fy, fx], [nyo, nxo], [nyo', nxo'] =>
      if fx ≠ nxi ∨ fy ≠ nyi then .error .value
      else if nxo' ≠ nxo ∨ nyo' ≠ nyo then .error .value
      else
        let mp := missing msg
        match drgrid2rcm ⟨nxi, nyi, ngrd, fun i => lon1d.get [i - 1], fun j => lat1d.get [j - 1], fieldsOf mp fi⟩
            nyo nxo (fun i j => lat2d.get [j - 1, i - 1]) (fun i j => lon2d.get [j - 1, i - 1]) huge 1 with
        | none => .error .crash
        | some (.ier _) => .error .runtime
        | some (.done fo) => .ok (⟨[ngrd, nyo, nxo], fun ix => decode mp (fo (ix.getD 2 0 + 1) (ix.getD 1 0 + 1) (ix.getD 0 0 + 1))⟩,
            ⟨fi.shape, fun ix => encode mp (fi.get ix)⟩)
    | _, _, _, _, _ => .error .value
  | _, _ => .error .coordinate

/-- rcm2points.py:122-210 `rcm2points` with `_validity_check` (76-112), `_rcm2points` (33-72) and rcm2points_module.c:32-151 (`ncrit = 1`,
`kval = 1`); `opt` is an integer. -/
noncomputable def rcm2points (lat2d lon2d : Option (NDArr ℝ)) (fi : NDArr V) (lat1d lon1d : NDArr ℝ) (opt : ℤ) (msg : Option V) :
    Except Err (NDArr V × NDArr V) :=
  match lat2d, lon2d with
  | some lat2d, some lon2d =>
    if lat2d.shape.getD 0 0 ≠ lon2d.shape.getD 0 0 ∨ lat2d.shape.getD 1 0 ≠ lon2d.shape.getD 1 0 then .error .dimension
    else if lat1d.shape.getD 0 0 ≠ lon1d.shape.getD 0 0 then .error .dimension
    else if lat2d.shape.getD 0 0 < 2 ∨ lat2d.shape.getD 1 0 < 2 then .error .dimension
    else if fi.shape.length < 2 then .error .dimension
    else if fi.shape.getD (fi.shape.length - 2) 0 ≠ lat2d.shape.getD 0 0 ∨ fi.shape.getD (fi.shape.length - 1) 0 ≠ lon2d.shape.getD 1 0 then
      .error .dimension
    else match lat2d.shape, lon2d.shape, fi.shape, lat1d.shape, lon1d.shape with
    | [nyi, nxi], [_, _], [ngrd, _, _], [nxyo], [_] =>
      let mp := missing msg
      match drcm2points ⟨nxi, nyi, ngrd, fun i j => lon2d.get [j - 1, i - 1], fun i j => lat2d.get [j - 1, i - 1], fieldsOf mp fi⟩
          nxyo (fun n => lat1d.get [n - 1]) (fun n => lon1d.get [n - 1]) huge opt 1 1 with
      | none => .error .crash
      | some (.ier _) => .error .runtime
      | some (.done fo) => .ok (⟨[ngrd, nxyo], fun ix => decode mp (fo (ix.getD 1 0 + 1) (ix.getD 0 0 + 1))⟩,
          ⟨fi.shape, fun ix =>
            if (∃ jx, InB fi.shape jx ∧ fi.get jx = mp) ∨ mp ≠ none ∧ mp ≠ some huge then
              (let w := encode mp (fi.get ix); if w = some huge then mp else w) else fi.get ix⟩)
    | _, _, _, _, _ => .error .value
  | _, _ => .error .coordinate

end Skyborn.Rcm
