/-
Model of the DCAPE code: /repo/src/skyborn/calc/dcape/core.py, its C binding dcape_core_module.c and its Fortran kernel
fortran/dcape.f90.

Simplifications: finite floating-point numbers are reals (no rounding, no overflow); an input element that is not finite is `none`. An
operation whose IEEE result is NaN or infinite for finite arguments (logarithm or power of a non-positive number, division by zero) is
`none`, and `none` propagates; the few IEEE expressions in which an infinity disappears again (such as `1/inf`) are therefore reported
as NaN. Fortran arrays are functions with 1-based indices; `rd`/`wr` return `none` outside the declared bounds, which makes the whole
run `none` (the value computed inside is then an `Option ℝ`: NaN or a number). The three arrays `p`, `t`, `td`, always accessed at the
same index, are one array of records. xarray attributes and coordinates are not modelled, dimension names are.
-/
import Verif.Common.Loops
import Verif.Common.ND
import Mathlib.Analysis.SpecialFunctions.Pow.Real
import Mathlib.Algebra.Order.Floor.Ring

namespace Skyborn.Dcape

/-! ### Elementary functions -/

/-- Fortran `log`. -/
noncomputable def flog (x : ℝ) : Option ℝ := if 0 < x then some (Real.log x) else none
/-- Fortran `**` with a real exponent. -/
noncomputable def fpow (x y : ℝ) : Option ℝ := if 0 < x then some (x ^ y) else none
/-- Fortran `/`. -/
noncomputable def fdiv (x y : ℝ) : Option ℝ := if y = 0 then none else some (x / y)

/-- dcape.f90:9-13 `eps`, `rd`, `cp`, `lv`, `kappa`. -/
noncomputable def eps : ℝ := 0.622
@[inherit_doc eps] noncomputable def rdAir : ℝ := 287.05
@[inherit_doc eps] noncomputable def cp : ℝ := 1004
@[inherit_doc eps] noncomputable def lv : ℝ := 2500000
@[inherit_doc eps] noncomputable def kappa : ℝ := rdAir / cp

/-- dcape.f90:17-20 `sat_vapor_pressure_hpa`. -/
noncomputable def svpHpa (tc : ℝ) : Option ℝ := (fdiv (17.67 * tc) (tc + 243.5)).map fun x => 6.112 * Real.exp x

/-- dcape.f90:22-25 `sat_vapor_pressure_pa_from_tk`. -/
noncomputable def svpPa (tk : ℝ) : Option ℝ := (svpHpa (tk - 273.15)).map (· * 100)

/-- dcape.f90:27-33 `mixing_ratio_from_e_pa`. -/
noncomputable def mixingRatio (pPa ePa : ℝ) : Option ℝ :=
  let e := max ePa 0.00000001
  let e := min e (0.99 * pPa)
  fdiv (eps * e) (pPa - e)

/-- dcape.f90:35-38 `virtual_temp_k`. -/
noncomputable def virtualTemp (tk r : ℝ) : Option ℝ := fdiv (tk * (r + eps)) (eps * (1 + r))

/-- dcape.f90:91-92 (and 48) the temperature at the lifting condensation level, from temperature and dewpoint in Kelvin. -/
noncomputable def tLcl (t td : ℝ) : Option ℝ := do
  let a ← fdiv 1 (td - 56)
  let q ← fdiv t td
  let l ← flog q
  let b ← fdiv 1 (a + l / 800)
  some (56 + b)

/-- dcape.f90:40-51 `thetae_bolton_like_metpy`. -/
noncomputable def thetae (pHpa tc tdc : ℝ) : Option ℝ := do
  let t := tc + 273.15
  let td := max (tdc + 273.15) 173.15
  let pPa := pHpa * 100
  let e ← svpHpa tdc
  let ePa := e * 100
  let r ← mixingRatio pPa ePa
  let tl ← tLcl t td
  let b ← fdiv 100000 (pPa - ePa)
  let u ← fpow b kappa
  let q ← fdiv t tl
  let v ← fpow q (0.28 * r)
  let w ← fdiv 3036 tl
  some (t * u * v * Real.exp (r * (1 + 0.448 * r) * (w - 1.78)))

/-- dcape.f90:53-62 `dt_dp_moist`. -/
noncomputable def dtdp (pPa tK : ℝ) : Option ℝ := do
  let es ← svpPa tK
  let rs ← mixingRatio pPa es
  let num := rdAir * tK + lv * rs
  let c ← fdiv (lv * lv * rs * eps) (rdAir * tK * tK)
  let x ← fdiv num (cp + c)
  fdiv x pPa

/-- dcape.f90:79-86 one pass of the integration loop; the state is `(p, t)`. -/
noncomputable def rk4Step (h : ℝ) (s : ℝ × ℝ) : Option (ℝ × ℝ) := do
  let p := s.1
  let t := s.2
  let k1 ← dtdp p t
  let k2 ← dtdp (p + 0.5 * h) (t + 0.5 * h * k1)
  let k3 ← dtdp (p + 0.5 * h) (t + 0.5 * h * k2)
  let k4 ← dtdp (p + h) (t + h * k3)
  some (p + h, t + (h / 6) * (k1 + 2 * k2 + 2 * k3 + k4))

/-- dcape.f90:73-74 `nstep`. -/
noncomputable def nstep (dp : ℝ) : ℕ := ⌊|dp| / 200⌋₊ + 1

/-- dcape.f90:64-89 `rk4_integrate_moist_t`. -/
noncomputable def rk4 (pStart tStart pTarget : ℝ) : Option ℝ :=
  let dp := pTarget - pStart
  if |dp| < 0.000000001 then some tStart
  else
    let n := nstep dp
    let h := dp / n
    (doLoopM 1 n (pStart, tStart) fun _ s => rk4Step h s).map Prod.snd

/-- dcape.f90:91-100 `lcl_bolton`: `(plcl_hpa, tlcl_k)`. -/
noncomputable def lcl (pHpa tc tdc : ℝ) : Option (ℝ × ℝ) := do
  let t := tc + 273.15
  let td := max (tdc + 273.15) 173.15
  let tl ← tLcl t td
  let q ← fdiv tl t
  let u ← fpow q (1 / kappa)
  some (pHpa * u, tl)

/-- dcape.f90:102-122 `interp_linear_p`. -/
noncomputable def interpP (p0 v0 p1 v1 pt : ℝ) : ℝ :=
  if |p1 - p0| < 0.000000000001 then v0
  else if 0 < p0 ∧ 0 < p1 ∧ 0 < pt then
    if |Real.log p1 - Real.log p0| < 0.000000000001 then v0
    else v0 + (Real.log pt - Real.log p0) / (Real.log p1 - Real.log p0) * (v1 - v0)
  else v0 + (pt - p0) / (p1 - p0) * (v1 - v0)

/-! ### The profile -/

/-- One valid level: pressure (hPa), temperature and dewpoint (°C). -/
@[ext] structure Lev where
  p : ℝ
  t : ℝ
  td : ℝ

/-- dcape.f90:190-198 the compaction loop; the state is `m` and the arrays. -/
noncomputable def compact (nlev : ℕ) (pr tc dc : ℕ → Option ℝ) (w : ℕ → Lev) : Option (ℕ × (ℕ → Lev)) :=
  doLoopM 1 nlev (0, w) fun k s => do
    let a ← rd nlev pr k
    let b ← rd nlev tc k
    let c ← rd nlev dc k
    match a, b, c with
    | some p, some t, some td => do
      let w ← wr nlev s.2 (s.1 + 1) ⟨p, t, td⟩
      some (s.1 + 1, w)
    | _, _, _ => some s

/-- dcape.f90:204-211 the reversal `do k = 1, m / 2`. -/
noncomputable def flip (nlev m : ℕ) (w : ℕ → Lev) : Option (ℕ → Lev) :=
  doLoopM 1 (m / 2) w fun k w => do
    let a ← rd nlev w k
    let b ← rd nlev w (m + 1 - k)
    let w ← wr nlev w k b
    wr nlev w (m + 1 - k) a

/-- dcape.f90:124-180: `min_te` and the starting point (`none` while `found` is false). -/
structure Best where
  te : ℝ
  start : Option Lev

/-- dcape.f90:146-153, 166-172 the test `te < min_te` and the update (false when `te` is NaN). -/
noncomputable def better (s : Best) (l : Lev) : Best :=
  match thetae l.p l.t l.td with
  | none => s
  | some te => if te < s.te then ⟨te, some l⟩ else s

/-- dcape.f90:144-155 the first loop of `thetae_min_in_700_500`. -/
noncomputable def minLevels (nlev m : ℕ) (w : ℕ → Lev) : Option Best :=
  doLoopM 1 m ⟨10 ^ 99, none⟩ fun k s => do
    let l ← rd nlev w k
    if 500 ≤ l.p ∧ l.p ≤ 700 then some (better s l) else some s

/-- dcape.f90:161-162 the level where `bound` is interpolated. -/
noncomputable def interpLev (a b : Lev) (bound : ℝ) : Lev := ⟨bound, interpP a.p a.t b.p b.t bound, interpP a.p a.td b.p b.td bound⟩

/-- dcape.f90:159-175 the inner loop `do k = 1, m - 1` with its `exit`, from `k` with `left` passes left. -/
noncomputable def boundLoop (nlev : ℕ) (w : ℕ → Lev) (bound : ℝ) : (left k : ℕ) → Best → Option Best
  | 0, _, s => some s
  | left + 1, k, s => do
    let a ← rd nlev w k
    let b ← rd nlev w (k + 1)
    if (bound ≤ a.p ∧ b.p ≤ bound) ∨ (a.p ≤ bound ∧ bound ≤ b.p) then some (better s (interpLev a b bound))
    else boundLoop nlev w bound left (k + 1) s

/-- dcape.f90:124-180 `thetae_min_in_700_500`. -/
noncomputable def thetaeMin (nlev m : ℕ) (w : ℕ → Lev) : Option Best := do
  let s ← minLevels nlev m w
  let s ← boundLoop nlev w 700 (m - 1) 1 s
  boundLoop nlev w 500 (m - 1) 1 s

/-- dcape.f90:219-226 the search for `start_idx` (0 stands for the initial -1), from `k` with `left` passes left. -/
noncomputable def startLoop (nlev : ℕ) (w : ℕ → Lev) (ps : ℝ) : (left k idx : ℕ) → Option ℕ
  | 0, _, idx => some idx
  | left + 1, k, idx => do
    let l ← rd nlev w k
    if ps ≤ l.p then startLoop nlev w ps left (k + 1) k else some idx

/-- dcape.f90:237-241 `do k = start_idx, 2, -1`; the first argument is `k - 1`. -/
noncomputable def parcelLoop (nlev : ℕ) (w : ℕ → Lev) : (k : ℕ) → (ℕ → Option ℝ) → Option (ℕ → Option ℝ)
  | 0, par => some par
  | k + 1, par => do
    let a ← rd nlev w (k + 2)
    let b ← rd nlev w (k + 1)
    let x ← rd nlev par (k + 2)
    let par ← wr nlev par (k + 1) (x.bind fun x => rk4 (a.p * 100) x (b.p * 100))
    parcelLoop nlev w k par

/-- dcape.f90:249-257 `tv_env - tv_par` at one level. -/
noncomputable def deficit (l : Lev) (parcel : ℝ) : Option ℝ := do
  let pPa := l.p * 100
  let e ← svpHpa l.td
  let rEnv ← mixingRatio pPa (e * 100)
  let tvEnv ← virtualTemp (l.t + 273.15) rEnv
  let ePar ← svpPa parcel
  let rPar ← mixingRatio pPa ePar
  let tvPar ← virtualTemp parcel rPar
  some (tvEnv - tvPar)

/-- dcape.f90:243-246 `integral`, `first`, `prev_diff`, `prev_lnp`. -/
structure Acc where
  integral : Option ℝ
  first : Bool
  prevDiff : Option ℝ
  prevLnp : Option ℝ

/-- dcape.f90:259-268 the update at one level. -/
noncomputable def accStep (s : Acc) (diff lnp : Option ℝ) : Acc :=
  if s.first then ⟨s.integral, false, diff, lnp⟩
  else ⟨do some ((← s.integral) + 0.5 * ((← s.prevDiff) + (← diff)) * ((← lnp) - (← s.prevLnp))), false, diff, lnp⟩

/-- dcape.f90:248-269 the integration loop. -/
noncomputable def integrate (nlev : ℕ) (w : ℕ → Lev) (par : ℕ → Option ℝ) (idx : ℕ) : Option Acc :=
  doLoopM 1 idx ⟨some 0, true, some 0, some 0⟩ fun k s => do
    let l ← rd nlev w k
    let x ← rd nlev par k
    some (accStep s (x.bind (deficit l)) (flog l.p))

/-- dcape.f90:182-278 `dcape_profile_impl`. The first level of result is memory safety, the second NaN or a number. `w0`, `par0` are the
contents of the uninitialised automatic arrays. -/
noncomputable def profile (nlev : ℕ) (pr tc dc : ℕ → Option ℝ) (w0 : ℕ → Lev) (par0 : ℕ → Option ℝ) : Option (Option ℝ) :=
  if nlev < 4 then some none
  else do
    let (m, w) ← compact nlev pr tc dc w0
    if m < 4 then some none
    else do
      let a ← rd nlev w 1
      let b ← rd nlev w m
      let w ← (if a.p < b.p then flip nlev m w else some w)
      let best ← thetaeMin nlev m w
      match best.start with
      | none => some none
      | some s => do
        let idx ← startLoop nlev w s.p m 1 0
        if idx ≤ 1 then some none
        else do
          let tw : Option ℝ := (lcl s.p s.t s.td).bind fun q => rk4 (q.1 * 100) q.2 (s.p * 100)
          let l ← rd nlev w idx
          let par ← wr nlev par0 idx (tw.bind fun x => rk4 (s.p * 100) x (l.p * 100))
          let par ← parcelLoop nlev w (idx - 1) par
          let acc ← integrate nlev w par idx
          some (acc.integral.map fun i => if -rdAir * i < 0 then 0 else -rdAir * i)

/-! ### The grid and the public functions -/

/-- What the public functions can raise. -/
inductive Err
  /-- core.py:33-34, 57-58, 140 wrong number of dimensions (also dcape_core_module.c:66-70, 156-160). -/
  | ndim
  /-- core.py:59-60; dcape_core_module.c:73-77, 166-174 shapes that differ. -/
  | shape
  /-- An access outside an array (not an exception in the real program). -/
  | crash
  deriving DecidableEq

/-- Contents of the uninitialised automatic arrays of each call. -/
structure Garbage where
  w : ℕ → Lev
  par : ℕ → Option ℝ

/-- An n-dimensional array of possibly non-finite numbers. -/
abbrev Arr := NDArr (Option ℝ)

/-- dcape_core_module.c:24-105 `dcape_profile`. -/
noncomputable def profileC (g : Garbage) (p t td : Arr) : Except Err (Option ℝ) :=
  match p.shape, t.shape, td.shape with
  | [np], [nt], [nd] =>
    if nt ≠ np ∨ nd ≠ np then .error .shape
    else match profile np (fun k => p.get [k - 1]) (fun k => t.get [k - 1]) (fun k => td.get [k - 1]) g.w g.par with
      | none => .error .crash
      | some r => .ok r
  | _, _, _ => .error .ndim

/-- core.py:23-44 `dcape_profile`. -/
noncomputable def profilePy (g : Garbage) (p t td : Arr) : Except Err (Option ℝ) :=
  if p.shape.length ≠ 1 then .error .ndim else profileC g p t td

/-- dcape.f90:280-303 `dcape_grid_impl`: `do i = 1, nlon; do j = 1, nlat`, `out(j, i)`. -/
noncomputable def grid (nlev nlat nlon : ℕ) (p t td : ℕ → ℕ → ℕ → Option ℝ) (g : ℕ → ℕ → Garbage) (out : ℕ → ℕ → Option ℝ) :
    Option (ℕ → ℕ → Option ℝ) :=
  doLoopM 1 nlon out fun i out => doLoopM 1 nlat out fun j out => do
    let r ← profile nlev (fun k => p k j i) (fun k => t k j i) (fun k => td k j i) (g j i).w (g j i).par
    some (Function.update out j (Function.update (out j) i r))

/-- dcape_core_module.c:107-214 `dcape_grid`. -/
noncomputable def gridC (g : ℕ → ℕ → Garbage) (p t td : Arr) : Except Err Arr :=
  match p.shape, t.shape, td.shape with
  | [nlev, nlat, nlon], [a, b, c], [a', b', c'] =>
    if a ≠ nlev ∨ b ≠ nlat ∨ c ≠ nlon ∨ a' ≠ nlev ∨ b' ≠ nlat ∨ c' ≠ nlon then .error .shape
    else match grid nlev nlat nlon (fun k j i => p.get [k - 1, j - 1, i - 1]) (fun k j i => t.get [k - 1, j - 1, i - 1])
        (fun k j i => td.get [k - 1, j - 1, i - 1]) g (fun _ _ => none) with
      | none => .error .crash
      | some out => .ok ⟨[nlat, nlon], fun ix => out (ix.getD 0 0 + 1) (ix.getD 1 0 + 1)⟩
  | _, _, _ => .error .ndim

/-- core.py:47-70 `dcape_grid`. -/
noncomputable def gridPy (g : ℕ → ℕ → Garbage) (p t td : Arr) : Except Err Arr :=
  if p.shape.length ≠ 3 then .error .ndim
  else if t.shape ≠ p.shape ∨ td.shape ≠ p.shape then .error .shape
  else gridC g p t td

/-- The result of `calculate_dcape`: a float, an array, or an array with named dimensions. -/
inductive Res
  | scalar (x : Option ℝ)
  | array (a : Arr)
  | named (dims : List String) (a : Arr)

/-- core.py:73-87, 90-140 `calculate_dcape`; `dims` are the dimension names of `pressure` when it is a `DataArray`. -/
noncomputable def calculate (g : ℕ → ℕ → Garbage) (dims : Option (List String)) (p t td : Arr) : Except Err Res :=
  if p.shape.length = 1 then (profilePy (g 1 1) p t td).map .scalar
  else if p.shape.length = 3 then do
    let out ← gridPy g p t td
    match dims with
    | none => .ok (.array out)
    | some d => .ok (.named (let l := d.drop (d.length - 2); if l = [] then ["y", "x"] else l) out)
  else .error .ndim

end Skyborn.Dcape
