/-
Packed reduced-Gaussian transforms: synthesis of two fields at once and gradients.

Modelled: `/repo/src/skyborn/spharm/src/reduced_gaussian_scalar.f90:742-1937`. The output arrays of a routine are one
function of (array number, point, slice), numbered from 1 in the order of the argument list. Where the source runs
several sums over `n` in one loop (same bounds, same running position) they are written as one loop each; where it
fills or copies several rows of the FFT buffer in one loop over `m` or `i`, the rows are treated one after the other.
-/
import Verif.RedGauss.Model

namespace Skyborn.RedGauss

open Skyborn

/-- Output arrays: array, point, slice. -/
abbrev Grids := ℕ → ℕ → ℕ → ℝ

/-- `grid_c(offset + i, k) = 0.5 * fft_rows(shift + c, i)` for the arrays `c = 1..R`. -/
noncomputable def putRows (R shift N offset k : ℕ) (buf : ℕ → ℕ → ℝ) (g : Grids) : Grids := fun c =>
  if 1 ≤ c ∧ c ≤ R then putRow N offset k (buf (shift + c)) (g c) else g c

/-- `fft_rows(:, 1:row_nlon) = 0.0` (f90:932, 986) for `R` rows. -/
def zeroRows (R N : ℕ) (buf : ℕ → ℕ → ℝ) : ℕ → ℕ → ℝ := fun r p => if (1 ≤ r ∧ r ≤ R) ∧ 1 ≤ p ∧ p ≤ N then 0 else buf r p

/-- Array-section bounds of a buffer row used by several routines: one Fourier mode of row `r`. -/
def putModeRow (N m r : ℕ) (c s : ℝ) (buf : ℕ → ℕ → ℝ) : ℕ → ℕ → ℝ := upRow buf r (putMode N m c s)

/-! ### Two fields at once -/

/-- One row, direct path and centre row of `reduced_gaussian_spectogrd_pair` (f90:982-1031, 928-977). -/
noncomputable def syn2Row (E : Env) (plan N offset T nt : ℕ) (sa sb : ℕ → ℕ → ℂ) (b : ℕ → ℝ) (junk : ℕ → ℕ → ℝ) (g : Grids) : Grids :=
  let mlimit := min T (N / 2)
  let buf := zeroRows (4 * nt) N junk
  let buf := doLoop 1 nt buf fun k buf =>
    doLoop 0 mlimit buf fun m buf =>
      let a := polySum T m (fun nm => sa nm k) b
      let d := polySum T m (fun nm => sb nm k) b
      putModeRow N m (4 * k - 2) (2 * d.1) (2 * d.2) (putModeRow N m (4 * k - 3) (2 * a.1) (2 * a.2) buf)
  let buf := fftbRows E plan N (4 * nt) buf
  doLoop 1 nt g fun k g => putRows 2 (4 * k - 4) N offset k buf g

/-- One pair of rows of `reduced_gaussian_spectogrd_pair` (f90:816-926). -/
noncomputable def syn2Pair (E : Env) (plan N offset offsetS T nt : ℕ) (sa sb : ℕ → ℕ → ℂ) (b : ℕ → ℝ) (junk : ℕ → ℕ → ℝ) (g : Grids) : Grids :=
  let mlimit := min T (N / 2)
  let buf := doLoop 1 nt junk fun k buf =>
    doLoop 0 mlimit buf fun m buf =>
      let a := polyPair T m (fun nm => sa nm k) b true
      let d := polyPair T m (fun nm => sb nm k) b true
      let buf := putModeRow N m (4 * k - 3) (2 * a.re) (2 * a.im) buf
      let buf := putModeRow N m (4 * k - 2) (2 * d.re) (2 * d.im) buf
      let buf := putModeRow N m (4 * k - 1) (2 * a.reS) (2 * a.imS) buf
      putModeRow N m (4 * k) (2 * d.reS) (2 * d.imS) buf
  let buf := fftbRows E plan N (4 * nt) (zeroTail (4 * nt) mlimit N buf)
  doLoop 1 nt g fun k g => putRows 2 (4 * k - 2) N offsetS k buf (putRows 2 (4 * k - 4) N offset k buf g)

/-- `reduced_gaussian_spectogrd_pair` (f90:742-1047); arrays 1, 2 are `grida`, `gridb`. -/
noncomputable def spectogrdPair (E : Env) (c : Option FftCache) (sa sb : ℕ → ℕ → ℂ) (pl : ℕ → ℕ) (basis : ℕ → ℕ → ℝ)
    (nmdim nlat T nt ngptot : ℕ) : Except ℕ (Grids × FftCache) :=
  if nlat < 3 then .error 1
  else if T > nlat - 1 then .error 2
  else if nmdim ≠ nmDim T then .error 3
  else if nt < 1 then .error 4
  else match scanRows nlat pl fun _ => true with
  | none => .error 4
  | some (total, offsets) =>
    if total ≠ ngptot then .error 5
    else
      let pairs := nlat / 2
      let half := (nlat + 1) / 2
      let cache := prepare c nlat pl
      let one := fun j => syn2Row E (cache.plan j) (pl j) (offsets j) T nt sa sb (basis j) (E.junk j)
      let two := fun j => syn2Pair E (cache.plan j) (pl j) (offsets j) (offsets (nlat - j + 1)) T nt sa sb (basis j) (E.junk j)
      .ok (if symmetricPl nlat pl then parLoop E 1 half (fun _ => E.fresh) fun j g => if j ≤ pairs then two j g else one j g
        else parLoop E 1 nlat (fun _ => E.fresh) one, cache)

/-! ### Gradients -/

/-- The private arrays `u_cos`, `u_sin`, `v_cos`, `v_sin` (f90:1080-1083): wavenumber, slice. -/
structure GradC where
  /-- `u_cos` -/ uc : ℕ → ℕ → ℝ
  /-- `u_sin` -/ us : ℕ → ℕ → ℝ
  /-- `v_cos` -/ vc : ℕ → ℕ → ℝ
  /-- `v_sin` -/ vs : ℕ → ℕ → ℝ

/-- What the arrays hold when a thread starts iteration `j`; `q` distinguishes several groups of arrays. -/
def Env.gradC (E : Env) (q j : ℕ) : GradC := ⟨E.priv (4 * q) j, E.priv (4 * q + 1) j, E.priv (4 * q + 2) j, E.priv (4 * q + 3) j⟩

/-- `a(m, k) = x`. -/
def set2 (a : ℕ → ℕ → ℝ) (m k : ℕ) (x : ℝ) : ℕ → ℕ → ℝ := Function.update a m (Function.update (a m) k x)

/-- Coefficients of one wavenumber (f90:1217-1233): `p`, `d` the sums with the functions and with their derivatives. -/
noncomputable def gradMode (invR twoR twoRS : ℝ) (m k : ℕ) (p d : ℝ × ℝ) (c : GradC) : GradC :=
  if m = 0 then { c with vc := set2 c.vc m k (-d.1 * invR) }
  else
    let mScale := (m : ℝ) * twoRS
    let dScale := twoR
    { uc := set2 c.uc m k (-mScale * p.2), us := set2 c.us m k (-mScale * p.1),
      vc := set2 c.vc m k (-dScale * d.1), vs := set2 c.vs m k (dScale * d.2) }

/-- Rows `ru`, `rv` of the FFT buffer for slice `k` (f90:1235-1250, 1305-1315). -/
noncomputable def gradFill (N mlimit : ℕ) (c : GradC) (k ru rv : ℕ) (buf : ℕ → ℕ → ℝ) : ℕ → ℕ → ℝ :=
  let buf := upRow buf ru fun r => Function.update r 1 0
  let buf := upRow buf rv fun r => Function.update r 1 (2 * c.vc 0 k)
  doLoop 1 mlimit buf fun m buf =>
    putModeRow N m rv (c.vc m k) (-(c.vs m k)) (putModeRow N m ru (c.uc m k) (-(c.us m k)) buf)

/-- One row of `reduced_gaussian_getgrad`, direct path and centre row (f90:1335-1396, 1267-1328). -/
noncomputable def gradRow (E : Env) (j plan N offset T nt : ℕ) (invR twoR twoRS : ℝ) (spec : ℕ → ℕ → ℂ) (b db : ℕ → ℝ) (g : Grids) : Grids :=
  let mlimit := min T (N / 2)
  let c := doLoop 1 nt (E.gradC 0 j) fun k c =>
    doLoop 0 mlimit c fun m c =>
      gradMode invR twoR twoRS m k (polySum T m (fun nm => spec nm k) b) (polySum T m (fun nm => spec nm k) db) c
  (doLoop 1 nt (E.junk j, g) fun k s =>
    let buf := gradFill N mlimit c k 1 2 s.1
    let buf := fftbRows E plan N 2 (zeroTail 2 mlimit N buf)
    (buf, putRows 2 0 N offset k buf s.2)).2

/-- One pair of rows of `reduced_gaussian_getgrad` (f90:1141-1266). -/
noncomputable def gradPair (E : Env) (j plan N offset offsetS T nt : ℕ) (invR twoR twoRS : ℝ) (spec : ℕ → ℕ → ℂ) (b db : ℕ → ℝ) (g : Grids) : Grids :=
  let mlimit := min T (N / 2)
  let c := doLoop 1 nt (E.gradC 0 j, E.gradC 1 j) fun k c =>
    doLoop 0 mlimit c fun m c =>
      let p := polyPair T m (fun nm => spec nm k) b true
      let d := polyPair T m (fun nm => spec nm k) db false
      (gradMode invR twoR twoRS m k (p.re, p.im) (d.re, d.im) c.1, gradMode invR twoR twoRS m k (p.reS, p.imS) (d.reS, d.imS) c.2)
  (doLoop 1 nt (E.junk j, g) fun k s =>
    let buf := gradFill N mlimit c.2 k 3 4 (gradFill N mlimit c.1 k 1 2 s.1)
    let buf := fftbRows E plan N 4 (zeroTail 4 mlimit N buf)
    (buf, putRows 2 2 N offsetS k buf (putRows 2 0 N offset k buf s.2))).2

/-- `reduced_gaussian_getgrad` (f90:1050-1412); arrays 1, 2 are `ugrad`, `vgrad`. -/
noncomputable def getgrad (E : Env) (c : Option FftCache) (spec : ℕ → ℕ → ℂ) (pl : ℕ → ℕ) (basis dbasis : ℕ → ℕ → ℝ) (sinTheta : ℕ → ℝ)
    (nmdim nlat T nt ngptot : ℕ) (rsphere : ℝ) : Except ℕ (Grids × FftCache) :=
  if nlat < 3 then .error 1
  else if T > nlat - 1 then .error 2
  else if nmdim ≠ nmDim T then .error 3
  else if nt < 1 then .error 4
  else if rsphere ≤ 0 then .error 5
  else match scanRows nlat pl fun j => decide (¬ sinTheta j ≤ 0) with
  | none => .error 5
  | some (total, offsets) =>
    if total ≠ ngptot then .error 6
    else
      let pairs := nlat / 2
      let half := (nlat + 1) / 2
      let cache := prepare c nlat pl
      let invR := 1 / rsphere
      let twoR := 2 * invR
      let one := fun j => gradRow E j (cache.plan j) (pl j) (offsets j) T nt invR twoR (twoR / sinTheta j) spec (basis j) (dbasis j)
      let two := fun j => gradPair E j (cache.plan j) (pl j) (offsets j) (offsets (nlat - j + 1)) T nt invR twoR (twoR / sinTheta j) spec (basis j) (dbasis j)
      .ok (if symmetricPl nlat pl then parLoop E 1 half (fun _ => E.fresh) fun j g => if j ≤ pairs then two j g else one j g
        else parLoop E 1 nlat (fun _ => E.fresh) one, cache)

/-! ### Gradients of two fields -/

/-- One row of `reduced_gaussian_getgrad_pair` (f90:1836-1922, 1746-1830). -/
noncomputable def grad2Row (E : Env) (j plan N offset T nt : ℕ) (invR twoR twoRS : ℝ) (sa sb : ℕ → ℕ → ℂ) (b db : ℕ → ℝ) (g : Grids) : Grids :=
  let mlimit := min T (N / 2)
  let c := doLoop 1 nt (E.gradC 0 j, E.gradC 1 j) fun k c =>
    doLoop 0 mlimit c fun m c =>
      (gradMode invR twoR twoRS m k (polySum T m (fun nm => sa nm k) b) (polySum T m (fun nm => sa nm k) db) c.1,
       gradMode invR twoR twoRS m k (polySum T m (fun nm => sb nm k) b) (polySum T m (fun nm => sb nm k) db) c.2)
  (doLoop 1 nt (E.junk j, g) fun k s =>
    let buf := gradFill N mlimit c.2 k 3 4 (gradFill N mlimit c.1 k 1 2 s.1)
    let buf := fftbRows E plan N 4 (zeroTail 4 mlimit N buf)
    (buf, putRows 4 0 N offset k buf s.2)).2

/-- One pair of rows of `reduced_gaussian_getgrad_pair` (f90:1528-1745): the northern row is transformed and copied, then
the southern one with its own workspace. -/
noncomputable def grad2Pair (E : Env) (j plan planS N offset offsetS T nt : ℕ) (invR twoR twoRS : ℝ) (sa sb : ℕ → ℕ → ℂ) (b db : ℕ → ℝ)
    (g : Grids) : Grids :=
  let mlimit := min T (N / 2)
  let c := doLoop 1 nt ((E.gradC 0 j, E.gradC 1 j), E.gradC 2 j, E.gradC 3 j) fun k c =>
    doLoop 0 mlimit c fun m c =>
      let pa := polyPair T m (fun nm => sa nm k) b true
      let da := polyPair T m (fun nm => sa nm k) db false
      let pb := polyPair T m (fun nm => sb nm k) b true
      let dd := polyPair T m (fun nm => sb nm k) db false
      ((gradMode invR twoR twoRS m k (pa.re, pa.im) (da.re, da.im) c.1.1, gradMode invR twoR twoRS m k (pb.re, pb.im) (dd.re, dd.im) c.1.2),
       gradMode invR twoR twoRS m k (pa.reS, pa.imS) (da.reS, da.imS) c.2.1, gradMode invR twoR twoRS m k (pb.reS, pb.imS) (dd.reS, dd.imS) c.2.2)
  (doLoop 1 nt (E.junk j, g) fun k s =>
    let buf := gradFill N mlimit c.1.2 k 3 4 (gradFill N mlimit c.1.1 k 1 2 s.1)
    let buf := fftbRows E plan N 4 (zeroTail 4 mlimit N buf)
    let g := putRows 4 0 N offset k buf s.2
    let buf := gradFill N mlimit c.2.2 k 3 4 (gradFill N mlimit c.2.1 k 1 2 buf)
    let buf := fftbRows E planS N 4 (zeroTail 4 mlimit N buf)
    (buf, putRows 4 0 N offsetS k buf g)).2

/-- `reduced_gaussian_getgrad_pair` (f90:1415-1937); arrays 1..4 are `a_ugrad`, `a_vgrad`, `b_ugrad`, `b_vgrad`. -/
noncomputable def getgradPair (E : Env) (c : Option FftCache) (sa sb : ℕ → ℕ → ℂ) (pl : ℕ → ℕ) (basis dbasis : ℕ → ℕ → ℝ) (sinTheta : ℕ → ℝ)
    (nmdim nlat T nt ngptot : ℕ) (rsphere : ℝ) : Except ℕ (Grids × FftCache) :=
  if nlat < 3 then .error 1
  else if T > nlat - 1 then .error 2
  else if nmdim ≠ nmDim T then .error 3
  else if nt < 1 then .error 4
  else if rsphere ≤ 0 then .error 5
  else match scanRows nlat pl fun j => decide (¬ sinTheta j ≤ 0) with
  | none => .error 5
  | some (total, offsets) =>
    if total ≠ ngptot then .error 6
    else
      let pairs := nlat / 2
      let half := (nlat + 1) / 2
      let cache := prepare c nlat pl
      let invR := 1 / rsphere
      let twoR := 2 * invR
      let one := fun j => grad2Row E j (cache.plan j) (pl j) (offsets j) T nt invR twoR (twoR / sinTheta j) sa sb (basis j) (dbasis j)
      let two := fun j => grad2Pair E j (cache.plan j) (cache.plan (nlat - j + 1)) (pl j) (offsets j) (offsets (nlat - j + 1)) T nt invR twoR
        (twoR / sinTheta j) sa sb (basis j) (dbasis j)
      .ok (if symmetricPl nlat pl then parLoop E 1 half (fun _ => E.fresh) fun j g => if j ≤ pairs then two j g else one j g
        else parLoop E 1 nlat (fun _ => E.fresh) one, cache)

end Skyborn.RedGauss
