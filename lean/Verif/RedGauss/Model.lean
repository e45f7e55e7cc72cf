/-
Packed reduced-Gaussian transforms: the compiled kernels.

Modelled: `/repo/src/skyborn/spharm/src/reduced_gaussian_scalar.f90`, subroutine by subroutine. Arrays are functions
of 1-based indices (the wavenumber dimensions start at 0 as in the source). Numbers are real: the conversions between
single and double precision are not modelled.

Parallel regions: the iterations of an `omp do` run in an arbitrary order (`Env.order`), and the private buffers of a
thread hold arbitrary values when an iteration starts (`Env.junk`), which covers every assignment of iterations to
threads. Allocations succeed. The FFT is given by the sums documented for FFTPACK (`hrfftf`, `hrfftb` below), provided
the workspace was initialised for the length of the row; otherwise its result is arbitrary (`Env.wrong`).
-/
import Verif.Common.Loops
import Mathlib.Analysis.SpecialFunctions.Trigonometric.Basic
import Mathlib.Data.Complex.Basic

namespace Skyborn.RedGauss

open Skyborn

/-! ### Language and libraries -/

/-- `do i = lo, hi, step` (Fortran trip count). -/
def doStep {σ : Type*} (lo : ℕ) (hi : ℤ) (step : ℕ) (s : σ) (f : ℕ → σ → σ) : σ :=
  (List.range ((hi - lo + step) / step).toNat).foldl (fun s q => f (lo + q * step) s) s

/-- What the result of a run may depend on besides its arguments. -/
structure Env where
  /-- order in which the iterations of a parallel loop happen -/
  order : List ℕ → List ℕ
  /-- contents of a thread's buffers when it starts iteration `j`: row, position -/
  junk : ℕ → ℕ → ℕ → ℝ
  /-- contents of the other private arrays of a thread when it starts iteration `j`: array, iteration, indices -/
  priv : ℕ → ℕ → ℕ → ℕ → ℝ
  /-- contents of freshly allocated memory -/
  fresh : ℕ → ℕ → ℝ
  /-- result of a transform of length `n` with a workspace initialised for length `p` -/
  wrong : ℕ → ℕ → (ℕ → ℝ) → ℕ → ℝ

/-- Every iteration of a parallel loop runs exactly once. -/
def Env.ok (E : Env) : Prop := ∀ l, (E.order l).Perm l

/-- `!$omp do` / `!$omp parallel do` over `lo..hi`. -/
def parLoop {σ : Type*} (E : Env) (lo hi : ℕ) (s : σ) (f : ℕ → σ → σ) : σ :=
  (E.order (List.range' lo (hi + 1 - lo))).foldl (fun s i => f i s) s

/-- Longitude of point `i = 1..N` of a row of `N` points. -/
noncomputable def lam (N i : ℕ) : ℝ := 2 * Real.pi * ((i : ℝ) - 1) / N

/-- `hrfftf` on one sequence (hrfft.f90:157-168; FFTPACK `rfftf`): position 1 holds the sum, position `2m` the
cosine sum, position `2m+1` minus the sine sum. -/
noncomputable def hrfftf (N : ℕ) (r : ℕ → ℝ) : ℕ → ℝ := fun p =>
  if p = 0 ∨ N < p then r p
  else if p = 1 then ∑ i ∈ Finset.Icc 1 N, r i
  else if p % 2 = 0 then ∑ i ∈ Finset.Icc 1 N, r i * Real.cos ((p / 2 : ℕ) * lam N i)
  else -∑ i ∈ Finset.Icc 1 N, r i * Real.sin ((p / 2 : ℕ) * lam N i)

/-- `hrfftb` on one sequence (hrfft.f90:929-941; FFTPACK `rfftb`). -/
noncomputable def hrfftb (N : ℕ) (r : ℕ → ℝ) : ℕ → ℝ := fun i =>
  if i = 0 ∨ N < i then r i
  else r 1 + (∑ m ∈ Finset.Icc 1 ((N - 1) / 2), 2 * (r (2 * m) * Real.cos (m * lam N i) - r (2 * m + 1) * Real.sin (m * lam N i)))
    + (if N % 2 = 0 then r N * Real.cos ((N / 2 : ℕ) * lam N i) else 0)

/-- A call of `hrfftf` with the workspace of a row. -/
noncomputable def Env.fftf (E : Env) (plan N : ℕ) (r : ℕ → ℝ) : ℕ → ℝ := if plan = N then hrfftf N r else E.wrong plan N r

/-- A call of `hrfftb` with the workspace of a row. -/
noncomputable def Env.fftb (E : Env) (plan N : ℕ) (r : ℕ → ℝ) : ℕ → ℝ := if plan = N then hrfftb N r else E.wrong plan N r

/-! ### Workspace cache -/

/-- The saved FFT workspaces (f90:12-16): `plan j` is the length `hrffti` was called with for row `j`. -/
structure FftCache where
  /-- rows -/ nlat : ℕ
  /-- first dimension of the saved workspaces -/ maxw : ℕ
  /-- saved copy of `pl` -/ pl : ℕ → ℕ
  /-- length each saved workspace was made for -/ plan : ℕ → ℕ

/-- `all(cache_pl(1:nlat) == pl(1:nlat))` (f90:53, 65). -/
def samePl (nlat : ℕ) (a b : ℕ → ℕ) : Bool := (List.range' 1 nlat).all fun j => a j == b j

/-- `max_nlon` (f90:41-45). -/
def maxPl (nlat : ℕ) (pl : ℕ → ℕ) : ℕ := doLoop 1 nlat 0 fun j mx => if pl j > mx then pl j else mx

/-- `reduced_gaussian_prepare_fft_cache` for rows that all have a point (f90:25-99): the saved workspaces are kept
when they were made for the same rows and are long enough, otherwise remade. -/
def prepare (c : Option FftCache) (nlat : ℕ) (pl : ℕ → ℕ) : FftCache :=
  let maxw := 2 * maxPl nlat pl + 15
  let remade : FftCache :=
    { nlat := nlat, maxw := maxw, pl := pl, plan := doLoop 1 nlat (fun _ => 0) fun j w => Function.update w j (pl j) }
  match c with
  | none => remade
  | some e => if (e.nlat = nlat ∧ maxw ≤ e.maxw) ∧ samePl nlat e.pl pl = true then e else remade

/-! ### Packed rows -/

/-- `total`, `max_nlon` and `offsets` (f90:371-381 and the same loop in every routine); `none` when a row is refused. -/
def scanRows (nlat : ℕ) (pl : ℕ → ℕ) (good : ℕ → Bool) : Option (ℕ × (ℕ → ℕ)) :=
  doLoopM 1 nlat (0, Function.update (fun _ => 0) 1 0) fun j s =>
    if pl j < 1 then none else if good j then some (s.1 + pl j, Function.update s.2 (j + 1) (s.1 + pl j)) else none

/-- `symmetric_pl` (f90:511-516). -/
def symmetricPl (nlat : ℕ) (pl : ℕ → ℕ) : Bool :=
  doLoop 1 (nlat / 2) true fun j s => if pl j ≠ pl (nlat - j + 1) then false else s

/-- `spectral_offset` (f90:449-452). -/
def specOff (m T : ℕ) : ℕ := m * (2 * T + 3 - m) / 2

/-- `(ntrunc + 1) * (ntrunc + 2) / 2`. -/
def nmDim (T : ℕ) : ℕ := (T + 1) * (T + 2) / 2

/-- Update one row of a buffer. -/
def upRow (buf : ℕ → ℕ → ℝ) (r : ℕ) (f : (ℕ → ℝ) → ℕ → ℝ) : ℕ → ℕ → ℝ := Function.update buf r (f (buf r))

/-! ### Legendre functions -/

/-- `reduced_gaussian_legendre_basis` (f90:169-233): `leg m n i` is what `legin` leaves in `pmn(n+1, i, km)` for the
northern row `i`. The result is indexed by row and packed position. -/
def legendreBasis (nlat T : ℕ) (leg : ℕ → ℕ → ℕ → ℝ) : Except ℕ (ℕ → ℕ → ℝ) :=
  if nlat < 3 then .error 1
  else if T > nlat - 1 then .error 2
  else
    let late := (nlat + 1) / 2
    .ok (doLoop 0 T (fun _ _ => 0) fun m b =>
      (doLoop m T (b, (1 : ℝ)) fun n s =>
        let nm := m * (2 * T + 3 - m) / 2 + n - m + 1
        (doLoop 1 late s.1 fun i b =>
          let value := leg m n i
          let b := upRow b i fun r => Function.update r nm value
          let js := nlat - i + 1
          if js ≠ i then upRow b js fun r => Function.update r nm (s.2 * value) else b,
         -s.2)).1)

/-- `reduced_gaussian_legendre_derivative_from_basis` (f90:236-293), `theta` being what `gaqd` returns. -/
noncomputable def legendreDeriv (nlat T : ℕ) (theta : ℕ → ℝ) (basis : ℕ → ℕ → ℝ) (E : Env) : Except ℕ (ℕ → ℕ → ℝ) :=
  if nlat < 3 then .error 1
  else if T > nlat - 1 then .error 2
  else
    .ok (parLoop E 0 T (fun _ _ => 0) fun m d =>
      doLoop (max 1 m) T d fun n d =>
        let nm := m * (2 * T + 3 - m) / 2 + n - m + 1
        let prev := if n > m then m * (2 * T + 3 - m) / 2 + (n - 1) - m + 1 else 0
        let coeff := if n > m then Real.sqrt ((((2 * n + 1) * (n * n - m * m) : ℕ) : ℝ) / ((2 * n - 1 : ℕ) : ℝ)) else 0
        doLoop 1 nlat d fun j d =>
          let deriv := (n : ℝ) * Real.cos (theta j) * basis j nm
          let deriv := if prev > 0 then deriv - coeff * basis j prev else deriv
          upRow d j fun r => Function.update r nm (deriv / Real.sin (theta j)))

/-! ### Analysis -/

/-- One row of the first loop of `reduced_gaussian_grdtospec` (f90:398-423): the Fourier sums of row `j`, written to
`cos_fft(0:mlimit, j)` and `sin_fft(0:mlimit, j)`. -/
noncomputable def anaRow (E : Env) (plan N T : ℕ) (x : ℕ → ℝ) (s : (ℕ → ℝ) × (ℕ → ℝ)) (junk : ℕ → ℝ) : (ℕ → ℝ) × (ℕ → ℝ) :=
  let mlimit := min T (N / 2)
  let row := doLoop 1 N junk fun i r => Function.update r i (x i)
  let f := E.fftf plan N row
  doLoop 1 mlimit (Function.update s.1 0 (f 1 * (1 / (N : ℝ))), Function.update s.2 0 0) fun m s =>
    (Function.update s.1 m (f (2 * m) * (1 / (N : ℝ))),
     Function.update s.2 m (if 2 * m < N then f (2 * m + 1) * (1 / (N : ℝ)) else 0))

/-- `reduced_gaussian_grdtospec` (f90:332-454). `datagrid p k` is point `p` of slice `k`; `basis j nm`. -/
noncomputable def grdtospec (E : Env) (c : Option FftCache) (datagrid : ℕ → ℕ → ℝ) (pl : ℕ → ℕ) (weights : ℕ → ℝ)
    (basis : ℕ → ℕ → ℝ) (ngptot nlat T nt : ℕ) : Except ℕ ((ℕ → ℕ → ℂ) × FftCache) :=
  if nlat < 3 then .error 1
  else if T > nlat - 1 then .error 2
  else if nt < 1 then .error 3
  else match scanRows nlat pl fun _ => true with
  | none => .error 3
  | some (total, offsets) =>
    if total ≠ ngptot then .error 4
    else
      let cache := prepare c nlat pl
      .ok ((doLoop 1 nt ((fun _ _ => 0 : ℕ → ℕ → ℂ), E.fresh, E.fresh) fun k s =>
        let cs := parLoop E 1 nlat s.2 fun j cs =>
          let r := anaRow E (cache.plan j) (pl j) T (fun i => datagrid (offsets j + i) k) (cs.1 j, cs.2 j) (E.junk j 1)
          (Function.update cs.1 j r.1, Function.update cs.2 j r.2)
        let out := parLoop E 0 T s.1 fun m out =>
          doLoop 1 nlat out fun j out =>
            if 2 * m ≤ pl j then
              (doLoop m T (specOff m T, out) fun _ q =>
                let nm := q.1 + 1
                let wb := weights j * basis j nm
                (nm, Function.update q.2 nm (Function.update (q.2 nm) k (q.2 nm k + ⟨cs.1 j m * wb, cs.2 j m * wb⟩)))).2
            else out
        (out, cs)).1, cache)

/-! ### Synthesis -/

/-- Sums over `n` at one row (f90:684-691): `do n = m, ntrunc` with a running packed position. -/
noncomputable def polySum (T m : ℕ) (spec : ℕ → ℂ) (b : ℕ → ℝ) : ℝ × ℝ :=
  (doLoop m T (specOff m T, (0 : ℝ), (0 : ℝ)) fun _ s =>
    let nm := s.1 + 1
    (nm, s.2.1 + (spec nm).re * b nm, s.2.2 + (spec nm).im * b nm)).2

/-- Accumulators of a north/south pair of rows. -/
structure Acc where
  /-- packed position -/ nm : ℕ
  /-- northern real -/ re : ℝ
  /-- northern imaginary -/ im : ℝ
  /-- southern real -/ reS : ℝ
  /-- southern imaginary -/ imS : ℝ

/-- One term of a pair of rows; `same` when the term enters the southern row with the same sign. -/
noncomputable def Acc.add (spec : ℕ → ℂ) (b : ℕ → ℝ) (same : Bool) (s : Acc) : Acc :=
  let nm := s.nm + 1
  let tr := (spec nm).re * b nm
  let ti := (spec nm).im * b nm
  { nm := nm, re := s.re + tr, im := s.im + ti,
    reS := if same then s.reS + tr else s.reS - tr, imS := if same then s.imS + ti else s.imS - ti }

/-- Sums over `n` of a pair of rows, two terms at a time (f90:546-580, 587-621): `first` tells whether the term
`n = m` enters the southern row with the same sign (functions: yes; their derivatives: no). -/
noncomputable def polyPair (T m : ℕ) (spec : ℕ → ℂ) (b : ℕ → ℝ) (first : Bool) : Acc :=
  let s := doStep m ((T : ℤ) - 1) 2 (Acc.mk (specOff m T) 0 0 0 0) fun _ s => (s.add spec b first).add spec b (!first)
  if (T - m) % 2 = 0 then s.add spec b first else s

/-- Store one wavenumber in a row of Fourier coefficients (f90:693-700). -/
def putMode (N m : ℕ) (c s : ℝ) (row : ℕ → ℝ) : ℕ → ℝ :=
  if m = 0 then Function.update row 1 c
  else
    let row := Function.update row (2 * m) c
    if 2 * m < N then Function.update row (2 * m + 1) s else row

/-- `fft_rows(1:R, 2*mlimit+2:row_nlon) = 0.0` (f90:631-633). -/
def zeroTail (R mlimit N : ℕ) (buf : ℕ → ℕ → ℝ) : ℕ → ℕ → ℝ :=
  if 2 * mlimit + 2 ≤ N then fun r p => if (1 ≤ r ∧ r ≤ R) ∧ 2 * mlimit + 2 ≤ p ∧ p ≤ N then 0 else buf r p else buf

/-- `call hrfftb(R, row_nlon, fft_rows, ...)`: rows `1..R`. -/
noncomputable def fftbRows (E : Env) (plan N R : ℕ) (buf : ℕ → ℕ → ℝ) : ℕ → ℕ → ℝ := fun r =>
  if 1 ≤ r ∧ r ≤ R then E.fftb plan N (buf r) else buf r

/-- `grid(offset + i, k) = 0.5 * fft_rows(r, i)` for `i = 1..N` (f90:638-643). -/
noncomputable def putRow (N offset k : ℕ) (x : ℕ → ℝ) (grid : ℕ → ℕ → ℝ) : ℕ → ℕ → ℝ :=
  doLoop 1 N grid fun i g => Function.update g (offset + i) (Function.update (g (offset + i)) k (0.5 * x i))

/-- One row of the direct path (f90:675-714; the centre row of the symmetric path, f90:647-671, is the same code). -/
noncomputable def synRow (E : Env) (plan N offset T nt : ℕ) (spec : ℕ → ℕ → ℂ) (b : ℕ → ℝ) (junk : ℕ → ℕ → ℝ)
    (grid : ℕ → ℕ → ℝ) : ℕ → ℕ → ℝ :=
  let mlimit := min T (N / 2)
  let buf := doLoop 1 nt junk fun k buf =>
    doLoop 0 mlimit buf fun m buf =>
      let s := polySum T m (fun nm => spec nm k) b
      upRow buf k (putMode N m (2 * s.1) (2 * s.2))
  let buf := fftbRows E plan N nt (zeroTail nt mlimit N buf)
  doLoop 1 nt grid fun k g => putRow N offset k (buf k) g

/-- One pair of rows of the symmetric path (f90:533-645). -/
noncomputable def synPair (E : Env) (plan N offset offsetS T nt : ℕ) (spec : ℕ → ℕ → ℂ) (b : ℕ → ℝ) (junk : ℕ → ℕ → ℝ)
    (grid : ℕ → ℕ → ℝ) : ℕ → ℕ → ℝ :=
  let mlimit := min T (N / 2)
  let buf := doLoop 1 nt junk fun k buf =>
    doLoop 0 mlimit buf fun m buf =>
      let s := polyPair T m (fun nm => spec nm k) b true
      upRow (upRow buf k (putMode N m (2 * s.re) (2 * s.im))) (nt + k) (putMode N m (2 * s.reS) (2 * s.imS))
  let buf := fftbRows E plan N (2 * nt) (zeroTail (2 * nt) mlimit N buf)
  doLoop 1 nt grid fun k g => putRow N offsetS k (buf (nt + k)) (putRow N offset k (buf k) g)

/-- `reduced_gaussian_spectogrd` (f90:457-739). `basis j nm` (the Fortran array is stored transposed). -/
noncomputable def spectogrd (E : Env) (c : Option FftCache) (spec : ℕ → ℕ → ℂ) (pl : ℕ → ℕ) (basis : ℕ → ℕ → ℝ)
    (nmdim nlat T nt ngptot : ℕ) : Except ℕ ((ℕ → ℕ → ℝ) × FftCache) :=
  if nlat < 3 then .error 1
  else if T > nlat - 1 then .error 2
  else if nmdim ≠ nmDim T then .error 3
  else if nt < 1 then .error 4
  else match scanRows nlat pl fun _ => true with
  | none => .error 4
  | some (total, offsets) =>
    if total ≠ ngptot then .error 5
    else
      let pairs := nlat / 2
      let half := (nlat + 1) / 2
      let cache := prepare c nlat pl
      let grid :=
        if symmetricPl nlat pl then
          let g := parLoop E 1 pairs E.fresh fun j g =>
            synPair E (cache.plan j) (pl j) (offsets j) (offsets (nlat - j + 1)) T nt spec (basis j) (E.junk j) g
          if half > pairs then
            parLoop E half half g fun j g => synRow E (cache.plan j) (pl j) (offsets j) T nt spec (basis j) (E.junk j) g
          else g
        else
          parLoop E 1 nlat E.fresh fun j g => synRow E (cache.plan j) (pl j) (offsets j) T nt spec (basis j) (E.junk j) g
      .ok (grid, cache)

end Skyborn.RedGauss
