/-
Packed reduced-Gaussian transforms: vorticity and divergence of a wind.

Modelled: `/repo/src/skyborn/spharm/src/reduced_gaussian_scalar.f90:101-164, 1940-2830`. A pair of real arrays holding real
and imaginary parts is one complex array. The private accumulators are read at `m..ntrunc` only, where they are set to
zero first; the model starts them at zero everywhere.
-/
import Verif.RedGauss.Model

namespace Skyborn.RedGauss

open Skyborn

/-- Fourier sums of the two wind components at one row and wavenumber: `u_cos`, `u_sin`, `v_cos`, `v_sin`. -/
structure Four where
  /-- `u_cos` -/ uc : ℝ
  /-- `u_sin` -/ us : ℝ
  /-- `v_cos` -/ vc : ℝ
  /-- `v_sin` -/ vs : ℝ

/-- North plus south (f90:2164-2167, 2176-2179). -/
def Four.add (a b : Four) : Four := ⟨a.uc + b.uc, a.us + b.us, a.vc + b.vc, a.vs + b.vs⟩

/-- North minus south (f90:2168-2175). -/
def Four.sub (a b : Four) : Four := ⟨a.uc - b.uc, a.us - b.us, a.vc - b.vc, a.vs - b.vs⟩

/-- The arrays of Fourier sums: row, wavenumber. -/
structure VecC where
  /-- `u_cos_fft` -/ uc : ℕ → ℕ → ℝ
  /-- `u_sin_fft` -/ us : ℕ → ℕ → ℝ
  /-- `v_cos_fft` -/ vc : ℕ → ℕ → ℝ
  /-- `v_sin_fft` -/ vs : ℕ → ℕ → ℝ

/-- The sums of row `j`, wavenumber `m`. -/
def VecC.at (c : VecC) (j m : ℕ) : Four := ⟨c.uc j m, c.us j m, c.vc j m, c.vs j m⟩

/-- Uninitialised arrays. -/
def Env.vecC (E : Env) : VecC := ⟨E.priv 0 0, E.priv 1 0, E.priv 2 0, E.priv 3 0⟩

/-- The saved arrays of `reduced_gaussian_getvrtdivspec` (f90:14-21). -/
structure VecCache where
  /-- rows -/ nlat : ℕ
  /-- largest wavenumber -/ ntrunc : ℕ
  /-- contents -/ arr : VecC

/-- `reduced_gaussian_prepare_vector_fft_cache` (f90:101-164): kept when large enough, otherwise allocated anew. -/
def prepareVec (E : Env) (c : Option VecCache) (nlat T : ℕ) : VecCache :=
  match c with
  | some e => if e.nlat = nlat ∧ e.ntrunc ≥ T then e else ⟨nlat, T, E.vecC⟩
  | none => ⟨nlat, T, E.vecC⟩

/-- One row of the first loop (f90:2044-2069, 2504-2529). -/
noncomputable def vecRow (E : Env) (j plan N T : ℕ) (xu xv : ℕ → ℝ) (c : VecC) : VecC :=
  let mlimit := min T (N / 2)
  let inv := 1 / (N : ℝ)
  let f := E.fftf plan N (doLoop 1 N (E.junk j 1) fun i r => Function.update r i (xu i))
  let h := E.fftf plan N (doLoop 1 N (E.junk j 2) fun i r => Function.update r i (xv i))
  let set := fun (a : ℕ → ℕ → ℝ) (m : ℕ) (x : ℝ) => Function.update a j (Function.update (a j) m x)
  doLoop 1 mlimit { c with uc := set c.uc 0 (f 1 * inv), vc := set c.vc 0 (h 1 * inv) } fun m c =>
    { uc := set c.uc m (f (2 * m) * inv),
      us := set c.us m (if 2 * m < N then -(f (2 * m + 1)) * inv else 0),
      vc := set c.vc m (h (2 * m) * inv),
      vs := set c.vs m (if 2 * m < N then -(h (2 * m + 1)) * inv else 0) }

/-- All rows. -/
noncomputable def vecRows (E : Env) (plan : ℕ → ℕ) (pl offsets : ℕ → ℕ) (nlat T : ℕ) (ugrid vgrid : ℕ → ℝ) (c : VecC) : VecC :=
  parLoop E 1 nlat c fun j c => vecRow E j (plan j) (pl j) T (fun i => ugrid (offsets j + i)) (fun i => vgrid (offsets j + i)) c

/-- `first_pair_for_m` (f90:2030-2035): `do while (first_j <= pair_count .and. twom > pl(first_j))`. -/
def firstFrom (pairs : ℕ) (pl : ℕ → ℕ) (twom j : ℕ) : ℕ :=
  if j ≤ pairs ∧ twom > pl j then firstFrom pairs pl twom (j + 1) else j
termination_by pairs + 1 - j

/-- Divergence and vorticity contributions of one row (f90:2186-2189): `P` is combined with the functions, `D` with the
derivatives. -/
noncomputable def vecTerm (pw dw : ℝ) (P D : Four) : ℂ × ℂ :=
  (⟨pw * P.us + dw * D.vc, pw * P.uc - dw * D.vs⟩, ⟨-dw * D.uc + pw * P.vs, dw * D.us + pw * P.vc⟩)

/-- The same for wavenumber 0 (f90:2105-2106): only the real parts are touched. -/
noncomputable def vecTerm0 (dw : ℝ) (D : Four) : ℂ × ℂ := (⟨dw * D.vc, 0⟩, ⟨-dw * D.uc, 0⟩)

section Loops

variable {V : Type*} [Add V]

/-- `acc(n) = acc(n) + x`. -/
def accAdd (acc : ℕ → V) (n : ℕ) (x : V) : ℕ → V := Function.update acc n (acc n + x)

/-- Degrees of one row (f90:2237-2251): running packed position. -/
def rowLoop (T m : ℕ) (term : ℕ → V) (acc : ℕ → V) : ℕ → V :=
  (doLoop m T (specOff m T, acc) fun n s => let nm := s.1 + 1; (nm, accAdd s.2 n (term nm))).2

/-- Degrees of a pair of rows, two at a time (f90:2180-2224). -/
def pairTwo (T m : ℕ) (even odd : ℕ → V) (acc : ℕ → V) : ℕ → V :=
  let base := specOff m T
  let acc := doStep m ((T : ℤ) - 1) 2 acc fun n acc =>
    let nm := base + n - m + 1
    accAdd (accAdd acc n (even nm)) (n + 1) (odd (nm + 1))
  if (T - m) % 2 = 0 then accAdd acc T (even (base + T - m + 1)) else acc

/-- Degrees of a pair of rows, one parity after the other (f90:2637-2667). -/
def pairParity (T m : ℕ) (even odd : ℕ → V) (acc : ℕ → V) : ℕ → V :=
  let base := specOff m T
  let acc := doStep m (T : ℤ) 2 acc fun n acc => accAdd acc n (even (base + n - m + 1))
  doStep (m + 1) (T : ℤ) 2 acc fun n acc => accAdd acc n (odd (base + n - m + 1))

/-- One wavenumber of the second loop (f90:2086-2253, 2270-2321; 2543-2739, 2753-2809): `wr`, `wrs` are `weight_inv_r`,
`weight_inv_r_sin`. -/
def vecOrder [Zero V] (nlat T : ℕ) (pl : ℕ → ℕ) (sym : Bool) (wr wrs : ℕ → ℝ) (basis dbasis : ℕ → ℕ → ℝ)
    (pair : ℕ → ℕ → (ℕ → V) → (ℕ → V) → (ℕ → V) → ℕ → V) (term0 : ℝ → Four → V) (term : ℝ → ℝ → Four → Four → V) (c : VecC) (m : ℕ) : ℕ → V :=
  let pairs := nlat / 2
  let half := (nlat + 1) / 2
  let acc : ℕ → V := fun _ => 0
  if sym then
    if m = 0 then
      let acc := doLoop 1 pairs acc fun j acc =>
        let js := nlat - j + 1
        pair T m (fun nm => term0 (wr j * dbasis j nm) ((c.at j 0).sub (c.at js 0)))
          (fun nm => term0 (wr j * dbasis j nm) ((c.at j 0).add (c.at js 0))) acc
      if half > pairs then rowLoop T m (fun nm => term0 (wr half * dbasis half nm) (c.at half 0)) acc else acc
    else
      let acc := doLoop (firstFrom pairs pl (2 * m) 1) pairs acc fun j acc =>
        let js := nlat - j + 1
        let plus := (c.at j m).add (c.at js m)
        let minus := (c.at j m).sub (c.at js m)
        pair T m (fun nm => term ((m : ℝ) * wrs j * basis j nm) (wr j * dbasis j nm) plus minus)
          (fun nm => term ((m : ℝ) * wrs j * basis j nm) (wr j * dbasis j nm) minus plus) acc
      if half > pairs ∧ 2 * m ≤ pl half then
        rowLoop T m (fun nm => term ((m : ℝ) * wrs half * basis half nm) (wr half * dbasis half nm) (c.at half m) (c.at half m)) acc
      else acc
  else
    if m = 0 then doLoop 1 nlat acc fun j acc => rowLoop T m (fun nm => term0 (wr j * dbasis j nm) (c.at j 0)) acc
    else doLoop 1 nlat acc fun j acc =>
      if 2 * m ≤ pl j then
        rowLoop T m (fun nm => term ((m : ℝ) * wrs j * basis j nm) (wr j * dbasis j nm) (c.at j m) (c.at j m)) acc
      else acc

/-- Copy the accumulators of one wavenumber to the output (f90:2254-2261, 2740-2745). -/
def putOrder (T k m : ℕ) (acc : ℕ → V) (out : ℕ → ℕ → V) : ℕ → ℕ → V :=
  (doLoop m T (specOff m T, out) fun n s => let nm := s.1 + 1; (nm, Function.update s.2 nm (Function.update (s.2 nm) k (acc n)))).2

/-- The loop over slices of both routines: the Fourier sums of every row, then every wavenumber. -/
noncomputable def vecSlices [Zero V] (E : Env) (plan : ℕ → ℕ) (pl offsets : ℕ → ℕ) (nlat T nt : ℕ) (sym : Bool) (wr wrs : ℕ → ℝ)
    (basis dbasis : ℕ → ℕ → ℝ) (pair : ℕ → ℕ → (ℕ → V) → (ℕ → V) → (ℕ → V) → ℕ → V) (term0 : ℝ → Four → V) (term : ℝ → ℝ → Four → Four → V)
    (ugrid vgrid : ℕ → ℕ → ℝ) (s : (ℕ → ℕ → V) × VecC) : (ℕ → ℕ → V) × VecC :=
  doLoop 1 nt s fun k s =>
    let c := vecRows E plan pl offsets nlat T (fun p => ugrid p k) (fun p => vgrid p k) s.2
    (parLoop E 0 T s.1 fun m out => putOrder T k m (vecOrder nlat T pl sym wr wrs basis dbasis pair term0 term c m) out, c)

end Loops

/-- `reduced_gaussian_getvrtdivspec` (f90:1940-2344). The output is (`divspec`, `vrtspec`); besides the FFT workspaces the
saved Fourier arrays survive the call. -/
noncomputable def getvrtdivspec (E : Env) (c : Option FftCache) (vc : Option VecCache) (ugrid vgrid : ℕ → ℕ → ℝ) (pl : ℕ → ℕ) (weights : ℕ → ℝ)
    (basis dbasis : ℕ → ℕ → ℝ) (sinTheta : ℕ → ℝ) (ngptot nlat T nt : ℕ) (rsphere : ℝ) :
    Except ℕ ((ℕ → ℕ → ℂ × ℂ) × FftCache × VecCache) :=
  if nlat < 3 then .error 1
  else if T > nlat - 1 then .error 2
  else if nt < 1 then .error 3
  else if rsphere ≤ 0 then .error 4
  else match scanRows nlat pl fun j => decide (¬ sinTheta j ≤ 0) with
  | none => .error 4
  | some (total, offsets) =>
    if total ≠ ngptot then .error 5
    else
      let cache := prepare c nlat pl
      let saved := prepareVec E vc nlat T
      let invR := 1 / rsphere
      let wr := fun j => weights j * invR
      let wrs := fun j => wr j / sinTheta j
      let r := vecSlices E cache.plan pl offsets nlat T nt (symmetricPl nlat pl) wr wrs basis dbasis pairTwo vecTerm0 vecTerm ugrid vgrid
        (fun p k => (⟨E.fresh p k, E.fresh p k⟩, ⟨E.fresh p k, E.fresh p k⟩), saved.arr)
      .ok (r.1, cache, { saved with arr := r.2 })

/-- `reduced_gaussian_getvecspec_component` (f90:2397-2830): component 1 is the vorticity (f90:2347-2369), 2 the
divergence (f90:2372-2394). The Fourier arrays are allocated by the call. -/
noncomputable def getvecspecComponent (E : Env) (c : Option FftCache) (ugrid vgrid : ℕ → ℕ → ℝ) (pl : ℕ → ℕ) (weights : ℕ → ℝ)
    (basis dbasis : ℕ → ℕ → ℝ) (sinTheta : ℕ → ℝ) (ngptot nlat T nt : ℕ) (rsphere : ℝ) (component : ℕ) :
    Except ℕ ((ℕ → ℕ → ℂ) × FftCache) :=
  if nlat < 3 then .error 1
  else if T > nlat - 1 then .error 2
  else if nt < 1 then .error 3
  else if rsphere ≤ 0 then .error 4
  else if component < 1 ∨ component > 2 then .error 5
  else match scanRows nlat pl fun j => decide (¬ sinTheta j ≤ 0) with
  | none => .error 5
  | some (total, offsets) =>
    if total ≠ ngptot then .error 6
    else
      let cache := prepare c nlat pl
      let invR := 1 / rsphere
      let wr := fun j => weights j * invR
      let wrs := fun j => wr j / sinTheta j
      let sel := fun x : ℂ × ℂ => if component = 1 then x.2 else x.1
      let r := vecSlices E cache.plan pl offsets nlat T nt (symmetricPl nlat pl) wr wrs basis dbasis pairParity
        (fun dw D => sel (vecTerm0 dw D)) (fun pw dw P D => sel (vecTerm pw dw P D)) ugrid vgrid
        (fun p k => ⟨E.fresh p k, E.fresh p k⟩, E.vecC)
      .ok (r.1, cache)

end Skyborn.RedGauss
