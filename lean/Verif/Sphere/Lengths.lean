/-
Workspace sizes: the lengths `Spharmt` computes in Python, and the length tests the SPHEREPACK routines
make before doing anything.

Modelled: `/repo/src/skyborn/spharm/spherical_harmonics.py` lines 195-558 (construction) and the work
lengths of lines 734-1130 and 1191-1400 (transforms); the argument conversion of
`/repo/src/skyborn/spharm/_spherepack_module.c`; the tests at the head of the routines in
`/repo/src/skyborn/spharm/src/*.f90`.

A Python `int` is an `ℤ` and `//` is `Int.fdiv`; a Fortran `/` is `Int.tdiv`. The Fortran integers are 32-bit:
the conversion `i` of `PyArg_ParseTuple` refuses any argument that does not fit, which is modelled; the
arithmetic inside the Fortran tests is exact in the model (an intermediate product that wraps is not
modelled).
-/
import Mathlib.Data.Int.Basic
import Mathlib.Data.Rat.Defs
import Mathlib.Algebra.Order.Ring.Rat
import Mathlib.Tactic.Linarith
import Mathlib.Tactic.Ring

namespace Skyborn.Sphere

/-- `gridtype` (spherical_harmonics.py:138). -/
inductive Grid | regular | gaussian
  deriving DecidableEq

/-- `legfunc` (spherical_harmonics.py:139). -/
inductive Leg | stored | computed
  deriving DecidableEq

/-- What a call can raise: `ValidationError`, or `SpheremackError` carrying the routine's `ierror` or caused by
an argument that does not fit a C `int` (spherical_harmonics.py:328-345). -/
inductive Err
  | validation
  | code (ierror : ℤ)
  | overflow
  deriving DecidableEq

/-- `_compute_transform_sizes`, first component (spherical_harmonics.py:304). -/
def n1 (nlat nlon : ℤ) : ℤ :=
  min nlat (if nlon.fmod 2 ≠ 0 then (nlon + 1).fdiv 2 else (nlon + 2).fdiv 2)

/-- `_compute_transform_sizes`, second component (spherical_harmonics.py:305). -/
def n2 (nlat : ℤ) : ℤ := if nlat.fmod 2 ≠ 0 then (nlat + 1).fdiv 2 else nlat.fdiv 2

/-- A value the conversion `i` of `PyArg_ParseTuple` accepts (`_spherepack_module.c`, e.g. 665). -/
def fitsInt (x : ℤ) : Prop := -2147483648 ≤ x ∧ x ≤ 2147483647

instance (x : ℤ) : Decidable (fitsInt x) := by unfold fitsInt; infer_instance

/-- `_call_spherepack_safely` around a compiled routine whose integer arguments are `args` and whose error
flag is `ierror` (spherical_harmonics.py:328-345): an argument out of range or a non-zero flag raises. -/
def call (args : List ℤ) (ierror : ℤ) : Except Err Unit :=
  if args.all fun x => decide (fitsInt x) then
    if ierror = 0 then .ok () else .error (.code ierror)
  else .error .overflow

/-! ### Length tests of the initialisation routines -/

/-- `shaesi_impl` (shaes.f90:301-315), the same tests in `shsesi` (shses.f90:427-452). -/
def shaesi (nlat nlon lsh lwork ldwork : ℤ) : ℤ :=
  let mmax := min nlat (nlon.tdiv 2 + 1)
  let imid := (nlat + 1).tdiv 2
  let lzimn := (imid * mmax * (nlat + nlat - mmax + 1)).tdiv 2
  let labc := (3 * ((mmax - 2) * (nlat + nlat - mmax - 1))).tdiv 2
  if nlat < 3 then 1 else if nlon < 4 then 2
  else if lsh < lzimn + nlon + 15 then 3
  else if lwork < 5 * nlat * imid + labc then 4
  else if ldwork < nlat + 1 then 5 else 0

/-- `shaeci` (shaec.f90:418-438) and `shseci` (shsec.f90:395-415). -/
def shaeci (nlat nlon lsh ldwork : ℤ) : ℤ :=
  let mmax := min nlat (nlon.tdiv 2 + 1)
  let imid := (nlat + 1).tdiv 2
  let lzz1 := 2 * nlat * imid
  let labc := (3 * ((mmax - 2) * (nlat + nlat - mmax - 1))).tdiv 2
  if nlat < 3 then 1 else if nlon < 4 then 2
  else if lsh < lzz1 + labc + nlon + 15 then 3
  else if ldwork < nlat + 1 then 4 else 0

/-- `shagsi` (shags.f90:164-197) followed by `shagsp` (shags.f90:678-701), whose tests are weaker. -/
def shagsi (nlat nlon lsh lwork ldwork : ℤ) : ℤ :=
  let l1 := min ((nlon + 2).tdiv 2) nlat
  let l2 := (nlat + 1).tdiv 2
  let lp := nlat * (3 * (l1 + l2) - 2)
    + ((l1 - 1) * (l2 * (2 * nlat - l1) - 3 * l1)).tdiv 2 + nlon + 15
  let l2p := (nlat + nlat.tmod 2).tdiv 2
  if nlat < 3 then 1 else if nlon < 4 then 2
  else if lsh < lp then 3
  else if lwork < 4 * nlat * (nlat + 2) + 2 then 4
  else if ldwork < nlat * (nlat + 4) then 5
  else if lsh < nlat * (2 * l2p + 3 * l1 - 2) + (3 * l1 * (1 - l1)).tdiv 2 + nlon + 15 then 3 else 0

/-- `shagci` (shagc.f90:503-525); the Gaussian abscissae routine it calls reports no length error
(gaqd.f90:25-27). -/
def shagci (nlat nlon lsh ldwork : ℤ) : ℤ :=
  let l1 := min ((nlon + 2).tdiv 2) nlat
  let l2 := (nlat + nlat.tmod 2).tdiv 2
  if nlat < 3 then 1 else if nlon < 4 then 2
  else if lsh < nlat * (2 * l2 + 3 * l1 - 2) + (3 * l1 * (1 - l1)).tdiv 2 + nlon + 15 then 3
  else if ldwork < nlat * (nlat + 4) then 4 else 0

/-- `vhaesi` (vhaes.f90:823-836) and `vhsesi` (vhses.f90:1068-1080). -/
def vhaesi (nlat nlon lvh lwork ldwork : ℤ) : ℤ :=
  let mmax := min nlat ((nlon + 1).tdiv 2)
  let imid := (nlat + 1).tdiv 2
  let lzimn := (imid * mmax * (nlat + nlat - mmax + 1)).tdiv 2
  let labc := (3 * (max (mmax - 2) 0 * (nlat + nlat - mmax - 1))).tdiv 2
  if nlat < 3 then 1 else if nlon < 1 then 2
  else if lvh < lzimn + lzimn + nlon + 15 then 3
  else if lwork < 5 * nlat * imid + labc then 4
  else if ldwork < 2 * (nlat + 1) then 5 else 0

/-- `vhaeci` (vhaec.f90:41-61) and `vhseci` (vhsec.f90:174-199). -/
def vhaeci (nlat nlon lvh ldwork : ℤ) : ℤ :=
  let imid := (nlat + 1).tdiv 2
  let lzz1 := 2 * nlat * imid
  let mmax := min nlat ((nlon + 1).tdiv 2)
  let labc := (3 * (max (mmax - 2) 0 * (nlat + nlat - mmax - 1))).tdiv 2
  if nlat < 3 then 1 else if nlon < 1 then 2
  else if lvh < 2 * (lzz1 + labc) + nlon + 15 then 3
  else if ldwork < 2 * nlat + 2 then 4 else 0

/-- `vhagsi` (vhags.f90:829-836). -/
def vhagsi (nlat nlon lvh ldwork : ℤ) : ℤ :=
  let imid := (nlat + 1).tdiv 2
  if nlat < 3 then 1 else if nlon < 1 then 2
  else if lvh < 2 * (imid * (nlat * (nlat + 1)).tdiv 2) + nlon + 15 then 3
  else if ldwork < (nlat * (3 * nlat + 9) + 2).tdiv 2 then 4 else 0

/-- `vhsgsi` (vhsgs.f90:778-786). -/
def vhsgsi (nlat nlon lvh ldwork : ℤ) : ℤ :=
  let imid := (nlat + 1).tdiv 2
  let lmn := (nlat * (nlat + 1)).tdiv 2
  if nlat < 3 then 1 else if nlon < 1 then 2
  else if lvh < 2 * (imid * lmn) + nlon + 15 then 3
  else if ldwork < (nlat * 3 * (nlat + 3) + 2).tdiv 2 then 4 else 0

/-- `vhagci` (vhagc.f90:797-807). -/
def vhagci (nlat nlon lvh ldwork : ℤ) : ℤ :=
  let imid := (nlat + 1).tdiv 2
  let lzz1 := 2 * nlat * imid
  let mmax := min nlat ((nlon + 1).tdiv 2)
  let labc := (3 * (max (mmax - 2) 0 * (nlat + nlat - mmax - 1))).tdiv 2
  if nlat < 3 then 1 else if nlon < 1 then 2
  else if lvh < 2 * (lzz1 + labc) + nlon + imid + 15 then 3
  else if ldwork < 2 * nlat * (nlat + 1) + 1 then 4 else 0

/-- `vhsgci` (vhsgc.f90:210-228; `lwmin = 2*(lzz1+labc)+nlon+15`, line 222). -/
def vhsgci (nlat nlon lvh ldwork : ℤ) : ℤ :=
  let imid := (nlat + 1).tdiv 2
  let lzz1 := 2 * nlat * imid
  let mmax := min nlat ((nlon + 1).tdiv 2)
  let labc := (3 * (max (mmax - 2) 0 * (nlat + nlat - mmax - 1))).tdiv 2
  if nlat < 3 then 1 else if nlon < 1 then 2
  else if lvh < 2 * (lzz1 + labc) + nlon + 15 then 3
  else if ldwork < 2 * nlat * (nlat + 1) + 1 then 4 else 0

/-! ### Length tests of the transforms

The binding passes `isym = 0` (or `ityp` in 0, 1, 2), and `nlat`, `nlon` for every array dimension
(spherepack_bindings.f90:469-940), so the tests on those (error codes 3 and 5 to 8) cannot fail; they are
left out below. -/

/-- `shaes_impl` (shaes.f90:39-67) and `shses` (shses.f90:57-102). -/
def shaes (nlat nlon nt lsh lwork : ℤ) : ℤ :=
  let mmax := min nlat (nlon.tdiv 2 + 1)
  let imid := (nlat + 1).tdiv 2
  let lzimn := (imid * mmax * (nlat + nlat - mmax + 1)).tdiv 2
  if nlat < 3 then 1 else if nlon < 4 then 2 else if nt < 0 then 4
  else if lsh < lzimn + nlon + 15 then 9
  else if lwork < nt * nlat * nlon + nlat * nlon then 10 else 0

/-- `shaec` (shaec.f90:58-104) and `shsec` (shsec.f90:58-104). -/
def shaec (nlat nlon nt lsh lwork : ℤ) : ℤ :=
  let mmax := min nlat (nlon.tdiv 2 + 1)
  let imid := (nlat + 1).tdiv 2
  let lzz1 := 2 * nlat * imid
  let labc := (3 * ((mmax - 2) * (nlat + nlat - mmax - 1))).tdiv 2
  if nlat < 3 then 1 else if nlon < 4 then 2 else if nt < 0 then 4
  else if lsh < lzz1 + labc + nlon + 15 then 9
  else if lwork < nt * nlat * nlon + max (nlat * nlon) (3 * nlat * imid) then 10 else 0

/-- `shags` (shags.f90:61-111) and `shsgs` (shsgs.f90:58-111). -/
def shags (nlat nlon nt lsh lwork : ℤ) : ℤ :=
  let l1 := min ((nlon + 2).tdiv 2) nlat
  let l2 := (nlat + nlat.tmod 2).tdiv 2
  let lp := nlat * (3 * (l1 + l2) - 2)
    + ((l1 - 1) * (l2 * (2 * nlat - l1) - 3 * l1)).tdiv 2 + nlon + 15
  if nlat < 3 then 1 else if nlon < 4 then 2 else if nt < 1 then 4
  else if lsh < lp then 9
  else if lwork < nlat * nlon * (nt + 1) then 10 else 0

/-- `shagc` (shagc.f90:59-112) and `shsgc` (shsgc.f90:58-109). -/
def shagc (nlat nlon nt lsh lwork : ℤ) : ℤ :=
  let l1 := min ((nlon + 2).tdiv 2) nlat
  let l2 := (nlat + nlat.tmod 2).tdiv 2
  if nlat < 3 then 1 else if nlon < 4 then 2 else if nt < 1 then 4
  else if lsh < nlat * (2 * l2 + 3 * l1 - 2) + (3 * l1 * (1 - l1)).tdiv 2 + nlon + 15 then 9
  else if lwork < nlat * (nlon * nt + max (3 * l2) nlon) then 10 else 0

/-- `vhaes` (vhaes.f90:60-85), `vhses` (vhses.f90:266-291), `vhags` (vhags.f90:50-75) and `vhsgs`
(vhsgs.f90:51-76): the four make the same tests. -/
def vhaes (nlat nlon nt lvh lwork : ℤ) : ℤ :=
  let mmax := min nlat ((nlon + 1).tdiv 2)
  let imid := (nlat + 1).tdiv 2
  let idz := (mmax * (nlat + nlat - mmax + 1)).tdiv 2
  let lzimn := idz * imid
  let lnl := nt * nlat * nlon
  if nlat < 3 then 1 else if nlon < 1 then 2 else if nt < 0 then 4
  else if lvh < lzimn + lzimn + nlon + 15 then 9
  else if lwork < lnl + lnl + nlat * nlon then 10 else 0

/-- `vhaec` (vhaec.f90:134-179), `vhsec` (vhsec.f90:68-134) and `vhsgc` (vhsgc.f90:95-140). -/
def vhaec (nlat nlon nt lvh lwork : ℤ) : ℤ :=
  let imid := (nlat + 1).tdiv 2
  let mmax := min nlat ((nlon + 1).tdiv 2)
  let lzz1 := 2 * nlat * imid
  let labc := (3 * (max (mmax - 2) 0 * (nlat + nlat - mmax - 1))).tdiv 2
  if nlat < 3 then 1 else if nlon < 1 then 2 else if nt < 0 then 4
  else if lvh < 2 * (lzz1 + labc) + nlon + 15 then 9
  else if lwork < nlat * (2 * nt * nlon + max (6 * imid) nlon) then 10 else 0

/-- `vhagc` (vhagc.f90:51-74). -/
def vhagc (nlat nlon nt lvh lwork : ℤ) : ℤ :=
  let imid := (nlat + 1).tdiv 2
  let mmax := min nlat ((nlon + 1).tdiv 2)
  let lzz1 := 2 * nlat * imid
  let labc := (3 * (max (mmax - 2) 0 * (nlat + nlat - mmax - 1))).tdiv 2
  if nlat < 3 then 1 else if nlon < 1 then 2 else if nt < 0 then 4
  else if lvh < 2 * (lzz1 + labc) + nlon + imid + 15 then 9
  else if lwork < nlat * (4 * nlon * nt + 6 * imid) then 10 else 0

/-! ### Lengths computed in Python -/

/-- `lshaes`, used for `wshaes` and `wshses` (spherical_harmonics.py:353). -/
def lshaes (nlat nlon : ℤ) : ℤ :=
  (n1 nlat nlon * n2 nlat * (nlat + nlat - n1 nlat nlon + 1)).fdiv 2 + nlon + 15

/-- `lwork` of the regular stored scalar initialisation (spherical_harmonics.py:354). -/
def lworkEs (nlat nlon : ℤ) : ℤ :=
  5 * nlat * n2 nlat + (3 * ((n1 nlat nlon - 2) * (nlat + nlat - n1 nlat nlon - 1))).fdiv 2

/-- `lvhaes` (spherical_harmonics.py:378). -/
def lvhaes (nlat nlon : ℤ) : ℤ :=
  n1 nlat nlon * n2 nlat * (nlat + nlat - n1 nlat nlon + 1) + nlon + 15

/-- `lwork_vec` (spherical_harmonics.py:379). -/
def lworkVec (nlat nlon : ℤ) : ℤ :=
  (3 * (max (n1 nlat nlon - 2) 0 * (nlat + nlat - n1 nlat nlon - 1))).fdiv 2 + 5 * n2 nlat * nlat

/-- `lshaec` (spherical_harmonics.py:408-410). -/
def lshaec (nlat nlon : ℤ) : ℤ :=
  2 * nlat * n2 nlat + (3 * ((n1 nlat nlon - 2) * (nlat + nlat - n1 nlat nlon - 1))).fdiv 2 + nlon + 15

/-- `lvhaec` (spherical_harmonics.py:432), also `lvhsgc` (549). -/
def lvhaec (nlat nlon : ℤ) : ℤ :=
  4 * nlat * n2 nlat + 3 * max (n1 nlat nlon - 2) 0 * (2 * nlat - n1 nlat nlon - 1) + nlon + 15

/-- `lshags` (spherical_harmonics.py:459-464). -/
def lshags (nlat nlon : ℤ) : ℤ :=
  nlat * (3 * (n1 nlat nlon + n2 nlat) - 2)
    + ((n1 nlat nlon - 1) * (n2 nlat * (2 * nlat - n1 nlat nlon) - 3 * n1 nlat nlon)).fdiv 2 + nlon + 15

/-- `lvhags` (spherical_harmonics.py:485). -/
def lvhags (nlat nlon : ℤ) : ℤ := ((nlat + 1) * (nlat + 1) * nlat).fdiv 2 + nlon + 15

/-- `ldwork_vec` of the Gaussian stored initialisation (spherical_harmonics.py:486). -/
def ldworkGs (nlat : ℤ) : ℤ := (3 * nlat * (nlat + 3) + 2).fdiv 2

/-- `lvhsgs` (spherical_harmonics.py:498). -/
def lvhsgs (nlat nlon : ℤ) : ℤ :=
  n1 nlat nlon * n2 nlat * (nlat + nlat - n1 nlat nlon + 1) + nlon + 15 + 2 * nlat

/-- `lshagc` (spherical_harmonics.py:515). -/
def lshagc (nlat nlon : ℤ) : ℤ :=
  nlat * (2 * n2 nlat + 3 * n1 nlat nlon - 2) + (3 * n1 nlat nlon * (1 - n1 nlat nlon)).fdiv 2 + nlon + 15

/-- `lvhagc` (spherical_harmonics.py:534-536). -/
def lvhagc (nlat nlon : ℤ) : ℤ :=
  4 * nlat * n2 nlat + 3 * max (n1 nlat nlon - 2) 0 * (2 * nlat - n1 nlat nlon - 1) + nlon + n2 nlat + 15

/-! ### Construction -/

/-- `_init_regular_stored` (spherical_harmonics.py:347-400). -/
def initRegularStored (nlat nlon : ℤ) : Except Err Unit := do
  let ls := lshaes nlat nlon
  let lw := lworkEs nlat nlon
  call [nlat, nlon, ls, lw, nlat + 1] (shaesi nlat nlon ls lw (nlat + 1))
  call [nlat, nlon, ls, lw, nlat + 1] (shaesi nlat nlon ls lw (nlat + 1))
  let lv := lvhaes nlat nlon
  let lwv := lworkVec nlat nlon
  call [nlat, nlon, lv, lwv, 2 * (nlat + 1)] (vhaesi nlat nlon lv lwv (2 * (nlat + 1)))
  call [nlat, nlon, lv, lwv, 2 * (nlat + 1)] (vhaesi nlat nlon lv lwv (2 * (nlat + 1)))

/-- `_init_regular_computed` (spherical_harmonics.py:402-451). -/
def initRegularComputed (nlat nlon : ℤ) : Except Err Unit := do
  let ls := lshaec nlat nlon
  call [nlat, nlon, ls, 2 * (nlat + 1)] (shaeci nlat nlon ls (2 * (nlat + 1)))
  call [nlat, nlon, ls, 2 * (nlat + 1)] (shaeci nlat nlon ls (2 * (nlat + 1)))
  let lv := lvhaec nlat nlon
  call [nlat, nlon, lv, 2 * (nlat + 1)] (vhaeci nlat nlon lv (2 * (nlat + 1)))
  call [nlat, nlon, lv, 2 * (nlat + 1)] (vhaeci nlat nlon lv (2 * (nlat + 1)))

/-- `_init_gaussian_stored` (spherical_harmonics.py:453-507). -/
def initGaussianStored (nlat nlon : ℤ) : Except Err Unit := do
  let ls := lshags nlat nlon
  let lw := 4 * nlat * (nlat + 2) + 2
  let ld := nlat * (nlat + 4)
  call [nlat, nlon, ls, lw, ld] (shagsi nlat nlon ls lw ld)
  let lv := lvhags nlat nlon
  let ldv := ldworkGs nlat
  call [nlat, nlon, lv, ldv] (vhagsi nlat nlon lv ldv)
  let lvs := lvhsgs nlat nlon
  call [nlat, nlon, lvs, ldv] (vhsgsi nlat nlon lvs ldv)

/-- `_init_gaussian_computed` (spherical_harmonics.py:509-558). -/
def initGaussianComputed (nlat nlon : ℤ) : Except Err Unit := do
  let ls := lshagc nlat nlon
  let ld := nlat * (nlat + 4)
  call [nlat, nlon, ls, ld] (shagci nlat nlon ls ld)
  let lv := lvhagc nlat nlon
  let ldv := 2 * nlat * (nlat + 1) + 1
  call [nlat, nlon, lv, ldv] (vhagci nlat nlon lv ldv)
  let lvs := lvhaec nlat nlon
  call [nlat, nlon, lvs, ldv] (vhsgci nlat nlon lvs ldv)

/-- `Spharmt(nlon, nlat, rsphere, gridtype, legfunc)` (spherical_harmonics.py:195-326): the validation, in the
order of the list of lines 241-255, then the initialiser of the grid. The radius is a rational number
(only its sign is looked at), the two names are already one of the accepted strings, and
`precision` is not modelled. -/
def construct (g : Grid) (l : Leg) (nlon nlat : ℤ) (rsphere : ℚ) : Except Err Unit :=
  if ¬ (rsphere > 0) then .error .validation
  else if ¬ (nlon ≥ 4) then .error .validation
  else if ¬ (nlat ≥ 3) then .error .validation
  else match g, l with
    | .regular, .stored => initRegularStored nlat nlon
    | .regular, .computed => initRegularComputed nlat nlon
    | .gaussian, .stored => initGaussianStored nlat nlon
    | .gaussian, .computed => initGaussianComputed nlat nlon

/-! ### Transforms -/

/-- Which family of vector coefficients a call asks for (`ityp` 0, 1, 2; spherical_harmonics.py:858-967,
1276-1400). -/
inductive Part | both | div | vrt
  deriving DecidableEq

/-- The scalar analysis `grdtospec` makes for `nt` slices (spherical_harmonics.py:1009-1046). -/
def scalarAnalysis (g : Grid) (l : Leg) (nlat nlon nt : ℤ) : Except Err Unit :=
  match g, l with
  | .regular, .stored =>
    let lw := (nt + 1) * nlat * nlon
    call [lw] (shaes nlat nlon nt (lshaes nlat nlon) lw)
  | .regular, .computed =>
    let lw := nlat * (nt * nlon + max (3 * n2 nlat) nlon)
    call [lw] (shaec nlat nlon nt (lshaec nlat nlon) lw)
  | .gaussian, .stored =>
    let lw := nlat * nlon * (nt + 1)
    call [lw] (shags nlat nlon nt (lshags nlat nlon) lw)
  | .gaussian, .computed =>
    let lw := nlat * (nlon * nt + max (3 * n2 nlat) nlon)
    call [lw] (shagc nlat nlon nt (lshagc nlat nlon) lw)

/-- The scalar synthesis `spectogrd` makes for `nt` slices (spherical_harmonics.py:1079-1122): same lengths, and
the synthesis routines make the tests of the analysis routines; it also passes `nlon`. -/
def scalarSynthesis (g : Grid) (l : Leg) (nlat nlon nt : ℤ) : Except Err Unit :=
  match g, l with
  | .regular, .stored =>
    let lw := (nt + 1) * nlat * nlon
    call [nlon, lw] (shaes nlat nlon nt (lshaes nlat nlon) lw)
  | .regular, .computed =>
    let lw := nlat * (nt * nlon + max (3 * n2 nlat) nlon)
    call [nlon, lw] (shaec nlat nlon nt (lshaec nlat nlon) lw)
  | .gaussian, .stored =>
    let lw := nlat * nlon * (nt + 1)
    call [nlon, lw] (shags nlat nlon nt (lshags nlat nlon) lw)
  | .gaussian, .computed =>
    let lw := nlat * (nlon * nt + max (3 * n2 nlat) nlon)
    call [nlon, lw] (shagc nlat nlon nt (lshagc nlat nlon) lw)

/-- The vector analysis of `nt` slices (spherical_harmonics.py:767-818 for both families, 888-967 for one).
`vhaesdiv` takes no length: the binding supplies that of 24 slices (_spherepack_module.c:1099-1102). -/
def vectorAnalysis (g : Grid) (l : Leg) (p : Part) (nlat nlon nt : ℤ) : Except Err Unit :=
  match g, l with
  | .regular, .stored =>
    match p with
    | .div => call [] (vhaes nlat nlon nt (lvhaes nlat nlon) ((2 * 24 + 1) * nlat * nlon))
    | _ =>
      let lw := (2 * nt + 1) * nlat * nlon
      call [lw] (vhaes nlat nlon nt (lvhaes nlat nlon) lw)
  | .regular, .computed =>
    let lw := nlat * (2 * nt * nlon + max (6 * n2 nlat) nlon)
    call [lw] (vhaec nlat nlon nt (lvhaec nlat nlon) lw)
  | .gaussian, .stored =>
    let lw := (2 * nt + 1) * nlat * nlon
    call [lw] (vhaes nlat nlon nt (lvhags nlat nlon) lw)
  | .gaussian, .computed =>
    let lw := 2 * nlat * (2 * nlon * nt + 3 * n2 nlat)
    call [lw] (vhagc nlat nlon nt (lvhagc nlat nlon) lw)

/-- The vector synthesis of `nt` slices (spherical_harmonics.py:1207-1265 for both families, 1284-1398 for one). -/
def vectorSynthesis (g : Grid) (l : Leg) (_ : Part) (nlat nlon nt : ℤ) : Except Err Unit :=
  match g, l with
  | .regular, .stored =>
    let lw := (2 * nt + 1) * nlat * nlon
    call [nlon, lw] (vhaes nlat nlon nt (lvhaes nlat nlon) lw)
  | .regular, .computed =>
    let lw := nlat * (2 * nt * nlon + max (6 * n2 nlat) nlon)
    call [nlon, lw] (vhaec nlat nlon nt (lvhaec nlat nlon) lw)
  | .gaussian, .stored =>
    let lw := (2 * nt + 1) * nlat * nlon
    call [nlon, lw] (vhaes nlat nlon nt (lvhsgs nlat nlon) lw)
  | .gaussian, .computed =>
    let lw := nlat * (2 * nt * nlon + max (6 * n2 nlat) nlon)
    call [nlon, lw] (vhaec nlat nlon nt (lvhaec nlat nlon) lw)

end Skyborn.Sphere
