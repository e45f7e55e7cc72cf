/-
Model of the triangular spectral packing routines of /repo/src/skyborn/spharm/src
(onedtotwod.f90, twodtooned.f90, lap.f90, invlap.f90, multsmoothfact.f90, specintrp.f90) and of `getspecindx`
(/repo/src/skyborn/spharm/spherical_harmonics.py).

Real arithmetic is exact (ℝ, ℂ). Arrays are functions on index tuples (1-based, as in Fortran); every access goes through
`rdA`/`wrA` with the declared bounds, `none` = access outside the array. Where the code divides by zero (degree 0 of the
vector-harmonic conversions) the IEEE result is not finite: such entries are `none` of `Option ℝ` / `Option ℂ`.
-/
import Verif.Common.Loops
import Mathlib.Analysis.SpecialFunctions.Sqrt
import Mathlib.Data.Complex.Basic
import Mathlib.Analysis.SpecialFunctions.Trigonometric.Basic

namespace Skyborn.Spectral

open Skyborn

/-- Bounds-checked read. -/
def rdA {ι α : Type} (inb : ι → Prop) [DecidablePred inb] (a : ι → α) (i : ι) : Option α := if inb i then some (a i) else none

/-- Bounds-checked write. -/
def wrA {ι α : Type} [DecidableEq ι] (inb : ι → Prop) [DecidablePred inb] (a : ι → α) (i : ι) (v : α) : Option (ι → α) :=
  if inb i then some (Function.update a i v) else none

/-- bounds of `dataspec(nmdim, nt)` -/
def inSpec (nmdim nt : ℕ) (p : ℕ × ℕ) : Prop := 1 ≤ p.1 ∧ p.1 ≤ nmdim ∧ 1 ≤ p.2 ∧ p.2 ≤ nt
instance (nmdim nt : ℕ) : DecidablePred (inSpec nmdim nt) := fun _ => inferInstanceAs (Decidable (_ ∧ _))

/-- bounds of `a(nlat, nlat, nt)` -/
def inGrid (nlat nt : ℕ) (p : ℕ × ℕ × ℕ) : Prop :=
  1 ≤ p.1 ∧ p.1 ≤ nlat ∧ 1 ≤ p.2.1 ∧ p.2.1 ≤ nlat ∧ 1 ≤ p.2.2 ∧ p.2.2 ≤ nt
instance (nlat nt : ℕ) : DecidablePred (inGrid nlat nt) := fun _ => inferInstanceAs (Decidable (_ ∧ _))

/-- Fortran/Python conversion of a real to an integer: truncation towards zero. -/
noncomputable def truncToInt (x : ℝ) : ℤ := if 0 ≤ x then ⌊x⌋ else ⌈x⌉

/-- onedtotwod.f90:20 (= 68, 120, 152; lap.f90:24, invlap.f90:26, multsmoothfact.f90:20; spherical_harmonics.py:616, 1898):
`ntrunc = -1.5 + 0.5 * sqrt(9.0 - 8.0 * (1.0 - real(nmdim)))` assigned to an integer. -/
noncomputable def ntruncOf (nmdim : ℕ) : ℤ := truncToInt (-1.5 + 0.5 * Real.sqrt (9 - 8 * (1 - (nmdim : ℝ))))

/-- The loop nest shared verbatim by all the routines (onedtotwod.f90:32-47, 75-95, 122-136, 159-173; twodtooned.f90:19-31,
57-71, 97-109, 133-145; lap.f90:27-43; multsmoothfact.f90:23-36):
`do i; nmstrt = 0; do m = 1, ntrunc+1; do n = m, ntrunc+1; nm = nmstrt+n-m+1; <body>; end do; nmstrt = nmstrt+ntrunc-m+2`.
`T1 = ntrunc + 1`. -/
def triScan {σ : Type} (nt T1 : ℕ) (s : σ) (body : ℕ → ℕ → ℕ → ℕ → σ → Option σ) : Option σ :=
  doLoopM 1 nt s fun i s => do
    let r ← doLoopM 1 T1 (s, 0) fun m (st : σ × ℕ) => do
      let s' ← doLoopM m T1 st.1 fun n s => body i m n (st.2 + n - m + 1) s
      return (s', st.2 + T1 - m + 1)
    return r.1

/-- number of `m` values of the loops, `ntrunc + 1` as a natural number (0 when `ntrunc = -1`) -/
noncomputable def waves (nmdim : ℕ) : ℕ := (ntruncOf nmdim + 1).toNat

/-- onedtotwod.f90:6-49 `onedtotwod`. -/
noncomputable def onedtotwod (nlat nmdim nt : ℕ) (dataspec : ℕ × ℕ → ℂ) : Option ((ℕ × ℕ × ℕ → ℝ) × (ℕ × ℕ × ℕ → ℝ)) :=
  triScan nt (waves nmdim) ((fun _ => 0), fun _ => 0) fun i m n nm (s : (ℕ × ℕ × ℕ → ℝ) × (ℕ × ℕ × ℕ → ℝ)) => do
    let v ← rdA (inSpec nmdim nt) dataspec (nm, i)
    let val := v * ((2 : ℝ) : ℂ)
    let a ← wrA (inGrid nlat nt) s.1 (m, n, i) val.re
    let b ← wrA (inGrid nlat nt) s.2 (m, n, i) val.im
    return (a, b)

/-- length `(ntrunc+1)*(ntrunc+2)/2` of the output arrays of twodtooned.f90; `T` = ntrunc. -/
def specLen (T : ℕ) : ℕ := (T + 1) * (T + 2) / 2

/-- twodtooned.f90:6-34 `twodtooned`. -/
noncomputable def twodtooned (nlat T nt : ℕ) (a b : ℕ × ℕ × ℕ → ℝ) : Option (ℕ × ℕ → ℂ) :=
  triScan nt (T + 1) (fun _ => 0) fun i m n nm (s : ℕ × ℕ → ℂ) => do
    let x ← rdA (inGrid nlat nt) a (m, n, i)
    let y ← rdA (inGrid nlat nt) b (m, n, i)
    wrA (inSpec (specLen T) nt) s (nm, i) (((0.5 : ℝ) : ℂ) * (⟨x, y⟩ : ℂ))

/-- lap.f90:6-44 `lap`; `init` is the previous content of the output array. -/
noncomputable def lap (nmdim nt : ℕ) (rsphere : ℝ) (x init : ℕ × ℕ → ℂ) : Option (ℕ × ℕ → ℂ) :=
  triScan nt (waves nmdim) init fun i _ n nm (s : ℕ × ℕ → ℂ) => do
    let v ← rdA (inSpec nmdim nt) x (nm, i)
    wrA (inSpec nmdim nt) s (nm, i) (((-(n : ℝ) * ((n : ℝ) - 1) * (1 / (rsphere * rsphere)) : ℝ) : ℂ) * v)

/-- invlap.f90:6-52 `invlap`: the loop starts at `n1 = 2` for `m = 1`; entry 1 of each column is then set to zero. -/
noncomputable def invlap (nmdim nt : ℕ) (rsphere : ℝ) (x init : ℕ × ℕ → ℂ) : Option (ℕ × ℕ → ℂ) :=
  doLoopM 1 nt init fun i s => do
    let r ← doLoopM 1 (waves nmdim) (s, 0) fun m (st : (ℕ × ℕ → ℂ) × ℕ) => do
      let n1 := if m = 1 then 2 else m
      let s' ← doLoopM n1 (waves nmdim) st.1 fun n s => do
        let v ← rdA (inSpec nmdim nt) x (st.2 + n - m + 1, i)
        wrA (inSpec nmdim nt) s (st.2 + n - m + 1, i)
          (((-(rsphere * rsphere) / ((n : ℝ) * ((n : ℝ) - 1)) : ℝ) : ℂ) * v)
      return (s', st.2 + waves nmdim - m + 1)
    wrA (inSpec nmdim nt) r.1 (1, i) 0

/-- multsmoothfact.f90:6-38 `multsmoothfact`; `smooth` has length `nlat`. -/
noncomputable def multsmoothfact (nlat nmdim nt : ℕ) (x : ℕ × ℕ → ℂ) (smooth : ℕ → ℝ) (init : ℕ × ℕ → ℂ) :
    Option (ℕ × ℕ → ℂ) :=
  triScan nt (waves nmdim) init fun i _ n nm (s : ℕ × ℕ → ℂ) => do
    let f ← rd nlat smooth n
    let v ← rdA (inSpec nmdim nt) x (nm, i)
    wrA (inSpec nmdim nt) s (nm, i) (v * (f : ℂ))

/-- onedtotwod.f90:80: `n_factor = rsphere / sqrt(n (n - 1))`; not finite for `n = 1`. -/
noncomputable def vecFactor (rsphere : ℝ) (n : ℕ) : Option ℝ :=
  if (n : ℝ) * ((n : ℝ) - 1) = 0 then none else some (rsphere / Real.sqrt ((n : ℝ) * ((n : ℝ) - 1)))

/-- onedtotwod.f90:55-97 `onedtotwod_vrtdiv`: `(br, bi, cr, ci)`; entries are `none` when not finite. -/
noncomputable def onedtotwodVrtdiv (nlat nmdim nt : ℕ) (rsphere : ℝ) (vrt div : ℕ × ℕ → ℂ) :
    Option ((ℕ × ℕ × ℕ → Option ℝ) × (ℕ × ℕ × ℕ → Option ℝ) × (ℕ × ℕ × ℕ → Option ℝ) × (ℕ × ℕ × ℕ → Option ℝ)) :=
  triScan nt (waves nmdim) ((fun _ => some 0), (fun _ => some 0), (fun _ => some 0), fun _ => some 0)
    fun i m n nm (s : (ℕ × ℕ × ℕ → Option ℝ) × (ℕ × ℕ × ℕ → Option ℝ) × (ℕ × ℕ × ℕ → Option ℝ) × (ℕ × ℕ × ℕ → Option ℝ)) => do
      let d ← rdA (inSpec nmdim nt) div (nm, i)
      let v ← rdA (inSpec nmdim nt) vrt (nm, i)
      let f := vecFactor rsphere n
      let br ← wrA (inGrid nlat nt) s.1 (m, n, i) (f.map fun f => -f * d.re / 0.5)
      let bi ← wrA (inGrid nlat nt) s.2.1 (m, n, i) (f.map fun f => -f * d.im / 0.5)
      let cr ← wrA (inGrid nlat nt) s.2.2.1 (m, n, i) (f.map fun f => f * v.re / 0.5)
      let ci ← wrA (inGrid nlat nt) s.2.2.2 (m, n, i) (f.map fun f => f * v.im / 0.5)
      return (br, bi, cr, ci)

/-- onedtotwod.f90:102-137 `onedtotwod_vrt`: `(cr, ci)`. -/
noncomputable def onedtotwodVrt (nlat nmdim nt : ℕ) (rsphere : ℝ) (vrt : ℕ × ℕ → ℂ) :
    Option ((ℕ × ℕ × ℕ → Option ℝ) × (ℕ × ℕ × ℕ → Option ℝ)) :=
  triScan nt (waves nmdim) ((fun _ => some 0), fun _ => some 0)
    fun i m n nm (s : (ℕ × ℕ × ℕ → Option ℝ) × (ℕ × ℕ × ℕ → Option ℝ)) => do
      let v ← rdA (inSpec nmdim nt) vrt (nm, i)
      let f := vecFactor rsphere n
      let cr ← wrA (inGrid nlat nt) s.1 (m, n, i) (f.map fun f => f * v.re / 0.5)
      let ci ← wrA (inGrid nlat nt) s.2 (m, n, i) (f.map fun f => f * v.im / 0.5)
      return (cr, ci)

/-- onedtotwod.f90:142-178 `onedtotwod_div`: `(br, bi)`. -/
noncomputable def onedtotwodDiv (nlat nmdim nt : ℕ) (rsphere : ℝ) (div : ℕ × ℕ → ℂ) :
    Option ((ℕ × ℕ × ℕ → Option ℝ) × (ℕ × ℕ × ℕ → Option ℝ)) :=
  triScan nt (waves nmdim) ((fun _ => some 0), fun _ => some 0)
    fun i m n nm (s : (ℕ × ℕ × ℕ → Option ℝ) × (ℕ × ℕ × ℕ → Option ℝ)) => do
      let d ← rdA (inSpec nmdim nt) div (nm, i)
      let f := vecFactor rsphere n
      let br ← wrA (inGrid nlat nt) s.1 (m, n, i) (f.map fun f => -f * d.re / 0.5)
      let bi ← wrA (inGrid nlat nt) s.2 (m, n, i) (f.map fun f => -f * d.im / 0.5)
      return (br, bi)

/-- `factor * cmplx(x, y)`, not finite as soon as one part is not. -/
noncomputable def scaleC (f : ℝ) (x y : Option ℝ) : Option ℂ := do
  let x ← x
  let y ← y
  return (f : ℂ) * (⟨x, y⟩ : ℂ)

/-- twodtooned.f90:66: `n_factor = sqrt(n (n - 1)) * rsphere_inv * scale`. -/
noncomputable def packFactor (rsphere : ℝ) (n : ℕ) : ℝ := Real.sqrt ((n : ℝ) * ((n : ℝ) - 1)) * (1 / rsphere) * 0.5

/-- twodtooned.f90:40-73 `twodtooned_vrtdiv`: `(vrtspec, divspec)`. -/
noncomputable def twodtoonedVrtdiv (nlat T nt : ℕ) (rsphere : ℝ) (br bi cr ci : ℕ × ℕ × ℕ → Option ℝ) :
    Option ((ℕ × ℕ → Option ℂ) × (ℕ × ℕ → Option ℂ)) :=
  triScan nt (T + 1) ((fun _ => some 0), fun _ => some 0) fun i m n nm (s : (ℕ × ℕ → Option ℂ) × (ℕ × ℕ → Option ℂ)) => do
    let x1 ← rdA (inGrid nlat nt) br (m, n, i)
    let y1 ← rdA (inGrid nlat nt) bi (m, n, i)
    let d ← wrA (inSpec (specLen T) nt) s.2 (nm, i) (scaleC (-packFactor rsphere n) x1 y1)
    let x2 ← rdA (inGrid nlat nt) cr (m, n, i)
    let y2 ← rdA (inGrid nlat nt) ci (m, n, i)
    let v ← wrA (inSpec (specLen T) nt) s.1 (nm, i) (scaleC (packFactor rsphere n) x2 y2)
    return (v, d)

/-- twodtooned.f90:79-110 `twodtooned_vrt`. -/
noncomputable def twodtoonedVrt (nlat T nt : ℕ) (rsphere : ℝ) (cr ci : ℕ × ℕ × ℕ → Option ℝ) : Option (ℕ × ℕ → Option ℂ) :=
  triScan nt (T + 1) (fun _ => some 0) fun i m n nm (s : ℕ × ℕ → Option ℂ) => do
    let x ← rdA (inGrid nlat nt) cr (m, n, i)
    let y ← rdA (inGrid nlat nt) ci (m, n, i)
    wrA (inSpec (specLen T) nt) s (nm, i) (scaleC (packFactor rsphere n) x y)

/-- twodtooned.f90:115-145 `twodtooned_div`. -/
noncomputable def twodtoonedDiv (nlat T nt : ℕ) (rsphere : ℝ) (br bi : ℕ × ℕ × ℕ → Option ℝ) : Option (ℕ × ℕ → Option ℂ) :=
  triScan nt (T + 1) (fun _ => some 0) fun i m n nm (s : ℕ × ℕ → Option ℂ) => do
    let x ← rdA (inGrid nlat nt) br (m, n, i)
    let y ← rdA (inGrid nlat nt) bi (m, n, i)
    wrA (inSpec (specLen T) nt) s (nm, i) (scaleC (-packFactor rsphere n) x y)

/-- spherical_harmonics.py:1778-1797 `getspecindx`: `(indxm, indxn)` as a list of pairs, i.e. the C-order flattened entries of
the `(ntrunc+1) x (ntrunc+1)` index grids with `n > m - 1`. (`np.squeeze` turns the one-element result of `ntrunc = 0` into
scalars; negative `ntrunc` raises.) -/
def getspecindx (T : ℕ) : List (ℕ × ℕ) :=
  ((List.range ((T + 1) * (T + 1))).map fun k => (k / (T + 1), k % (T + 1))).filter fun p => decide ((p.2 : ℤ) > (p.1 : ℤ) - 1)

/-- specintrp.f90:6-51 `specintrp`: `rlon` in radians, `mwaves = ntrunc + 1`; state of the first pass `(scrm, nmstrt)`. -/
noncomputable def specintrp (rlon : ℝ) (T : ℕ) (datnm : ℕ → ℂ) (pnm : ℕ → ℝ) : Option ℝ := do
  let mw := T + 1
  let r ← doLoopM 1 mw ((fun _ => (0 : ℂ)), 0) fun m (st : (ℕ → ℂ) × ℕ) => do
    let s0 ← wr mw st.1 m 0
    let s1 ← doLoopM 1 (mw - m + 1) s0 fun n s => do
      let d ← rd (specLen T) datnm (st.2 + n)
      let p ← rd (specLen T) pnm (st.2 + n)
      let old ← rd mw s m
      wr mw s m (old + d * (p : ℂ))
    return (s1, st.2 + mw - m + 1)
  let first ← rd mw r.1 1
  doLoopM 2 mw first.re fun m ob => do
    let c ← rd mw r.1 m
    let a := ((m : ℝ) - 1) * rlon
    return ob + 2 * (c.re * Real.cos a - c.im * Real.sin a)

end Skyborn.Spectral
