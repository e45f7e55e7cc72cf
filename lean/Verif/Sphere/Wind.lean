/-
`VectorWind`: the diagnostics, and the per-instance caches behind them.

Modelled: `/repo/src/skyborn/windspharm/standard.py` lines 104-152 (constructor), 219-359 (validation), 361-436
(the transform object), 443-665 (caches and internal helpers), 693-1249 (methods). The conversions of the output type (`_restore_output_dtype`) and
of the input to 32-bit floats are not modelled: numbers are real.
-/
import Verif.Sphere.VecLemmas

namespace Skyborn.Sphere

open Skyborn Skyborn.Spectral

/-! ### Acceptance of the input (standard.py:219-436) -/

/-- What an element of an input array can be, after masked elements have been replaced by NaN
(standard.py:240-247). -/
inductive Cell
  | num (x : ℝ)
  | nan
  | inf (neg : Bool)

/-- Why the constructor refuses (all are `ValueError`; the text names the reason). -/
inductive Refuse
  | missing | infinite | shapes | dims | small | gridtype | radius | legfunc | init
  deriving DecidableEq

/-- `gridtype.lower() not in ("regular", "gaussian")` (standard.py:385-389), on the lower-cased name. -/
def gridOf (name : String) : Option Grid :=
  if name.toLower = "regular" then some .regular
  else if name.toLower = "gaussian" then some .gaussian
  else none

/-- `legfunc not in ("stored", "computed")` (standard.py:399-403). -/
def legOf (name : String) : Option Leg :=
  if name = "stored" then some .stored else if name = "computed" then some .computed else none

/-- The number an element holds. -/
def Cell.val : Cell → ℝ
  | .num x => x
  | _ => 0

open Classical in
/-- The checks of the constructor, in their order (standard.py:140-150): finiteness, NaN reported before infinities
(standard.py:270-284), shapes (324-328), dimensions (331-336), size (339-345), then the options (385-403) and the
transform object (410-436). Returns the grid, the Legendre option and the two arrays. -/
noncomputable def accept (u v : NDArr Cell) (gridtype : String) (rsphere : ℚ) (legfunc : String) :
    Except Refuse (Grid × Leg × NDArr ℝ × NDArr ℝ) :=
  let bad (x : NDArr Cell) := ∃ idx, InB x.shape idx ∧ ∀ r, x.get idx ≠ .num r
  let nans (x : NDArr Cell) := ∃ idx, InB x.shape idx ∧ x.get idx = .nan
  if bad u ∨ bad v then (if nans u ∨ nans v then .error .missing else .error .infinite)
  else if u.shape ≠ v.shape then .error .shapes
  else match u.shape with
  | nlat :: nlon :: _ =>
    if nlat < 3 ∨ nlon < 4 then .error .small
    else match gridOf gridtype with
    | none => .error .gridtype
    | some g =>
      if rsphere ≤ 0 then .error .radius
      else match legOf legfunc with
      | none => .error .legfunc
      | some l =>
        match construct g l nlon nlat rsphere with
        | .error _ => .error .init
        | .ok () => .ok (g, l, ⟨u.shape, fun i => (u.get i).val⟩, ⟨v.shape, fun i => (v.get i).val⟩)
  | _ => .error .dims

/-! ### Planetary vorticity (standard.py:454-529) -/

/-- `_latitude_values` (standard.py:454-476) of row `i`, in radians (`np.deg2rad`, standard.py:501). For Gaussian grids
`gaussian_lats_wts` and the transforms compute the same latitudes. `np.arange(90 - dlat/2, -90, -dlat)` has
`nlat` values. -/
noncomputable def latitude (I : Inst) (i : ℕ) : ℝ :=
  match I.grid with
  | .gaussian => I.lat i
  | .regular =>
    let deg : ℝ := if I.nlat % 2 = 1 then 90 - i * (180 / ((I.nlat : ℝ) - 1))
      else 90 - 180 / I.nlat / 2 - i * (180 / I.nlat)
    deg * (Real.pi / 180)

/-- `omega` or its default (standard.py:482-488). -/
noncomputable def omegaOf (omega : Option ℝ) : ℝ := omega.getD (7292 / 100000000)

/-- `_coriolis_values` (standard.py:478-504). -/
noncomputable def coriolis (I : Inst) (omega : ℝ) (i : ℕ) : ℝ := 2 * omega * Real.sin (latitude I i)

/-- `_broadcast_planetaryvorticity` (standard.py:521-529) to the shape of the wind. -/
def broadcastRows (shape : List ℕ) (f : ℕ → ℝ) : NDArr ℝ := ⟨shape, fun idx => f (idx.headD 0)⟩

/-- `_planetary_vorticity_spec` (standard.py:531-559) before the new axes. -/
noncomputable def planetarySpec (I : Inst) (omega : ℝ) (t : Option ℤ) : Except Fail (NDArr ℂ) := do
  let T ← validateNtrunc I t
  grdtospec I (broadcastRows [I.nlat, I.nlon] (coriolis I omega)) (some T)

/-- Element-wise sum (both operands have the shape of the first). -/
noncomputable def addG (x y : NDArr ℝ) : NDArr ℝ := ⟨x.shape, fun i => x.get i + y.get i⟩

/-- Element-wise negation. -/
noncomputable def negG (x : NDArr ℝ) : NDArr ℝ := ⟨x.shape, fun i => - x.get i⟩

/-- `-eta * div - (uchi * etax + vchi * etay)` (standard.py:1247). -/
noncomputable def rwsOf (eta div uchi etax vchi etay : NDArr ℝ) : NDArr ℝ :=
  ⟨eta.shape, fun i => - eta.get i * div.get i - (uchi.get i * etax.get i + vchi.get i * etay.get i)⟩

/-- `vrtspec + fspec[:, None, ...]` (standard.py:1238-1242). -/
noncomputable def addRows (x f : NDArr ℂ) : NDArr ℂ := ⟨x.shape, fun i => x.get i + f.get [i.headD 0]⟩

/-! ### The diagnostics, as functions of the wind -/

/-- `vrtdiv` (standard.py:708-740). -/
noncomputable def vrtdiv (I : Inst) (u v : NDArr ℝ) (t : Option ℤ) : Except Fail (NDArr ℝ × NDArr ℝ) := do
  let (z, d) ← getvrtdivspec I u v t
  spectogrdPair I z d

/-- `vorticity` (standard.py:742-770). -/
noncomputable def vorticity (I : Inst) (u v : NDArr ℝ) (t : Option ℤ) : Except Fail (NDArr ℝ) := do
  spectogrd I (← getvrtspec I u v t)

/-- `divergence` (standard.py:772-799). -/
noncomputable def divergence (I : Inst) (u v : NDArr ℝ) (t : Option ℤ) : Except Fail (NDArr ℝ) := do
  spectogrd I (← getdivspec I u v t)

/-- `planetaryvorticity` (standard.py:801-826). -/
noncomputable def planetaryvorticity (I : Inst) (u : NDArr ℝ) (omega : Option ℝ) : NDArr ℝ :=
  broadcastRows u.shape (coriolis I (omegaOf omega))

/-- `absolutevorticity` (standard.py:828-861). -/
noncomputable def absolutevorticity (I : Inst) (u v : NDArr ℝ) (omega : Option ℝ) (t : Option ℤ) :
    Except Fail (NDArr ℝ) := do
  let vrt ← spectogrd I (← getvrtspec I u v t)
  return addG vrt (broadcastRows u.shape (coriolis I (omegaOf omega)))

/-- `sfvp` (standard.py:863-894). -/
noncomputable def sfvp (I : Inst) (u v : NDArr ℝ) (t : Option ℤ) : Except Fail (NDArr ℝ × NDArr ℝ) := do
  let (z, d) ← getvrtdivspec I u v t
  let psi ← invlapspec I z
  let chi ← invlapspec I d
  spectogrdPair I psi chi

/-- `streamfunction` (standard.py:896-925). -/
noncomputable def streamfunction (I : Inst) (u v : NDArr ℝ) (t : Option ℤ) : Except Fail (NDArr ℝ) := do
  let s ← invlapspec I (← getvrtspec I u v t)
  spectogrd I s

/-- `velocitypotential` (standard.py:927-956). -/
noncomputable def velocitypotential (I : Inst) (u v : NDArr ℝ) (t : Option ℤ) : Except Fail (NDArr ℝ) := do
  let s ← invlapspec I (← getdivspec I u v t)
  spectogrd I s

/-- `helmholtz` (standard.py:958-1003): `u_chi, v_chi, u_psi, v_psi`. -/
noncomputable def helmholtz (I : Inst) (u v : NDArr ℝ) (t : Option ℤ) :
    Except Fail (NDArr ℝ × NDArr ℝ × NDArr ℝ × NDArr ℝ) := do
  let (z, d) ← getvrtdivspec I u v t
  let psi ← invlapspec I z
  let chi ← invlapspec I d
  let (v_psi, u_psi) ← getgrad I psi
  let (u_chi, v_chi) ← getgrad I chi
  return (u_chi, v_chi, negG u_psi, v_psi)

/-- `irrotationalcomponent` (standard.py:1005-1044). -/
noncomputable def irrotational (I : Inst) (u v : NDArr ℝ) (t : Option ℤ) : Except Fail (NDArr ℝ × NDArr ℝ) := do
  let s ← invlapspec I (← getdivspec I u v t)
  getgrad I s

/-- `nondivergentcomponent` (standard.py:1046-1084). -/
noncomputable def nondivergent (I : Inst) (u v : NDArr ℝ) (t : Option ℤ) : Except Fail (NDArr ℝ × NDArr ℝ) := do
  let s ← invlapspec I (← getvrtspec I u v t)
  let (v_psi, u_psi) ← getgrad I s
  return (negG u_psi, v_psi)

/-- `gradient` (standard.py:1086-1118, 561-578) of a field of numbers. -/
noncomputable def gradient (I : Inst) (chi : NDArr ℝ) (t : Option ℤ) : Except Fail (NDArr ℝ × NDArr ℝ) := do
  let s ← grdtospec I chi t
  getgrad I s

/-- `truncate` (standard.py:1120-1164) of a field of numbers. -/
noncomputable def truncate (I : Inst) (x : NDArr ℝ) (t : Option ℤ) : Except Fail (NDArr ℝ) := do
  let s ← grdtospec I x t
  spectogrd I s

/-- `rossbywavesource` (standard.py:1166-1249). -/
noncomputable def rossbywavesource (I : Inst) (u v : NDArr ℝ) (t : Option ℤ) (omega : Option ℝ) :
    Except Fail (NDArr ℝ) := do
  let (z, d) ← getvrtdivspec I u v t
  let (vrt, div) ← spectogrdPair I z d
  let eta := addG vrt (broadcastRows u.shape (coriolis I (omegaOf omega)))
  let chi ← invlapspec I d
  let (uchi, vchi) ← getgrad I chi
  let f ← planetarySpec I (omegaOf omega) t
  let (etax, etay) ← getgrad I (addRows z f)
  return rwsOf eta div uchi etax vchi etay

end Skyborn.Sphere
