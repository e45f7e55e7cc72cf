/-
Wind analysis on packed reduced Gaussian grids: `ReducedVectorWind`.

Modelled: `/repo/src/skyborn/windspharm/reduced.py`, on top of the model of `ReducedGaussianSpharmt` (`Verif.RedGauss`).
Numbers are exact; an element of an input that is masked, not a number or infinite is `none`. `ValidationError` is a
`ValueError`; both are `Fail.validation`. The element type of an array is only used as part of a dictionary key here (see
`Verif.RedWind.Dtype`). `Es` gives the environment (schedule, uninitialised memory) of each call of a compiled routine.
-/
import Verif.RedGauss.Dtype

namespace Skyborn.RedWind

open Skyborn RedGauss

/-- A spectrum as the compiled routines return it: its length and the coefficients by packed position and slice, from 1. -/
structure Spect where
  /-- `shape[0]` -/ len : ℕ
  /-- values -/ val : ℕ → ℕ → ℂ

/-- The attributes of an object that never change (reduced.py:78-101). -/
structure WCfg where
  /-- `s` -/ cfg : Cfg
  /-- `_output_dtype` -/ outType : NPType
  /-- `u` -/ u : NDArr ℝ
  /-- `v` -/ v : NDArr ℝ
  /-- `_extra_shape` -/ extra : List ℕ
  /-- `_u_backend` -/ ub : NDArr ℝ
  /-- `_v_backend` -/ vb : NDArr ℝ

/-- `_nt` (reduced.py:84-86): the product of no numbers is 1. -/
def WCfg.nt (w : WCfg) : ℕ := w.extra.prod

/-- The dictionaries of an object (reduced.py:101-108). A new entry goes to the front: a lookup finds the last one stored. -/
structure WCaches where
  /-- `_latitude_cache` -/ lat : Option (List ℝ)
  /-- `_planetary_vorticity_cache` -/ pv : List ((ℝ × NPType × List ℕ) × NDArr ℝ)
  /-- `_planetary_vorticity_spec_cache` -/ pvs : List ((ℝ × ℕ) × Spect)
  /-- `_spectral_cache[("vrtdiv", n)]` -/ vrtdiv : List (ℕ × (Spect × Spect))
  /-- `_spectral_cache[("vrt", n)]` -/ vrt : List (ℕ × Spect)
  /-- `_spectral_cache[("div", n)]` -/ div : List (ℕ × Spect)

/-- After construction. -/
def WCaches.fresh : WCaches := ⟨none, [], [], [], [], []⟩

/-- State of a method: the module and the transform object, and the dictionaries of the wind object. -/
abbrev St := (World × Caches) × WCaches

/-- A method body; what was stored before an exception stays. -/
abbrev MW (α : Type) := ExceptT Fail (StateM St) α

/-- A call of a method of the transform object. -/
def inner {α : Type} (x : M α) : MW α := fun s => ((exec x s.1).1, ((exec x s.1).2, s.2))

/-- A step that does not touch the state. -/
def liftW {α : Type} : Except Fail α → MW α
  | .ok a => pure a
  | .error e => throw e

/-- `np.isfinite(x).all()`, masked elements having been replaced by NaN. -/
def finite (x : NDArr (Option ℝ)) : Prop := ∀ idx, InB x.shape idx → (x.get idx).isSome

/-- The numbers of a finite array. -/
def values (x : NDArr (Option ℝ)) : NDArr ℝ := ⟨x.shape, fun idx => (x.get idx).getD 0⟩

/-- `np.result_type` of two floating types (NumPy promotion). -/
def NPType.promote : NPType → NPType → NPType
  | .float64, _ | _, .float64 => .float64
  | .float32, _ | _, .float32 => .float32
  | a, _ => a

/-- The floating types. -/
def NPType.floating : NPType → Bool
  | .float16 | .float32 | .float64 => true
  | _ => false

/-- `_infer_output_dtype` (reduced.py:121-134). -/
def inferType : List NPType → NPType
  | [] => .float64
  | d :: ds => ds.foldl (fun a b => NPType.promote a (if NPType.floating b then b else .float64)) (if NPType.floating d then d else .float64)

open Classical in
/-- `__init__` (reduced.py:52-107) with `_validate_pl` (110-118), `_process_input_array` (167-182), `_validate_input_data`
(184-201) and `_normalize_grid_backend` (154-157); `du`, `dv` are the element types of `u` and `v`. -/
noncomputable def construct (lib : Lib) (W : World) (u v : NDArr (Option ℝ)) (du dv : NPType) (pl : NDArr ℤ) (rsphere : ℝ)
    (legfunc precision : String) : Except Fail (WCfg × World) :=
  match pl.shape with
  | [n] =>
    if n < 3 then .error .validation
    else if (List.range n).any fun j => decide (pl.get [j] < 4) then .error .validation
    else match validatePrecision precision with
      | .error e => .error e
      | .ok _ =>
        if u.shape ≠ v.shape then .error .validation
        else match u.shape with
          | [] => .error .validation
          | p :: extra =>
            if p ≠ ((List.range n).map fun j => (pl.get [j]).toNat).sum then .error .validation
            else if ¬ finite u ∨ ¬ finite v then .error .validation
            else match (values u).reshape [p, extra.prod], (values v).reshape [p, extra.prod] with
              | some ub, some vb =>
                match RedGauss.construct lib W pl rsphere legfunc precision with
                | .error e => .error e
                | .ok (c, W') => .ok (⟨c, inferType [du, dv], values u, values v, extra, ub, vb⟩, W')
              | _, _ => .error .validation
  | _ => .error .validation

section
variable (Es : ℕ → Env) (lib : Lib) (w : WCfg)

/-- `_restore_grid` (reduced.py:159-164) without the conversion of the number type. -/
def restoreGridW (f : ℕ → ℕ → ℝ) : MW (NDArr ℝ) := liftW (restore w.cfg.npoints w.extra (ofF w.cfg.npoints w.nt f))

open Classical in
/-- `_validate_scalar_field` (reduced.py:203-213), then `_normalize_grid_backend` (154-157). -/
noncomputable def scalarField (x : NDArr (Option ℝ)) : MW (ℕ → ℕ → ℝ) :=
  if x.shape ≠ w.u.shape then liftW (.error .validation)
  else if ¬ finite x then liftW (.error .validation)
  else match (values x).reshape [w.u.shape.headD 0, w.nt] with
    | some y => pure (toF y)
    | none => liftW (.error .validation)

/-! ### Planetary vorticity -/

/-- `_latitude_values` (reduced.py:227-231): `np.repeat(lat, pl)`, the latitudes being those of `gaussian_lats_wts`. -/
noncomputable def latitudes : MW (List ℝ) := do
  match (← get).2.lat with
  | some l => return l
  | none =>
    let l := (List.range w.cfg.nlat).flatMap fun j => List.replicate (w.cfg.row (j + 1)) (90 - lib.theta w.cfg.nlat (j + 1) * (180 / Real.pi))
    modify fun s => (s.1, { s.2 with lat := some l })
    return l

/-- `7.292e-05 if omega is None else float(omega)` (reduced.py:239, 283). -/
noncomputable def omegaOf (omega : Option ℝ) : ℝ := omega.getD (7292 / 100000000)

open Classical in
/-- `_planetary_vorticity_values` (reduced.py:233-258). `np.broadcast_to` of one number per point to the shape. -/
noncomputable def pvValues (omega : Option ℝ) (d : NPType) (shape : List ℕ) : MW (NDArr ℝ) := do
  let key := (omegaOf omega, d, shape)
  match (← get).2.pv.lookup key with
  | some r => return r
  | none =>
    let l ← latitudes lib w
    let vals := l.map fun x => 2 * omegaOf omega * Real.sin (x * (Real.pi / 180))
    if shape.headD 0 ≠ vals.length then liftW (.error .validation)
    else
      let r : NDArr ℝ := ⟨shape, fun idx => vals.getD (idx.headD 0) 0⟩
      modify fun s => (s.1, { s.2 with pv := (key, r) :: s.2.pv })
      return r

/-- `_planetary_vorticity` (reduced.py:260-270). -/
noncomputable def planetary (omega : Option ℝ) (materialize : Bool) : MW (NDArr ℝ) :=
  pvValues lib w omega (if materialize then w.outType else .float32) w.u.shape

/-- `_planetary_vorticity_grid` (reduced.py:272-277). -/
noncomputable def pvGrid (omega : Option ℝ) : MW (NDArr ℝ) := pvValues lib w omega .float32 w.ub.shape

open Classical in
/-- `_planetary_vorticity_spec` (reduced.py:279-291). -/
noncomputable def pvSpec (E : Env) (t : Option ℤ) (omega : Option ℝ) : MW Spect := do
  let T ← liftW (validateNtrunc w.cfg t)
  let key := (omegaOf omega, T)
  match (← get).2.pvs.lookup key with
  | some s => return s
  | none =>
    let g ← pvGrid lib w omega
    let a ← inner (analyzeScalar E lib w.cfg w.nt (toF g) (some T))
    let s : Spect := ⟨specLen T, a⟩
    modify fun st => (st.1, { st.2 with pvs := (key, s) :: st.2.pvs })
    return s

/-! ### Spectra of the wind -/

/-- `_vector_analysis_spectral` (reduced.py:321-336): vorticity, divergence. -/
noncomputable def windSpectra (E : Env) (t : Option ℤ) : MW (Spect × Spect) := do
  let T ← liftW (validateNtrunc w.cfg t)
  match (← get).2.vrtdiv.lookup T with
  | some r => return r
  | none =>
    let a ← inner (analyzeWind E lib w.cfg w.nt (toF w.ub) (toF w.vb) (some T))
    let r : Spect × Spect := (⟨specLen T, fun p k => (a p k).2⟩, ⟨specLen T, fun p k => (a p k).1⟩)
    modify fun s => (s.1, { s.2 with vrtdiv := (T, r) :: s.2.vrtdiv, vrt := (T, r.1) :: s.2.vrt, div := (T, r.2) :: s.2.div })
    return r

/-- `_vorticity_spectral` (reduced.py:338-353). -/
noncomputable def vrtSpectrum (E : Env) (t : Option ℤ) : MW Spect := do
  let T ← liftW (validateNtrunc w.cfg t)
  match (← get).2.vrt.lookup T with
  | some r => return r
  | none =>
    let r ← match (← get).2.vrtdiv.lookup T with
      | some full => pure full.1
      | none => do
        let a ← inner (analyzeComponent E lib w.cfg w.nt (toF w.ub) (toF w.vb) (some T) 1)
        pure (⟨specLen T, a⟩ : Spect)
    modify fun s => (s.1, { s.2 with vrt := (T, r) :: s.2.vrt })
    return r

/-- `_divergence_spectral` (reduced.py:355-370). -/
noncomputable def divSpectrum (E : Env) (t : Option ℤ) : MW Spect := do
  let T ← liftW (validateNtrunc w.cfg t)
  match (← get).2.div.lookup T with
  | some r => return r
  | none =>
    let r ← match (← get).2.vrtdiv.lookup T with
      | some full => pure full.2
      | none => do
        let a ← inner (analyzeComponent E lib w.cfg w.nt (toF w.ub) (toF w.vb) (some T) 2)
        pure (⟨specLen T, a⟩ : Spect)
    modify fun s => (s.1, { s.2 with div := (T, r) :: s.2.div })
    return r

/-- `self.s._invlap` of a spectrum. -/
noncomputable def invlapW (s : Spect) : Spect := ⟨s.len, invlapF w.cfg s.len w.nt s.val⟩

/-! ### Synthesis -/

/-- `_spectogrd` (reduced.py:312-319). -/
noncomputable def synth (E : Env) (s : Spect) (t : Option ℤ) : MW (NDArr ℝ) := do
  let T ← liftW (validateNtrunc w.cfg t)
  let g ← inner (synthesizeScalar E lib w.cfg s.len w.nt s.val (some T))
  restoreGridW w g

/-- `_spectogrd_pair` (reduced.py:299-310). -/
noncomputable def synthPair (E E' : Env) (a b : Spect) (t : Option ℤ) : MW (NDArr ℝ × NDArr ℝ) := do
  let T ← liftW (validateNtrunc w.cfg t)
  let g ← inner (synthesizePair E E' lib w.cfg a.len w.nt a.val b.val (some T))
  let x ← restoreGridW w g.1
  let y ← restoreGridW w g.2
  return (x, y)

/-! ### Public methods -/

/-- `magnitude` (reduced.py:372-374). -/
noncomputable def magnitude : NDArr ℝ := ⟨w.u.shape, fun idx => Real.sqrt (w.u.get idx ^ 2 + w.v.get idx ^ 2)⟩

/-- `vrtdiv` (reduced.py:376-379). -/
noncomputable def vrtdiv (t : Option ℤ) : MW (NDArr ℝ × NDArr ℝ) := do
  let (a, b) ← windSpectra lib w (Es 0) t
  synthPair lib w (Es 1) (Es 2) a b t

/-- `vorticity` (reduced.py:381-384). -/
noncomputable def vorticity (t : Option ℤ) : MW (NDArr ℝ) := do
  let a ← vrtSpectrum lib w (Es 0) t
  synth lib w (Es 1) a t

/-- `divergence` (reduced.py:386-389). -/
noncomputable def divergence (t : Option ℤ) : MW (NDArr ℝ) := do
  let a ← divSpectrum lib w (Es 0) t
  synth lib w (Es 1) a t

/-- `planetaryvorticity` (reduced.py:391-393). -/
noncomputable def planetaryvorticity (omega : Option ℝ) : MW (NDArr ℝ) := planetary lib w omega true

/-- `absolutevorticity` (reduced.py:395-402). -/
noncomputable def absolutevorticity (omega : Option ℝ) (t : Option ℤ) : MW (NDArr ℝ) := do
  let a ← vorticity Es lib w t
  let f ← planetary lib w omega false
  return ⟨a.shape, fun idx => a.get idx + f.get idx⟩

/-- `sfvp` (reduced.py:404-411). -/
noncomputable def sfvp (t : Option ℤ) : MW (NDArr ℝ × NDArr ℝ) := do
  let (a, b) ← windSpectra lib w (Es 0) t
  synthPair lib w (Es 1) (Es 2) (invlapW w a) (invlapW w b) t

/-- `streamfunction` (reduced.py:413-416). -/
noncomputable def streamfunction (t : Option ℤ) : MW (NDArr ℝ) := do
  let a ← vrtSpectrum lib w (Es 0) t
  synth lib w (Es 1) (invlapW w a) t

/-- `velocitypotential` (reduced.py:418-421). -/
noncomputable def velocitypotential (t : Option ℤ) : MW (NDArr ℝ) := do
  let a ← divSpectrum lib w (Es 0) t
  synth lib w (Es 1) (invlapW w a) t

/-- `helmholtz` (reduced.py:423-438): (`u_chi`, `v_chi`), (`u_psi`, `v_psi`). -/
noncomputable def helmholtz (t : Option ℤ) : MW ((NDArr ℝ × NDArr ℝ) × (NDArr ℝ × NDArr ℝ)) := do
  let (a, b) ← windSpectra lib w (Es 0) t
  let psi := invlapW w a
  let chi := invlapW w b
  let g ← inner (synthesizeGradPair (Es 1) lib w.cfg chi.len w.nt chi.val psi.val t)
  let x ← restoreGridW w (g 1)
  let y ← restoreGridW w (g 2)
  let x' ← restoreGridW w fun p k => - g 4 p k
  let y' ← restoreGridW w (g 3)
  return ((x, y), (x', y'))

/-- `irrotationalcomponent` (reduced.py:440-446). -/
noncomputable def irrotational (t : Option ℤ) : MW (NDArr ℝ × NDArr ℝ) := do
  let b ← divSpectrum lib w (Es 0) t
  let chi := invlapW w b
  let g ← inner (synthesizeGrad (Es 1) lib w.cfg chi.len w.nt chi.val t)
  let x ← restoreGridW w (g 1)
  let y ← restoreGridW w (g 2)
  return (x, y)

/-- `nondivergentcomponent` (reduced.py:448-455). -/
noncomputable def nondivergent (t : Option ℤ) : MW (NDArr ℝ × NDArr ℝ) := do
  let a ← vrtSpectrum lib w (Es 0) t
  let psi := invlapW w a
  let g ← inner (synthesizeGrad (Es 1) lib w.cfg psi.len w.nt psi.val t)
  let x ← restoreGridW w fun p k => - g 2 p k
  let y ← restoreGridW w (g 1)
  return (x, y)

/-- `gradient` (reduced.py:457-470). -/
noncomputable def gradient (x : NDArr (Option ℝ)) (t : Option ℤ) : MW (NDArr ℝ × NDArr ℝ) := do
  let f ← scalarField w x
  let a ← inner (analyzeScalar (Es 0) lib w.cfg w.nt f t)
  let T ← liftW (validateNtrunc w.cfg t)
  let g ← inner (synthesizeGrad (Es 1) lib w.cfg (specLen T) w.nt a t)
  let y ← restoreGridW w (g 1)
  let z ← restoreGridW w (g 2)
  return (y, z)

/-- `truncate` (reduced.py:472-481). The length of the spectrum is that of the table of the truncation. -/
noncomputable def truncate (x : NDArr (Option ℝ)) (t : Option ℤ) : MW (NDArr ℝ) := do
  let f ← scalarField w x
  let a ← inner (analyzeScalar (Es 0) lib w.cfg w.nt f t)
  let T ← liftW (validateNtrunc w.cfg t)
  synth lib w (Es 1) ⟨specLen T, a⟩ t

/-- `rossbywavesource` (reduced.py:483-494). -/
noncomputable def rossbywavesource (t : Option ℤ) (omega : Option ℝ) : MW (NDArr ℝ) := do
  let (a, b) ← windSpectra lib w (Es 0) t
  let vd ← inner (synthesizePair (Es 1) (Es 2) lib w.cfg a.len w.nt a.val b.val t)
  let f ← pvGrid lib w omega
  let chi := invlapW w b
  let g ← inner (synthesizeGrad (Es 3) lib w.cfg chi.len w.nt chi.val t)
  let fs ← pvSpec lib w (Es 4) t omega
  let h ← inner (synthesizeGrad (Es 5) lib w.cfg a.len w.nt (fun p k => a.val p k + fs.val p k) t)
  restoreGridW w fun p k => -(vd.1 p k + toF f p k) * vd.2 p k - (g 1 p k * h 1 p k + g 2 p k * h 2 p k)

end

end Skyborn.RedWind
