/-
A `VectorWind` object over its lifetime: the caches it keeps between calls.

Modelled: `/repo/src/skyborn/windspharm/standard.py` lines 443-665 (caches and the helpers that read and fill them) and the
methods of lines 693-1249 as sequences of operations on the object. The keys of the caches keep only what can vary during
the life of one object (`omega` and the truncation; the grid and the number type are fixed by the constructor).
-/
import Verif.Sphere.WindProps4

namespace Skyborn.Sphere

open Skyborn Skyborn.Spectral

/-- A wind flattened for the analyses: the extra dimensions and the two arrays. -/
abbrev Layout := List ℕ × NDArr ℝ × NDArr ℝ

/-- A `VectorWind` object (standard.py:443-452): the two public arrays and the caches. -/
structure Obj where
  /-- `self.u` -/ u : NDArr ℝ
  /-- `self.v` -/ v : NDArr ℝ
  /-- `_latitude_cache` -/ lat : Option (ℕ → ℝ)
  /-- `_coriolis_cache`, keyed by `omega` -/ cor : List (ℝ × (ℕ → ℝ))
  /-- `_planetary_vorticity_spec_cache`, keyed by `omega` and the truncation -/ fspec : List ((ℝ × ℕ) × NDArr ℂ)
  /-- `_vector_analysis_layout_cache` -/ layout : Option Layout

/-- The object after construction. -/
def Obj.fresh (u v : NDArr ℝ) : Obj := ⟨u, v, none, [], [], none⟩

/-- A method body: it may raise, and what it has stored before raising stays. -/
abbrev Method (α : Type) := ExceptT Fail (StateM Obj) α

open Classical in
/-- The entry of a dictionary. -/
noncomputable def look {κ α : Type} (k : κ) (d : List (κ × α)) : Option α :=
  (d.find? fun p => decide (p.1 = k)).map (·.2)

/-- A computation that does not touch the object. -/
def pureM {α : Type} (x : Except Fail α) : Method α := ExceptT.mk (pure x)

/-- `_latitude_values` (standard.py:454-476). -/
noncomputable def latM (I : Inst) : Method (ℕ → ℝ) := do
  match (← get).lat with
  | some f => return f
  | none =>
    modify fun o => { o with lat := some (latitude I) }
    return latitude I

/-- `_coriolis_values` (standard.py:478-504). -/
noncomputable def corM (I : Inst) (omega : Option ℝ) : Method (ℕ → ℝ) := do
  let w := omegaOf omega
  match look w (← get).cor with
  | some f => return f
  | none =>
    let l ← latM I
    let f := fun i => 2 * w * Real.sin (l i)
    modify fun o => { o with cor := (w, f) :: o.cor }
    return f

/-- `_planetary_vorticity` (standard.py:510-529): broadcast to the shape of `self.u`. -/
noncomputable def planetaryM (I : Inst) (omega : Option ℝ) : Method (NDArr ℝ) := do
  let f ← corM I omega
  return broadcastRows (← get).u.shape f

/-- `_planetary_vorticity_spec` (standard.py:531-559). -/
noncomputable def fspecM (I : Inst) (t : Option ℤ) (omega : Option ℝ) : Method (NDArr ℂ) := do
  let w := omegaOf omega
  let T ← pureM (validateNtrunc I t)
  match look (w, T) (← get).fspec with
  | some s => return s
  | none =>
    let f ← corM I (some w)
    let s ← pureM (grdtospec I (broadcastRows [I.nlat, I.nlon] f) (some T))
    modify fun o => { o with fspec := ((w, T), s) :: o.fspec }
    return s

/-- The flattening of `_vector_analysis_layout_inputs` (standard.py:589-608); the object has at least two
dimensions. -/
def layoutOf (u v : NDArr ℝ) : Layout :=
  let extra := u.shape.drop 2
  let flat (x : NDArr ℝ) := (x.reshape [x.shape.getD 0 0, x.shape.getD 1 0, extra.prod]).getD x
  (extra, flat u, flat v)

/-- `_vector_analysis_layout_inputs` (standard.py:580-610). -/
def layoutM : Method Layout := do
  match (← get).layout with
  | some l => return l
  | none =>
    let l := layoutOf (← get).u (← get).v
    modify fun o => { o with layout := some l }
    return l

/-- `_analyze_vector_harmonics_flattened` and the conversion (standard.py:632-645): `getvrtdivspec` after its
validation. -/
noncomputable def flatVrtdiv (I : Inst) (l : Layout) (ntrunc : Option ℤ) : Except Fail (NDArr ℂ × NDArr ℂ) := do
  let (extra, y, z) := l
  let T ← validateNtrunc I ntrunc
  raise (vectorAnalysis I.grid I.leg .both I.nlat I.nlon extra.prod)
  let c := fun k => I.anaV (colat I z k) (sliceOf I y k)
  let (vrt, div) ← inside (twodtoonedVrtdiv I.nlat T extra.prod I.rsphere
    (fun p => kept I (fun m n => (c (p.2.2 - 1) m n).1) p) (fun p => kept I (fun m n => (c (p.2.2 - 1) m n).2.1) p)
    (fun p => kept I (fun m n => (c (p.2.2 - 1) m n).2.2.1) p) (fun p => kept I (fun m n => (c (p.2.2 - 1) m n).2.2.2) p))
  let vrt ← settle (specLen T) extra.prod vrt
  let div ← settle (specLen T) extra.prod div
  let a ← restoreSpec (specLen T) extra (ofF (specLen T) extra.prod vrt)
  let b ← restoreSpec (specLen T) extra (ofF (specLen T) extra.prod div)
  return (a, b)

/-- The same for the vorticity (standard.py:647-660). -/
noncomputable def flatVrt (I : Inst) (l : Layout) (ntrunc : Option ℤ) : Except Fail (NDArr ℂ) := do
  let (extra, y, z) := l
  let T ← validateNtrunc I ntrunc
  raise (vectorAnalysis I.grid I.leg .vrt I.nlat I.nlon extra.prod)
  let c := fun k => I.anaVrt (colat I z k) (sliceOf I y k)
  let vrt ← inside (twodtoonedVrt I.nlat T extra.prod I.rsphere
    (fun p => kept I (fun m n => (c (p.2.2 - 1) m n).1) p) (fun p => kept I (fun m n => (c (p.2.2 - 1) m n).2) p))
  let vrt ← settle (specLen T) extra.prod vrt
  restoreSpec (specLen T) extra (ofF (specLen T) extra.prod vrt)

/-- The same for the divergence (standard.py:647-664). -/
noncomputable def flatDiv (I : Inst) (l : Layout) (ntrunc : Option ℤ) : Except Fail (NDArr ℂ) := do
  let (extra, y, z) := l
  let T ← validateNtrunc I ntrunc
  raise (vectorAnalysis I.grid I.leg .div I.nlat I.nlon extra.prod)
  let c := fun k => I.anaDiv (colat I z k) (sliceOf I y k)
  let div ← inside (twodtoonedDiv I.nlat T extra.prod I.rsphere
    (fun p => kept I (fun m n => (c (p.2.2 - 1) m n).1) p) (fun p => kept I (fun m n => (c (p.2.2 - 1) m n).2) p))
  let div ← settle (specLen T) extra.prod div
  restoreSpec (specLen T) extra (ofF (specLen T) extra.prod div)

/-- `_vector_analysis_spectral` (standard.py:612-666), both components. -/
noncomputable def anaBothM (I : Inst) (t : Option ℤ) : Method (NDArr ℂ × NDArr ℂ) := do
  let l ← layoutM
  pureM (flatVrtdiv I l t)

/-- `_vector_analysis_spectral(component="vrt")`. -/
noncomputable def anaVrtM (I : Inst) (t : Option ℤ) : Method (NDArr ℂ) := do
  let l ← layoutM
  pureM (flatVrt I l t)

/-- `_vector_analysis_spectral(component="div")`. -/
noncomputable def anaDivM (I : Inst) (t : Option ℤ) : Method (NDArr ℂ) := do
  let l ← layoutM
  pureM (flatDiv I l t)

/-- The calls a program can make (standard.py:693-1249). -/
inductive Query
  | magnitude
  | vrtdiv (t : Option ℤ)
  | vorticity (t : Option ℤ)
  | divergence (t : Option ℤ)
  | planetary (omega : Option ℝ)
  | absolute (omega : Option ℝ) (t : Option ℤ)
  | sfvp (t : Option ℤ)
  | streamfunction (t : Option ℤ)
  | velocitypotential (t : Option ℤ)
  | helmholtz (t : Option ℤ)
  | irrotational (t : Option ℤ)
  | nondivergent (t : Option ℤ)
  | gradient (chi : NDArr ℝ) (t : Option ℤ)
  | truncate (x : NDArr ℝ) (t : Option ℤ)
  | rossby (t : Option ℤ) (omega : Option ℝ)

/-- `np.hypot(self.u, self.v)` (standard.py:693-706). -/
noncomputable def speed (u v : NDArr ℝ) : NDArr ℝ := ⟨u.shape, fun i => Real.sqrt (u.get i ^ 2 + v.get i ^ 2)⟩

/-- The methods as operations on the object; the arrays returned, in order. -/
noncomputable def perform (I : Inst) : Query → Method (List (NDArr ℝ))
  | .magnitude => do
    return [speed (← get).u (← get).v]
  | .vrtdiv t => do
    let (z, d) ← anaBothM I t
    let (a, b) ← pureM (spectogrdPair I z d)
    return [a, b]
  | .vorticity t => do
    let z ← anaVrtM I t
    let a ← pureM (spectogrd I z)
    return [a]
  | .divergence t => do
    let d ← anaDivM I t
    let a ← pureM (spectogrd I d)
    return [a]
  | .planetary w => do
    let f ← planetaryM I w
    return [f]
  | .absolute w t => do
    let z ← anaVrtM I t
    let a ← pureM (spectogrd I z)
    let f ← planetaryM I w
    return [addG a f]
  | .sfvp t => do
    let (z, d) ← anaBothM I t
    let psi ← pureM (invlapspec I z)
    let chi ← pureM (invlapspec I d)
    let (a, b) ← pureM (spectogrdPair I psi chi)
    return [a, b]
  | .streamfunction t => do
    let z ← anaVrtM I t
    let s ← pureM (invlapspec I z)
    let a ← pureM (spectogrd I s)
    return [a]
  | .velocitypotential t => do
    let d ← anaDivM I t
    let s ← pureM (invlapspec I d)
    let a ← pureM (spectogrd I s)
    return [a]
  | .helmholtz t => do
    let (z, d) ← anaBothM I t
    let psi ← pureM (invlapspec I z)
    let chi ← pureM (invlapspec I d)
    let (vp, up) ← pureM (getgrad I psi)
    let (uc, vc) ← pureM (getgrad I chi)
    return [uc, vc, negG up, vp]
  | .irrotational t => do
    let d ← anaDivM I t
    let s ← pureM (invlapspec I d)
    let (a, b) ← pureM (getgrad I s)
    return [a, b]
  | .nondivergent t => do
    let z ← anaVrtM I t
    let s ← pureM (invlapspec I z)
    let (vp, up) ← pureM (getgrad I s)
    return [negG up, vp]
  | .gradient chi t => do
    let (a, b) ← pureM (gradient I chi t)
    return [a, b]
  | .truncate x t => do
    let a ← pureM (truncate I x t)
    return [a]
  | .rossby t w => do
    let (z, d) ← anaBothM I t
    let (vrt, div) ← pureM (spectogrdPair I z d)
    let f ← planetaryM I w
    let chi ← pureM (invlapspec I d)
    let (uc, vc) ← pureM (getgrad I chi)
    let fs ← fspecM I t w
    let (ex, ey) ← pureM (getgrad I (addRows z fs))
    return [rwsOf (addG vrt f) div uc ex vc ey]

/-- What a program can do with the object: call a method, or assign the public arrays `vw.u`, `vw.v` (an assignment in
place has the same effect unless the array already has the number type and memory layout of the cache, standard.py:589-608). -/
inductive Event
  | ask (q : Query)
  | write (u v : NDArr ℝ)

/-- A history: the results of the calls in order. -/
noncomputable def history (I : Inst) : Obj → List Event → List (Except Fail (List (NDArr ℝ)))
  | _, [] => []
  | o, .ask q :: es => ((perform I q).run.run o).1 :: history I ((perform I q).run.run o).2 es
  | o, .write u v :: es => history I { o with u := u, v := v } es

end Skyborn.Sphere
