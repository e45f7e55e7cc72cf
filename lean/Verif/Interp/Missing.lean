/-
Model of /repo/src/skyborn/interp/missing_values.py and C42.

A dtype is its type of values with the test `np.isnan`, the largest value and, for floating and complex types, NaN. Comparison
`==` is IEEE: false as soon as one side is NaN (signed zeros are identified). Unsupported dtypes (`raise Exception`) and the str
dtype are not modelled. Both functions modify the array passed in and return that same array; here the array after the call is
the returned value.
-/
import Verif.Common.ND
import Mathlib.Tactic.NormNum
import Mathlib.Data.Rat.Cast.Defs

namespace Skyborn.Interp

open Skyborn

variable {V : Type} [DecidableEq V]

/-- missing_values.py:8-32: what the functions look up for a dtype. `nan` is present for floating and complex types. -/
structure DType (V : Type) where
  isnan : V → Bool
  maxv : V
  nan : Option V

/-- IEEE `==`. -/
def DType.eq (dt : DType V) (a b : V) : Bool := !dt.isnan a && !dt.isnan b && decide (a = b)

/-- missing_values.py:47-53 (also 85-91): the default missing value on the Python side. -/
def DType.defaultPy (dt : DType V) : V := dt.nan.getD dt.maxv

/-- missing_values.py:36-66 `py2fort_msg`: the array after the call, `msg_py`, `msg_fort`. -/
def py2fort (dt : DType V) (a : NDArr V) (msgPy msgFort : Option V) : NDArr V × V × V :=
  let mp := msgPy.getD dt.defaultPy
  let mf := msgFort.getD dt.maxv
  let missing : V → Bool := fun v => if dt.isnan mp then dt.isnan v else dt.eq v mp
  (⟨a.shape, fun idx => if missing (a.get idx) then mf else a.get idx⟩, mp, mf)

/-- missing_values.py:71-98 `fort2py_msg`: the array after the call, `msg_fort`, `msg_py`. -/
def fort2py (dt : DType V) (a : NDArr V) (msgFort msgPy : Option V) : NDArr V × V × V :=
  let mf := msgFort.getD dt.maxv
  let mp := msgPy.getD dt.defaultPy
  (⟨a.shape, fun idx => if dt.eq (a.get idx) mf then mp else a.get idx⟩, mf, mp)

/-- Missing in the sense of the documentation: NaN when the missing value is NaN, otherwise equal to the missing value. -/
def Spec.IsMissing (dt : DType V) (mp v : V) : Prop := if dt.isnan mp then dt.isnan v = true else v = mp

theorem missing_iff (dt : DType V) (mp v : V) :
    (if dt.isnan mp then dt.isnan v else dt.eq v mp) = true ↔ Spec.IsMissing dt mp v := by
  unfold Spec.IsMissing DType.eq
  by_cases h : dt.isnan mp = true
  · simp [h]
  · simp only [h]
    simp only [Bool.false_eq_true, if_false]
    constructor
    · intro g
      simp at g
      exact g.2
    · rintro rfl
      simp [h]

/-- C42: after encoding, the positions holding the sentinel are exactly the missing positions, the others are unchanged -
provided no other value equals the sentinel (and the sentinel is not NaN). -/
theorem C42_positions (dt : DType V) (a : NDArr V) (msgPy msgFort : Option V) {b : NDArr V} {mp mf : V}
    (e : py2fort dt a msgPy msgFort = (b, mp, mf)) (hfree : ∀ idx, InB a.shape idx → a.get idx = mf → Spec.IsMissing dt mp (a.get idx)) :
    b.shape = a.shape ∧ ∀ idx, InB a.shape idx → (b.get idx = mf ↔ Spec.IsMissing dt mp (a.get idx)) ∧
      (¬ Spec.IsMissing dt mp (a.get idx) → b.get idx = a.get idx) := by
  unfold py2fort at e
  simp only [Prod.mk.injEq] at e
  obtain ⟨rfl, rfl, rfl⟩ := e
  refine ⟨rfl, fun idx hidx => ?_⟩
  dsimp only
  by_cases h : Spec.IsMissing dt (msgPy.getD dt.defaultPy) (a.get idx)
  · rw [if_pos ((missing_iff dt _ _).mpr h)]
    exact ⟨iff_of_true rfl h, fun g => absurd h g⟩
  · rw [if_neg (fun g => h ((missing_iff dt _ _).mp g))]
    exact ⟨⟨fun g => hfree idx hidx g, fun g => absurd g h⟩, fun _ => rfl⟩

/-- C42: encoding followed by decoding with the returned values restores every non-missing value and gives the missing value at
the missing positions; with only one NaN (or a non-NaN missing value) the array is restored. -/
theorem C42_roundtrip (dt : DType V) (a : NDArr V) (msgPy msgFort : Option V) {b c : NDArr V} {mp mf mf' mp' : V}
    (e : py2fort dt a msgPy msgFort = (b, mp, mf)) (e' : fort2py dt b (some mf) (some mp) = (c, mf', mp')) (hmf : dt.isnan mf = false)
    (hfree : ∀ idx, InB a.shape idx → a.get idx = mf → Spec.IsMissing dt mp (a.get idx)) :
    c.shape = a.shape ∧ mf' = mf ∧ mp' = mp ∧ ∀ idx, InB a.shape idx →
      (¬ Spec.IsMissing dt mp (a.get idx) → c.get idx = a.get idx) ∧ (Spec.IsMissing dt mp (a.get idx) → c.get idx = mp) := by
  obtain ⟨hs, h⟩ := C42_positions dt a msgPy msgFort e hfree
  unfold fort2py at e'
  simp only [Prod.mk.injEq, Option.getD_some] at e'
  obtain ⟨rfl, rfl, rfl⟩ := e'
  refine ⟨hs, rfl, rfl, fun idx hidx => ?_⟩
  obtain ⟨h1, h2⟩ := h idx hidx
  dsimp only
  constructor
  · intro hn
    rw [if_neg, h2 hn]
    intro g
    unfold DType.eq at g
    simp at g
    exact hn (h1.mp g.2)
  · intro hm
    rw [h1.mpr hm, if_pos]
    unfold DType.eq
    simp [hmf]

/-- C42 with the default arguments on a floating type with a single NaN: the round trip is the identity on every array that
does not contain the largest value. -/
theorem C42_roundtrip_default (dt : DType V) (nan : V) (hnan : dt.nan = some nan) (huniq : ∀ v, dt.isnan v = true ↔ v = nan)
    (hmax : dt.maxv ≠ nan) (a : NDArr V) (hfree : ∀ idx, InB a.shape idx → a.get idx ≠ dt.maxv) :
    NDArr.Eqv (fort2py dt (py2fort dt a none none).1 none none).1 a := by
  have h := C42_roundtrip dt a none none (b := (py2fort dt a none none).1) (mp := nan) (mf := dt.maxv)
    (c := (fort2py dt (py2fort dt a none none).1 none none).1) (mf' := dt.maxv) (mp' := nan)
    (by simp [py2fort, DType.defaultPy, hnan]) (by simp [fort2py, DType.defaultPy, hnan])
    (by rw [← Bool.not_eq_true]; exact fun g => hmax ((huniq _).mp g)) (fun idx hidx g => absurd g (hfree idx hidx))
  refine ⟨h.1, fun idx hidx => ?_⟩
  have h2 := h.2.2.2 idx (by rw [h.1] at hidx; exact hidx)
  by_cases hm : Spec.IsMissing dt nan (a.get idx)
  · rw [h2.2 hm]
    unfold Spec.IsMissing at hm
    rw [if_pos ((huniq nan).mpr rfl)] at hm
    exact ((huniq _).mp hm).symm
  · exact h2.1 hm

/-- Float64 reduced to what matters here: NaN is `none`, the largest value is a number. -/
def floatType (m : ℚ) : DType (Option ℚ) := ⟨fun v => v.isNone, some m, some none⟩

/-- The hypothesis on the sentinel is needed: an array containing the largest value comes back with a missing value. -/
theorem C42_sentinel_lost : ∃ a : NDArr (Option ℚ), a.get [0] = some 9 ∧
    (fort2py (floatType 9) (py2fort (floatType 9) a none none).1 none none).1.get [0] = none :=
  ⟨⟨[1], fun _ => some 9⟩, rfl, by
    simp [fort2py, py2fort, floatType, DType.defaultPy, DType.eq]⟩

example : NDArr.Eqv (fort2py (floatType 9) (py2fort (floatType 9) ⟨[3], fun i => if i = [1] then none else some 4⟩ none none).1 none none).1
    ⟨[3], fun i => if i = [1] then none else some 4⟩ :=
  C42_roundtrip_default (floatType 9) none rfl (by intro v; cases v <;> simp [floatType]) (by simp [floatType]) _ (by
    intro idx _
    simp only [floatType]
    split
    · exact fun g => by cases g
    · norm_num)

end Skyborn.Interp
