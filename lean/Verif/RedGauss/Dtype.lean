/-
`ReducedGaussianSpharmt`: element types of the results.
-/
import Verif.RedGauss.History

namespace Skyborn.RedGauss

/-- NumPy element types of an argument or result. -/
inductive NPType
  | integer | float16 | float32 | float64 | complex64 | complex128
  deriving DecidableEq

namespace NPType

/-- `_public_real_dtype` (reduced_gaussian.py:177-186). -/
def publicReal (p : Prec) (arrays : List NPType) : NPType :=
  match p with
  | .single => .float32
  | .double => .float64
  | .auto => if arrays.any (fun d => d = .float64 ∨ d = .complex128) then .float64 else .float32

/-- `_public_complex_dtype` (reduced_gaussian.py:188-193). -/
def publicComplex (p : Prec) (arrays : List NPType) : NPType :=
  if publicReal p arrays = .float64 then .complex128 else .complex64

/-- Element type after `_validate_grid_data`: `np.asfortranarray(normalized, dtype=np.float32)` (reduced_gaussian.py:354). -/
def validatedGrid (_ : NPType) : NPType := .float32

/-- Element type after `_validate_spectral_data` (reduced_gaussian.py:388-393). -/
def validatedSpec (_ : NPType) : NPType := .complex64

/-- `_restore_spectral_shape` without an output type (reduced_gaussian.py:404-411): `stored` is the type of the array
passed. -/
def restoredSpec (p : Prec) (stored : NPType) : NPType :=
  match p with
  | .double => .complex128
  | .single => .complex64
  | .auto => stored

/-- Type of the result of `grdtospec` (reduced_gaussian.py:708-714): `datagrid` is rebound to the converted array before
`_public_complex_dtype` looks at it. -/
def grdtospecType (p : Prec) (x : NPType) : NPType := publicComplex p [validatedGrid x]

/-- Type of the result of `spectogrd` (reduced_gaussian.py:720-727). -/
def spectogrdType (p : Prec) (s : NPType) : NPType := publicReal p [validatedSpec s]

end NPType

open NPType in
/-- Element type of the results of a call, `d` and `d'` being those of its first and second array argument: `grdtospec`
708-714, `spectogrd` 720-727, `_spectogrd_pair` 733-742, `getvrtdivspec` 778-788, `getvrtspec` 794-801, `getdivspec` 807-814,
`getuv` 822-836 (the spectra are rebound before the type is taken), `getgrad` 840-849, `getgrad_pair` 861-874, `_invlapspec`
880-886, `specsmooth` 888-900 (reduced_gaussian.py). -/
def Call.resultType (p : Prec) (d d' : NPType) : Call → NPType
  | .grdtospec _ _ => grdtospecType p d
  | .spectogrd _ => spectogrdType p d
  | .spectogrdPair _ _ => publicReal p [d, d']
  | .getvrtdivspec _ _ _ => publicComplex p [d, d']
  | .getvrtspec _ _ _ => publicComplex p [d, d']
  | .getdivspec _ _ _ => publicComplex p [d, d']
  | .getuv _ _ => publicReal p [validatedSpec d, validatedSpec d']
  | .getgrad _ => publicReal p [d]
  | .getgradPair _ _ => publicReal p [d, d']
  | .invlapspec _ => publicComplex p [validatedSpec d]
  | .specsmooth _ _ => spectogrdType p (restoredSpec p (validatedSpec (grdtospecType p d)))

/-! ### Specification -/

/-- Element types of double precision. -/
def NPType.isDouble : NPType → Prop
  | .float64 | .complex128 => True
  | _ => False

/-- The calls returning spectra. -/
def Call.returnsSpectrum : Call → Prop
  | .grdtospec _ _ | .getvrtdivspec _ _ _ | .getvrtspec _ _ _ | .getdivspec _ _ _ | .invlapspec _ => True
  | _ => False

/-- The array arguments whose precision is relevant (the smoothing factors are not): the second is `d'` if there is one. -/
def Call.relevant (d d' : NPType) : Call → List NPType
  | .grdtospec _ _ | .spectogrd _ | .getgrad _ | .invlapspec _ | .specsmooth _ _ => [d]
  | _ => [d, d']

/-- The calls that look at the precision of the arrays passed. -/
def Call.looks : Call → Prop
  | .spectogrdPair _ _ | .getvrtdivspec _ _ _ | .getvrtspec _ _ _ | .getdivspec _ _ _ | .getgrad _ | .getgradPair _ _ => True
  | _ => False

/-- The documented rule: `single` returns single precision, `double` double precision, and `auto` follows the highest
precision of the relevant inputs; spectra are complex, fields real. -/
def Spec.ResultType (p : Prec) (spectrum : Prop) (inputs : List NPType) (t : NPType) : Prop :=
  (spectrum → t = .complex64 ∨ t = .complex128) ∧ (¬ spectrum → t = .float32 ∨ t = .float64) ∧
    (t.isDouble ↔ p = .double ∨ (p = .auto ∧ ∃ d ∈ inputs, d.isDouble))

/-- C216: the rule holds for `single` and `double` in every call, and for `auto` in the calls that look at the arrays passed;
in the other calls `auto` is the same as `single`. -/
theorem C216_precision_partial (p : Prec) (d d' : NPType) (k : Call) :
    ((p ≠ .auto ∨ k.looks) → Spec.ResultType p k.returnsSpectrum (k.relevant d d') (k.resultType p d d')) ∧
      (¬ k.looks → k.resultType .auto d d' = k.resultType .single d d') := by
  constructor
  · intro h
    cases k <;> cases p <;> first | (exfalso; simp [Call.looks] at h; done) | skip
    all_goals
      cases d <;> cases d' <;>
        simp [Spec.ResultType, Call.returnsSpectrum, Call.relevant, Call.resultType, NPType.isDouble, NPType.publicReal, NPType.publicComplex,
          NPType.grdtospecType, NPType.spectogrdType]
  · intro h
    cases k <;> first | (exfalso; exact h trivial) | rfl

/-- C216 is not true of the others: `grdtospec`, `spectogrd`, `getuv` and `specsmooth` return single precision for double
precision arguments under `auto`. -/
theorem C216_precision_false (x : NDArr ℝ) (t : Option ℤ) (s s' : NDArr ℂ) (f : NDArr ℝ) :
    ∀ k ∈ [Call.grdtospec x t, .spectogrd s, .getuv s s', .specsmooth x f],
      ∃ d d', ¬ Spec.ResultType .auto k.returnsSpectrum (k.relevant d d') (k.resultType .auto d d') := by
  intro k hk
  simp only [List.mem_cons, List.not_mem_nil, or_false] at hk
  rcases hk with rfl | rfl | rfl | rfl <;> refine ⟨.float64, .float64, fun h => ?_⟩ <;>
    · have := h.2.2.mpr (.inr ⟨rfl, .float64, by simp [Call.relevant], trivial⟩)
      exact this

/-- Both kinds of calls exist. -/
example (s : NDArr ℂ) : (Call.getgrad s).looks ∧ ¬ (Call.spectogrd s).looks ∧ (Call.getgrad s).resultType .auto .complex128 .integer = .float64 ∧
    (Call.spectogrd s).resultType .auto .complex128 .integer = .float32 := ⟨trivial, id, rfl, rfl⟩

end Skyborn.RedGauss
