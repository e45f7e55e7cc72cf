/-
`ReducedVectorWind`: element types of the results (C227).
-/
import Verif.RedWind.History

namespace Skyborn.RedWind

open Skyborn RedGauss

/-- `_resolved_output_dtype` (reduced.py:136-143): `own` is `_output_dtype`. -/
def resolvedType (p : Prec) (own : NPType) (asked : Option NPType) : NPType :=
  match p with
  | .double => .float64
  | .single => .float32
  | .auto => asked.getD own

/-- `_restore_output_dtype` (reduced.py:145-152): `array` is the type of the array passed. -/
def restoredType (p : Prec) (own array : NPType) (asked : Option NPType) : NPType :=
  if array = resolvedType p own asked then array else resolvedType p own asked

/-- `_restore_grid` (reduced.py:159-164) hands the type to `_restore_grid_shape`, which converts. -/
def restoredGridType (p : Prec) (own : NPType) (asked : Option NPType) : NPType := resolvedType p own asked

/-- Element type of what a method returns (reduced.py:372-494). `d` is the type of the field given to `gradient` and
`truncate`; `uv` the types of `u` and `v` as stored. The methods of the transform object are those of
`RedGauss.Call.resultType`. -/
def WCall.resultType (p : Prec) (own uv d : NPType) : WCall → Option NPType
  | .magnitude => some (restoredType p own uv none)
  | .planetaryvorticity _ => some (restoredType p own own none)
  | .absolutevorticity _ _ => some (restoredType p own (NPType.promote (restoredGridType p own none) .float32) none)
  | .gradient _ _ | .truncate _ _ => some (restoredGridType p own (some (inferType [d])))
  | .transform _ => none
  | .vrtdiv _ | .vorticity _ | .divergence _ | .sfvp _ | .streamfunction _ | .velocitypotential _ | .helmholtz _ | .irrotationalcomponent _ | .nondivergentcomponent _
  | .rossbywavesource _ _ => some (restoredGridType p own none)

/-- Width in bits of the floating type an input stands for: integers count as double precision. -/
def Spec.width : NPType → ℕ
  | .float16 => 16
  | .float32 => 32
  | .float64 => 64
  | .integer => 64
  | .complex64 => 64
  | .complex128 => 64

/-- The floating type of a width. -/
def Spec.floatOf (n : ℕ) : NPType := if n = 16 then .float16 else if n = 32 then .float32 else .float64

/-- The methods that take a field. -/
def WCall.takesField : WCall → Prop
  | .gradient _ _ | .truncate _ _ => True
  | _ => False

/-- C227: `precision="single"` and `"double"` give single- and double-precision results from every method; `"auto"` gives
the widest floating type of the wind given, or the type of the field for `gradient` and `truncate`, integers counting as
double precision. -/
theorem C227_types {lib : Lib} {W W' : World} {u v : NDArr (Option ℝ)} {du dv : NPType} {pl : NDArr ℤ} {r : ℝ} {lf pr : String} {w : WCfg}
    (h : construct lib W u v du dv pl r lf pr = .ok (w, W')) (uv d : NPType) (k : WCall) {res : NPType} (hk : k.resultType w.cfg.precision w.outType uv d = some res) :
    (w.cfg.precision = .single → res = .float32) ∧ (w.cfg.precision = .double → res = .float64) ∧
    (w.cfg.precision = .auto → (¬ k.takesField → res = Spec.floatOf (max (Spec.width du) (Spec.width dv))) ∧ (k.takesField → res = Spec.floatOf (Spec.width d))) := by
  obtain ⟨_, _, _, _, _, ho, _⟩ := construct_parts h
  have hself : ∀ a b : NPType, (if a = b then a else b) = b := fun a b => by split_ifs with h <;> [exact h; rfl]
  have h1 : inferType [du, dv] = Spec.floatOf (max (Spec.width du) (Spec.width dv)) := by cases du <;> cases dv <;> rfl
  have h2 : inferType [d] = Spec.floatOf (Spec.width d) := by cases d <;> rfl
  rw [ho] at hk
  cases k <;> simp only [WCall.resultType, Option.some.injEq, restoredType, restoredGridType, hself, reduceCtorEq] at hk <;> subst hk <;>
    refine ⟨fun hp => by simp [resolvedType, hp], fun hp => by simp [resolvedType, hp], fun hp => ⟨fun hn => ?_, fun hn => ?_⟩⟩ <;>
    simp_all [resolvedType, WCall.takesField]

end Skyborn.RedWind
