/-
Reasoning about the methods of `ReducedGaussianSpharmt`: triples over the state of the module and the object.
-/
import Verif.RedGauss.PyModel

namespace Skyborn.RedGauss

open Skyborn

/-- A run from a state: result or exception, and the state it leaves. -/
def exec {α : Type} (x : M α) (s : World × Caches) : Except Fail α × (World × Caches) := (ExceptT.run x).run s

/-- From a state with `P`, the run ends in a state with `P`; a result meets `φ`, an exception meets `ε`. -/
def Tri {α : Type} (P : World × Caches → Prop) (x : M α) (φ : α → Prop) (ε : Fail → Prop) : Prop :=
  ∀ s, P s → P (exec x s).2 ∧ match (exec x s).1 with
    | .ok a => φ a
    | .error e => ε e

variable {α β : Type} {P : World × Caches → Prop} {φ φ' : α → Prop} {ψ : β → Prop} {ε ε' : Fail → Prop}

theorem exec_pure (a : α) (s : World × Caches) : exec (pure a) s = (.ok a, s) := rfl

theorem exec_get (s : World × Caches) : exec get s = (.ok s, s) := rfl

theorem exec_modify (f : World × Caches → World × Caches) (s : World × Caches) : exec (modify f) s = (.ok ⟨⟩, f s) := rfl

theorem exec_raise_ok (a : α) (s : World × Caches) : exec (raise (.ok a)) s = (.ok a, s) := rfl

theorem exec_raise_error (e : ℕ) (s : World × Caches) : exec (raise (.error e) : M α) s = (.error (.spherepack e), s) := rfl

theorem exec_lift_ok (a : α) (s : World × Caches) : exec (lift (.ok a)) s = (.ok a, s) := rfl

theorem exec_lift_error (e : Fail) (s : World × Caches) : exec (lift (.error e) : M α) s = (.error e, s) := rfl

theorem exec_bind (x : M α) (f : α → M β) (s : World × Caches) :
    exec (x >>= f) s = match exec x s with
      | (.ok a, s') => exec (f a) s'
      | (.error e, s') => (.error e, s') := by
  unfold exec
  cases h : (ExceptT.run x).run s with
  | mk r s' =>
    show ((ExceptT.run x >>= ExceptT.bindCont f) : StateM _ _).run s = _
    have : ((ExceptT.run x >>= ExceptT.bindCont f) : StateM _ _).run s = (ExceptT.bindCont f ((ExceptT.run x).run s).1).run ((ExceptT.run x).run s).2 := rfl
    rw [this, h]
    cases r <;> rfl

theorem exec_bind_ok {x : M α} {f : α → M β} {s s' : World × Caches} {a : α} (h : exec x s = (.ok a, s')) :
    exec (x >>= f) s = exec (f a) s' := by rw [exec_bind, h]

theorem exec_bind_error {x : M α} {f : α → M β} {s s' : World × Caches} {e : Fail} (h : exec x s = (.error e, s')) :
    exec (x >>= f) s = (.error e, s') := by rw [exec_bind, h]

theorem Tri.bind {x : M α} {f : α → M β} (h : Tri P x φ ε) (h' : ∀ a, φ a → Tri P (f a) ψ ε) : Tri P (x >>= f) ψ ε := by
  intro s hs
  have := h s hs
  rw [exec_bind]
  cases hx : exec x s with
  | mk r s' =>
    rw [hx] at this
    cases r with
    | ok a => exact h' a this.2 s' this.1
    | error e => exact this

theorem Tri.pure {a : α} (h : φ a) : Tri P (pure a) φ ε := fun _ hs => ⟨hs, h⟩

theorem Tri.lift {e : Except Fail α} (h : match e with | .ok a => φ a | .error e => ε e) : Tri P (lift e) φ ε := by
  intro s hs
  cases e <;> exact ⟨hs, h⟩

theorem Tri.lift_ok {e : Except Fail α} {a : α} (h : e = .ok a) (h' : φ a) : Tri P (RedGauss.lift e) φ ε := by
  subst h; exact Tri.lift h'

theorem Tri.mono {x : M α} (h : Tri P x φ ε) (h1 : ∀ a, φ a → φ' a) (h2 : ∀ e, ε e → ε' e) : Tri P x φ' ε' := by
  intro s hs
  obtain ⟨a, b⟩ := h s hs
  refine ⟨a, ?_⟩
  cases hx : (exec x s).1 with
  | ok a => rw [hx] at b; exact h1 _ b
  | error e => rw [hx] at b; exact h2 _ b

/-- The runs that cannot fail. -/
theorem Tri.ok {x : M α} (h : Tri P x φ fun _ => False) {s : World × Caches} (hs : P s) :
    ∃ a s', exec x s = (.ok a, s') ∧ P s' ∧ φ a := by
  obtain ⟨a, b⟩ := h s hs
  cases hx : exec x s with
  | mk r s' =>
    rw [hx] at a b
    cases r with
    | ok r => exact ⟨r, s', rfl, a, b⟩
    | error e => exact b.elim

theorem Tri.keeps {x : M α} (h : Tri P x φ ε) {s : World × Caches} (hs : P s) : P (exec x s).2 := (h s hs).1

/-- An exception of the first step is the exception of the whole. -/
theorem exec_lift_fail {e : Fail} {x : Except Fail α} {f : α → M β} (h : x = .error e) (s : World × Caches) :
    exec (lift x >>= f) s = (.error e, s) := by
  subst h; exact exec_bind_error (exec_lift_error e s)

end Skyborn.RedGauss
