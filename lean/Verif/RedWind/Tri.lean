/-
Reasoning about the methods of `ReducedVectorWind`: triples over the whole state.
-/
import Verif.RedWind.Model

namespace Skyborn.RedWind

open Skyborn RedGauss

/-- A run from a state: result or exception, and the state it leaves. -/
def run {α : Type} (x : MW α) (s : St) : Except Fail α × St := (ExceptT.run x).run s

/-- From a state with `P`, the run ends in a state with `P`; a result meets `φ`, an exception meets `ε`. -/
def TriW {α : Type} (P : St → Prop) (x : MW α) (φ : α → Prop) (ε : Fail → Prop) : Prop :=
  ∀ s, P s → P (run x s).2 ∧ match (run x s).1 with
    | .ok a => φ a
    | .error e => ε e

variable {α β : Type} {P : St → Prop} {φ φ' : α → Prop} {ψ : β → Prop} {ε ε' : Fail → Prop}

theorem run_pure (a : α) (s : St) : run (pure a) s = (.ok a, s) := rfl

theorem run_get (s : St) : run get s = (.ok s, s) := rfl

theorem run_modify (f : St → St) (s : St) : run (modify f) s = (.ok ⟨⟩, f s) := rfl

theorem run_lift_ok (a : α) (s : St) : run (liftW (.ok a)) s = (.ok a, s) := rfl

theorem run_lift_error (e : Fail) (s : St) : run (liftW (.error e) : MW α) s = (.error e, s) := rfl

theorem run_inner (x : M α) (s : St) : run (inner x) s = ((exec x s.1).1, ((exec x s.1).2, s.2)) := rfl

theorem run_bind (x : MW α) (f : α → MW β) (s : St) :
    run (x >>= f) s = match run x s with
      | (.ok a, s') => run (f a) s'
      | (.error e, s') => (.error e, s') := by
  unfold run
  cases h : (ExceptT.run x).run s with
  | mk r s' =>
    show ((ExceptT.run x >>= ExceptT.bindCont f) : StateM _ _).run s = _
    have : ((ExceptT.run x >>= ExceptT.bindCont f) : StateM _ _).run s = (ExceptT.bindCont f ((ExceptT.run x).run s).1).run ((ExceptT.run x).run s).2 := rfl
    rw [this, h]
    cases r <;> rfl

theorem run_bind_ok {x : MW α} {f : α → MW β} {s s' : St} {a : α} (h : run x s = (.ok a, s')) : run (x >>= f) s = run (f a) s' := by rw [run_bind, h]

theorem run_bind_error {x : MW α} {f : α → MW β} {s s' : St} {e : Fail} (h : run x s = (.error e, s')) : run (x >>= f) s = (.error e, s') := by rw [run_bind, h]

theorem TriW.bind {x : MW α} {f : α → MW β} (h : TriW P x φ ε) (h' : ∀ a, φ a → TriW P (f a) ψ ε) : TriW P (x >>= f) ψ ε := by
  intro s hs
  have := h s hs
  rw [run_bind]
  cases hx : run x s with
  | mk r s' =>
    rw [hx] at this
    cases r with
    | ok a => exact h' a this.2 s' this.1
    | error e => exact this

theorem TriW.pure {a : α} (h : φ a) : TriW P (pure a) φ ε := fun _ hs => ⟨hs, h⟩

theorem TriW.fail {e : Fail} (h : ε e) : TriW P (liftW (.error e)) φ ε := fun _ hs => ⟨hs, h⟩

theorem TriW.lift_ok {x : Except Fail α} {a : α} (h : x = .ok a) (h' : φ a) : TriW P (liftW x) φ ε := by
  subst h; exact fun _ hs => ⟨hs, h'⟩

/-- A step that is already known. -/
theorem TriW.step {x : Except Fail α} {f : α → MW β} {a : α} (h : x = .ok a) (h' : TriW P (f a) ψ ε) : TriW P (liftW x >>= f) ψ ε :=
  (TriW.lift_ok (φ := fun b => a = b) h rfl).bind fun _ hb => hb ▸ h'

theorem TriW.step_error {x : Except Fail α} {f : α → MW β} {e : Fail} (h : x = .error e) (he : ε e) : TriW P (liftW x >>= f) ψ ε := by
  subst h
  intro s hs
  rw [run_bind_error (run_lift_error e s)]
  exact ⟨hs, he⟩

theorem TriW.mono {x : MW α} (h : TriW P x φ ε) (h1 : ∀ a, φ a → φ' a) (h2 : ∀ e, ε e → ε' e) : TriW P x φ' ε' := by
  intro s hs
  obtain ⟨a, b⟩ := h s hs
  refine ⟨a, ?_⟩
  cases hx : (run x s).1 with
  | ok a => rw [hx] at b; exact h1 _ b
  | error e => rw [hx] at b; exact h2 _ b

/-- A step of the transform object. -/
theorem TriW.inner {Q : World × Caches → Prop} {R : WCaches → Prop} {x : M α} (h : Tri Q x φ ε) : TriW (fun s => Q s.1 ∧ R s.2) (inner x) φ ε := by
  intro s hs
  have := h s.1 hs.1
  rw [run_inner]
  exact ⟨⟨this.1, hs.2⟩, this.2⟩

/-- Looking something up in the dictionaries. -/
theorem TriW.look {f : St → MW β} (h : ∀ s, P s → TriW (fun s' => P s') (f s) ψ ε) : TriW P (get >>= f) ψ ε := by
  intro s hs
  rw [run_bind_ok (run_get s)]
  exact h s hs s hs

/-- Storing something. -/
theorem TriW.store {g : St → St} {x : MW β} (hg : ∀ s, P s → P (g s)) (h : TriW P x ψ ε) : TriW P (modify g >>= fun _ => x) ψ ε := by
  intro s hs
  rw [run_bind_ok (run_modify g s)]
  exact h _ (hg s hs)

/-- The runs that cannot fail. -/
theorem TriW.ok {x : MW α} (h : TriW P x φ fun _ => False) {s : St} (hs : P s) : ∃ a s', run x s = (.ok a, s') ∧ P s' ∧ φ a := by
  obtain ⟨a, b⟩ := h s hs
  cases hx : run x s with
  | mk r s' =>
    rw [hx] at a b
    cases r with
    | ok r => exact ⟨r, s', rfl, a, b⟩
    | error e => exact b.elim

theorem TriW.keeps {x : MW α} (h : TriW P x φ ε) {s : St} (hs : P s) : P (run x s).2 := (h s hs).1

end Skyborn.RedWind
