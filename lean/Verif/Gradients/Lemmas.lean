/- The closed form of `calculate_gradient`. -/
import Verif.Gradients.Model
import Mathlib.Tactic.Ring
import Mathlib.Tactic.Linarith

namespace Skyborn.Gradients

open Skyborn

section
variable {K : Type} [Field K] [LinearOrder K]

theorem take_ok {f : NDArr K} {k j : ℕ} (h : j < f.shape.getD k 0) : take f k j = some fun idx => f.get (idx.set k j) := by
  unfold take; rw [if_pos h]

theorem put_ok {g : NDArr K} {k j : ℕ} {v : List ℕ → K} (h : j < g.shape.getD k 0) :
    put g k j v = some ⟨g.shape, fun idx => if idx.getD k 0 = j then v idx else g.get idx⟩ := by
  unfold put; rw [if_pos h]

/-- The value computed on a line `F` at position `j`, uniform branch. -/
def uVal (n : ℕ) (d F : ℕ → K) (j : ℕ) : K :=
  if j = n - 1 then (F (n - 1) - F (n - 2)) / (d 1 - d 0)
  else if j = 0 then (F 1 - F 0) / (d 1 - d 0)
  else (F (j + 1) - F (j - 1)) / (2 * (d 1 - d 0))

/-- The value computed on a line `F` at position `j`, general branch. -/
def gVal (n : ℕ) (d F : ℕ → K) (j : ℕ) : K :=
  if j = 0 then (F 1 - F 0) / (d 1 - d 0)
  else if j = n - 1 then (F j - F (j - 1)) / (d j - d (j - 1))
  else -(d (j + 1) - d j) / ((d j - d (j - 1)) * ((d j - d (j - 1)) + (d (j + 1) - d j))) * F (j - 1)
    + ((d (j + 1) - d j) - (d j - d (j - 1))) / ((d j - d (j - 1)) * (d (j + 1) - d j)) * F j
    + (d j - d (j - 1)) / ((d (j + 1) - d j) * ((d j - d (j - 1)) + (d (j + 1) - d j))) * F (j + 1)

theorem uniformGrad_eq {f g : NDArr K} {k n : ℕ} {d : ℕ → K} (hn : n = f.shape.getD k 0) (h2 : 2 ≤ n) (hg : g.shape = f.shape) :
    ∃ o, uniformGrad f k n d g = some o ∧ o.shape = f.shape ∧ ∀ idx, idx.getD k 0 < n →
      o.get idx = uVal n d (fun i => f.get (idx.set k i)) (idx.getD k 0) := by
  unfold uniformGrad
  obtain ⟨s, es, hs⟩ := forM_inv (lo := 1) (hi := n - 1) (by omega) (s := g)
    (f := fun i g => do
      let fw ← take f k (i + 1)
      let bw ← take f k (i - 1)
      put g k i fun idx => (fw idx - bw idx) / (2 * (d 1 - d 0)))
    (fun t s => s.shape = f.shape ∧ ∀ idx, 1 ≤ idx.getD k 0 → idx.getD k 0 < t →
      s.get idx = (f.get (idx.set k (idx.getD k 0 + 1)) - f.get (idx.set k (idx.getD k 0 - 1))) / (2 * (d 1 - d 0)))
    ⟨hg, fun idx h1 h2 => absurd h2 (by omega)⟩
    (by
      rintro t s ht1 ht2 ⟨hsh, hv⟩
      beta_reduce
      rw [take_ok (by omega), take_ok (by omega)]
      simp only [Option.bind_eq_bind, Option.bind_some]
      rw [put_ok (by rw [hsh]; omega)]
      refine ⟨_, rfl, hsh, fun idx h1 h3 => ?_⟩
      dsimp only
      by_cases e : idx.getD k 0 = t
      · rw [if_pos e, e]
      · rw [if_neg e]; exact hv idx h1 (by omega))
  dsimp only
  rw [es]
  simp only [Option.bind_eq_bind, Option.bind_some]
  rw [take_ok (by omega), take_ok (by omega), take_ok (by omega), take_ok (by omega)]
  simp only [Option.bind_some]
  rw [put_ok (by rw [hs.1]; omega)]
  simp only [Option.bind_some]
  refine ⟨_, put_ok (by dsimp only; rw [hs.1]; omega), hs.1, fun idx hi => ?_⟩
  dsimp only
  unfold uVal
  by_cases e1 : idx.getD k 0 = n - 1
  · rw [if_pos e1, if_pos e1]
  · rw [if_neg e1, if_neg e1]
    by_cases e0 : idx.getD k 0 = 0
    · rw [if_pos e0, if_pos e0]
    · rw [if_neg e0, if_neg e0]; exact hs.2 idx (by omega) (by omega)

theorem generalGrad_eq {f g : NDArr K} {k n : ℕ} {d : ℕ → K} (hn : n = f.shape.getD k 0) (h2 : 2 ≤ n) (hg : g.shape = f.shape) :
    ∃ o, generalGrad f k n d g = some o ∧ o.shape = f.shape ∧ ∀ idx, idx.getD k 0 < n →
      o.get idx = gVal n d (fun i => f.get (idx.set k i)) (idx.getD k 0) := by
  unfold generalGrad
  obtain ⟨s, es, hs⟩ := forM_inv (lo := 0) (hi := n) (by omega) (s := g)
    (f := fun i g =>
      if i = 0 then do
        let p ← take f k 1
        let c ← take f k i
        put g k i fun idx => (p idx - c idx) / (d 1 - d 0)
      else if i = n - 1 then do
        let c ← take f k i
        let m ← take f k (i - 1)
        put g k i fun idx => (c idx - m idx) / (d i - d (i - 1))
      else do
        let fw ← take f k (i + 1)
        let bw ← take f k (i - 1)
        let c ← take f k i
        let h1 := d i - d (i - 1)
        let h2 := d (i + 1) - d i
        put g k i fun idx => -h2 / (h1 * (h1 + h2)) * bw idx + (h2 - h1) / (h1 * h2) * c idx + h1 / (h2 * (h1 + h2)) * fw idx)
    (fun t s => s.shape = f.shape ∧ ∀ idx, idx.getD k 0 < t → s.get idx = gVal n d (fun i => f.get (idx.set k i)) (idx.getD k 0))
    ⟨hg, fun idx h2 => absurd h2 (by omega)⟩
    (by
      rintro t s ht1 ht2 ⟨hsh, hv⟩
      by_cases e0 : t = 0
      · beta_reduce
        rw [if_pos e0]
        beta_reduce
        rw [take_ok (by omega), take_ok (by omega)]
        simp only [Option.bind_eq_bind, Option.bind_some]
        rw [put_ok (by rw [hsh]; omega)]
        refine ⟨_, rfl, hsh, fun idx h3 => ?_⟩
        dsimp only
        have e : idx.getD k 0 = 0 := by omega
        rw [if_pos (by omega)]
        unfold gVal; rw [if_pos e, e0]
      · beta_reduce
        rw [if_neg e0]
        by_cases e1 : t = n - 1
        · rw [if_pos e1]
          beta_reduce
          rw [take_ok (by omega), take_ok (by omega)]
          simp only [Option.bind_eq_bind, Option.bind_some]
          rw [put_ok (by rw [hsh]; omega)]
          refine ⟨_, rfl, hsh, fun idx h3 => ?_⟩
          dsimp only
          by_cases e : idx.getD k 0 = t
          · rw [if_pos e, e]
            unfold gVal; rw [if_neg e0, if_pos e1]
          · rw [if_neg e]; exact hv idx (by omega)
        · rw [if_neg e1]
          beta_reduce
          rw [take_ok (by omega), take_ok (by omega), take_ok (by omega)]
          simp only [Option.bind_eq_bind, Option.bind_some]
          rw [put_ok (by rw [hsh]; omega)]
          refine ⟨_, rfl, hsh, fun idx h3 => ?_⟩
          dsimp only
          by_cases e : idx.getD k 0 = t
          · rw [if_pos e, e]
            unfold gVal; rw [if_neg e0, if_neg e1]
          · rw [if_neg e]; exact hv idx (by omega))
  exact ⟨s, es, hs⟩

theorem getD_of_inB {s idx : List ℕ} (h : InB s idx) {k : ℕ} (hk : k < s.length) : idx.getD k 0 < s.getD k 0 := (inB_iff.mp h).2 k hk

theorem normAxis_lt {nd : ℕ} {axis : ℤ} {k : ℕ} (h : normAxis nd axis = some k) : k < nd := by
  unfold normAxis at h
  split_ifs at h with h1 h2
  · simp only [Option.some.injEq] at h; omega
  · simp only [Option.some.injEq] at h; omega

/-- the closed form of `calculate_gradient` -/
theorem calculateGradient_eq {pi : K} {f : NDArr K} {nx : ℕ} {x : ℕ → K} {axis : ℤ} {radius : Option K} {k : ℕ}
    (hk : normAxis f.shape.length axis = some k) (hx : nx = f.shape.getD k 0) :
    ∃ o, calculateGradient pi f nx x axis radius = some o ∧ o.shape = f.shape ∧ ∀ idx, InB f.shape idx →
      o.get idx = if nx < 2 then 0 else if allClose nx (distances pi x radius) then
          uVal nx (distances pi x radius) (fun i => f.get (idx.set k i)) (idx.getD k 0)
        else gVal nx (distances pi x radius) (fun i => f.get (idx.set k i)) (idx.getD k 0) := by
  have hkl := normAxis_lt hk
  unfold calculateGradient
  rw [hk]
  simp only [Option.bind_eq_bind, Option.bind_some]
  rw [if_neg (by simp [hx]), ← hx]
  by_cases h2 : nx < 2
  · rw [if_pos h2]
    exact ⟨_, rfl, rfl, fun idx _ => by rw [if_pos h2]⟩
  · rw [if_neg h2]
    by_cases hu : allClose nx (distances pi x radius) = true
    · rw [if_pos hu]
      obtain ⟨o, e, hs, hv⟩ := uniformGrad_eq (f := f) (g := ⟨f.shape, fun _ => 0⟩) (k := k) (n := nx) (d := distances pi x radius) hx (by omega) rfl
      refine ⟨o, e, hs, fun idx hi => ?_⟩
      rw [if_neg h2, if_pos hu]
      exact hv idx (hx ▸ getD_of_inB hi hkl)
    · rw [if_neg hu]
      obtain ⟨o, e, hs, hv⟩ := generalGrad_eq (f := f) (g := ⟨f.shape, fun _ => 0⟩) (k := k) (n := nx) (d := distances pi x radius) hx (by omega) rfl
      refine ⟨o, e, hs, fun idx hi => ?_⟩
      rw [if_neg h2, if_neg hu]
      exact hv idx (hx ▸ getD_of_inB hi hkl)

theorem calculateGradient_none {pi : K} {f : NDArr K} {nx : ℕ} {x : ℕ → K} {axis : ℤ} {radius : Option K}
    (h : ∀ k, normAxis f.shape.length axis = some k → nx ≠ f.shape.getD k 0) : calculateGradient pi f nx x axis radius = none := by
  unfold calculateGradient
  cases hk : normAxis f.shape.length axis with
  | none => rfl
  | some k =>
    simp only [Option.bind_eq_bind, Option.bind_some]
    rw [if_pos (h k hk)]
end

end Skyborn.Gradients
