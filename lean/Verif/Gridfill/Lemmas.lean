import Verif.Gridfill.Model
import Verif.Gridfill.Spec
import Mathlib.Tactic.FieldSimp
import Mathlib.Tactic.Positivity

namespace Skyborn.Gridfill

open Skyborn

variable {K : Type} [Field K] [LinearOrder K]

theorem lat_lt {i n : ℕ} (hn : 3 ≤ n) (hi : i < n) : (latitudeIndices i n).1 < n ∧ (latitudeIndices i n).2 < n := by
  unfold latitudeIndices; constructor <;> dsimp <;> split <;> omega

theorem lon_lt {j n : ℕ} {c : Bool} (hn : 3 ≤ n) (hj : j < n) : (longitudeIndices j n c).1 < n ∧ (longitudeIndices j n c).2 < n := by
  unfold longitudeIndices; cases c <;> constructor <;> simp <;> split <;> omega

theorem fold_pred {c : Bool} {n j : ℕ} (hn : 3 ≤ n) (hj : j < n) : Spec.fold c n ((j : ℤ) - 1) = (longitudeIndices j n c).1 := by
  unfold Spec.fold longitudeIndices
  cases c
  · simp only [Bool.false_eq_true, if_false]
    split_ifs <;> omega
  · simp only [if_true]
    by_cases h : j = 0
    · subst h
      rw [if_pos rfl]
      have : ((0 : ℕ) : ℤ) - 1 = ((n - 1 : ℕ) : ℤ) + (n : ℤ) * (-1) := by push_cast [Nat.cast_sub (show 1 ≤ n by omega)]; ring
      rw [this, Int.add_mul_emod_self_left, Int.emod_eq_of_lt (by omega) (by omega)]
      simp
    · rw [if_neg h, Int.emod_eq_of_lt (by omega) (by omega)]; omega

theorem fold_succ {c : Bool} {n j : ℕ} (hn : 3 ≤ n) (hj : j < n) : Spec.fold c n ((j : ℤ) + 1) = (longitudeIndices j n c).2 := by
  unfold Spec.fold longitudeIndices
  cases c
  · simp only [Bool.false_eq_true, if_false]
    split_ifs <;> omega
  · simp only [if_true]
    by_cases h : j = n - 1
    · rw [if_pos h, show ((j : ℤ) + 1) = n by omega, Int.emod_self]; rfl
    · rw [if_neg h, Int.emod_eq_of_lt (by omega) (by omega)]; omega

theorem lat_eq_lon (i n : ℕ) : latitudeIndices i n = longitudeIndices i n false := by
  simp [latitudeIndices, longitudeIndices]

theorem avg_eq {nlat nlon : ℕ} {c : Bool} {g : ℕ → ℕ → K} {i j : ℕ} (h1 : 3 ≤ nlat) (h2 : 3 ≤ nlon) (hi : i < nlat) (hj : j < nlon) :
    1 / 4 * (g (latitudeIndices i nlat).1 j + g (latitudeIndices i nlat).2 j + g i (longitudeIndices j nlon c).1 +
      g i (longitudeIndices j nlon c).2) = Spec.avg nlat nlon c g i j := by
  unfold Spec.avg
  rw [fold_pred h1 hi, fold_succ h1 hi, fold_pred h2 hj, fold_succ h2 hj, lat_eq_lon]
  ring

/-- what the sweep body does -/
def cellStep (nlat nlon : ℕ) (cyclic : Bool) (relaxc : K) (mask : ℕ → ℕ → ℤ) (i j : ℕ) (st : (ℕ → ℕ → K) × K) :
    (ℕ → ℕ → K) × K :=
  if mask i j = 0 then st
  else (set2 st.1 i j (st.1 i j + (Spec.avg nlat nlon cyclic st.1 i j - st.1 i j) * relaxc),
    max |(Spec.avg nlat nlon cyclic st.1 i j - st.1 i j) * relaxc| st.2)

variable {nlat nlon : ℕ} {cyclic : Bool} {relaxc : K} {mask : ℕ → ℕ → ℤ}

theorem relaxPoint_eq (h1 : 3 ≤ nlat) (h2 : 3 ≤ nlon) {i j : ℕ} (hi : i < nlat) (hj : j < nlon) (st : (ℕ → ℕ → K) × K) :
    relaxPoint nlat nlon cyclic relaxc mask i j st = some (cellStep nlat nlon cyclic relaxc mask i j st) := by
  unfold relaxPoint cellStep
  by_cases hm : mask i j = 0
  · simp [rd2_ok hi hj, hm]
  · simp only [rd2_ok hi hj, rd2_ok (lat_lt h1 hi).1 hj, rd2_ok (lat_lt h1 hi).2 hj, rd2_ok hi (lon_lt (c := cyclic) h2 hj).1,
      rd2_ok hi (lon_lt (c := cyclic) h2 hj).2, Option.bind_eq_bind, Option.bind_some, ne_eq, hm, not_false_eq_true, if_true,
      if_false, wr2_ok hi hj, avg_eq h1 h2 hi hj]
    rfl

/-- Invariant rule for one sweep: `P i j` holds when exactly the cells before `(i, j)` in row-major order have been visited. -/
theorem sweep_inv (h1 : 3 ≤ nlat) (h2 : 3 ≤ nlon) (grid : ℕ → ℕ → K) (P : ℕ → ℕ → (ℕ → ℕ → K) × K → Prop) (h0 : P 0 0 (grid, 0))
    (hstep : ∀ i j st, i < nlat → j < nlon → P i j st → P i (j + 1) (cellStep nlat nlon cyclic relaxc mask i j st))
    (hrow : ∀ i st, i < nlat → P i nlon st → P (i + 1) 0 st) :
    ∃ st, sweep nlat nlon cyclic relaxc mask grid = some st ∧ P nlat 0 st := by
  unfold sweep
  refine forM_inv (Nat.zero_le _) (fun i st => P i 0 st) h0 fun i st _ hi hP => ?_
  obtain ⟨st', e, hP'⟩ := forM_inv (lo := 0) (hi := nlon) (Nat.zero_le _) (s := st)
    (f := fun j st => relaxPoint nlat nlon cyclic relaxc mask i j st) (fun j st => P i j st) hP fun j st _ hj hP =>
    ⟨_, relaxPoint_eq h1 h2 hi hj st, hstep i j st hi hj hP⟩
  exact ⟨st', e, hrow i st' hi hP'⟩

theorem intSum_eq (ny nx : ℕ) (a : ℕ → ℕ → ℤ) : intSum ny nx a = some (∑ i ∈ Finset.range ny, ∑ j ∈ Finset.range nx, a i j) := by
  unfold intSum
  obtain ⟨s, e, hs⟩ := forM_inv (lo := 0) (hi := ny) (Nat.zero_le _) (s := (0 : ℤ))
    (f := fun i s => do
      let nxUnroll := nx - nx % 4
      let s ← forM 0 (nxUnroll / 4) s fun q s => do
        let j := 4 * q
        let a0 ← rd2 ny nx a i j
        let a1 ← rd2 ny nx a i (j + 1)
        let a2 ← rd2 ny nx a i (j + 2)
        let a3 ← rd2 ny nx a i (j + 3)
        return s + (a0 + a1 + a2 + a3)
      forM nxUnroll nx s fun j s => do
        let a0 ← rd2 ny nx a i j
        return s + a0)
    (fun i s => s = ∑ i ∈ Finset.range i, ∑ j ∈ Finset.range nx, a i j) (by simp) (by
      intro i s _ hi hs
      obtain ⟨s1, e1, hs1⟩ := forM_inv (lo := 0) (hi := (nx - nx % 4) / 4) (Nat.zero_le _) (s := s)
        (f := fun q s => do
          let j := 4 * q
          let a0 ← rd2 ny nx a i j
          let a1 ← rd2 ny nx a i (j + 1)
          let a2 ← rd2 ny nx a i (j + 2)
          let a3 ← rd2 ny nx a i (j + 3)
          return s + (a0 + a1 + a2 + a3))
        (fun q t => t = s + ∑ j ∈ Finset.range (4 * q), a i j) (by simp) (by
          intro q t _ hq ht
          have e0 : rd2 ny nx a i (4 * q) = some (a i (4 * q)) := rd2_ok hi (by omega)
          have e1 : rd2 ny nx a i (4 * q + 1) = some (a i (4 * q + 1)) := rd2_ok hi (by omega)
          have e2 : rd2 ny nx a i (4 * q + 2) = some (a i (4 * q + 2)) := rd2_ok hi (by omega)
          have e3 : rd2 ny nx a i (4 * q + 3) = some (a i (4 * q + 3)) := rd2_ok hi (by omega)
          refine ⟨t + (a i (4 * q) + a i (4 * q + 1) + a i (4 * q + 2) + a i (4 * q + 3)), ?_, ?_⟩
          · simp only [e0, e1, e2, e3, Option.bind_eq_bind, Option.bind_some, Option.pure_def]
          · rw [show 4 * (q + 1) = 4 * q + 1 + 1 + 1 + 1 by ring]
            simp only [Finset.sum_range_succ]
            rw [ht]; ring)
      obtain ⟨s2, e2, hs2⟩ := forM_inv (lo := nx - nx % 4) (hi := nx) (by omega) (s := s1)
        (f := fun j s => do
          let a0 ← rd2 ny nx a i j
          return s + a0)
        (fun j t => t = s + ∑ j ∈ Finset.range j, a i j) (by
          rw [hs1, show 4 * ((nx - nx % 4) / 4) = nx - nx % 4 by omega]) (by
          intro j t hj1 hj2 ht
          refine ⟨t + a i j, by simp [rd2_ok hi hj2], ?_⟩
          rw [Finset.sum_range_succ, ht]; ring)
      refine ⟨s2, ?_, ?_⟩
      · simp only [Option.bind_eq_bind] at e1 e2 ⊢
        rw [e1]; exact e2
      · rw [hs2, hs, Finset.sum_range_succ])
  rw [← hs]; exact e

end Skyborn.Gridfill
