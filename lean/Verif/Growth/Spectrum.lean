/-
From the growth-rate spectrum to one number: largest sample, running mean, last turning point.
-/
import Verif.Growth.Model
import Mathlib.Algebra.BigOperators.Intervals
import Mathlib.Algebra.BigOperators.Ring.Finset
import Mathlib.Order.Bounds.Basic

namespace Skyborn.Growth

/-- Specification: the spectrum falls after sample `i`. -/
def Spec.Falls (g : ℕ → Option ℝ) (i : ℕ) : Prop := ∃ a b, g i = some a ∧ g (i + 1) = some b ∧ b < a

theorem peak_spec (n : ℕ) (g : ℕ → Option ℝ) : (∀ m, peak n g = some m → IsGreatest {v | ∃ i, 1 ≤ i ∧ i ≤ n ∧ g i = some v} m) ∧
    (peak n g = none → ∀ i, 1 ≤ i → i ≤ n → g i = none) := by
  have key := doLoop_inv (lo := 1) (hi := n) (by omega) (s := (none : Option ℝ)) (f := fun i acc => match g i with
    | none => acc
    | some v => match acc with
      | none => some v
      | some m => some (max m v))
    (fun i acc => (∀ m, acc = some m → IsGreatest {v | ∃ j, 1 ≤ j ∧ j < i ∧ g j = some v} m) ∧ (acc = none → ∀ j, 1 ≤ j → j < i → g j = none))
    ⟨fun m h => (nomatch h), fun _ j h1 h2 => absurd h2 (by omega)⟩ (by
      rintro i acc h1 h2 ⟨hs, hn⟩
      cases hg : g i with
      | none =>
        dsimp only
        refine ⟨fun m hm => ⟨?_, ?_⟩, fun hm j j1 j2 => ?_⟩
        · obtain ⟨j, j1, j2, hj⟩ := (hs m hm).1
          exact ⟨j, j1, by omega, hj⟩
        · rintro v ⟨j, j1, j2, hj⟩
          by_cases e : j = i
          · rw [e, hg] at hj; cases hj
          · exact (hs m hm).2 ⟨j, j1, by omega, hj⟩
        · by_cases e : j = i
          · rw [e, hg]
          · exact hn hm j j1 (by omega)
      | some v =>
        cases acc with
        | none =>
          dsimp only
          refine ⟨fun m hm => ⟨?_, ?_⟩, fun hm => by cases hm⟩
          · exact ⟨i, h1, by omega, by rw [hg, ← hm]⟩
          · rintro x ⟨j, j1, j2, hj⟩
            by_cases e : j = i
            · rw [e, hg, hm] at hj; exact (Option.some.inj hj).ge
            · rw [hn rfl j j1 (by omega)] at hj; cases hj
        | some a =>
          dsimp only
          refine ⟨fun m hm => ⟨?_, ?_⟩, fun hm => by cases hm⟩
          · rw [← Option.some.inj hm]
            rcases max_choice a v with e | e
            · rw [e]
              obtain ⟨j, j1, j2, hj⟩ := (hs a rfl).1
              exact ⟨j, j1, by omega, hj⟩
            · rw [e]
              exact ⟨i, h1, by omega, hg⟩
          · rintro x ⟨j, j1, j2, hj⟩
            rw [← Option.some.inj hm]
            by_cases e : j = i
            · rw [e, hg] at hj; exact (Option.some.inj hj) ▸ le_max_right _ _
            · exact ((hs a rfl).2 ⟨j, j1, by omega, hj⟩).trans (le_max_left _ _))
  obtain ⟨hs, hn⟩ := key
  refine ⟨fun m hm => ⟨?_, ?_⟩, fun hm i h1 h2 => hn hm i h1 (by omega)⟩
  · obtain ⟨j, j1, j2, hj⟩ := (hs m hm).1
    exact ⟨j, j1, by omega, hj⟩
  · rintro v ⟨j, j1, j2, hj⟩
    exact (hs m hm).2 ⟨j, j1, by omega, hj⟩

theorem peak_some {n : ℕ} {g : ℕ → Option ℝ} {i : ℕ} (h1 : 1 ≤ i) (h2 : i ≤ n) {v : ℝ} (hv : g i = some v) : ∃ m, peak n g = some m := by
  cases h : peak n g with
  | some m => exact ⟨m, rfl⟩
  | none => rw [(peak_spec n g).2 h i h1 h2] at hv; cases hv

theorem lastTurn_spec (n : ℕ) (g : ℕ → Option ℝ) : (lastTurn n g = 0 → ∀ i, 1 ≤ i → i + 1 ≤ n → ¬ Spec.Falls g i) ∧
    (lastTurn n g ≠ 0 → (1 ≤ lastTurn n g ∧ lastTurn n g + 1 ≤ n) ∧ Spec.Falls g (lastTurn n g) ∧
      ∀ i, lastTurn n g < i → i + 1 ≤ n → ¬ Spec.Falls g i) := by
  have key := doLoop_inv (lo := 1) (hi := n - 1) (by omega) (s := (0 : ℕ)) (f := fun i s => match g i, g (i + 1) with
    | some a, some b => if a - b > 0 then i else s
    | _, _ => s)
    (fun i s => (s = 0 → ∀ j, 1 ≤ j → j < i → ¬ Spec.Falls g j) ∧
      (s ≠ 0 → (1 ≤ s ∧ s < i) ∧ Spec.Falls g s ∧ ∀ j, s < j → j < i → ¬ Spec.Falls g j))
    ⟨fun _ j h1 h2 => by omega, fun h => absurd rfl h⟩ (by
      rintro i s h1 h2 ⟨hz, hs⟩
      by_cases hf : Spec.Falls g i
      · obtain ⟨a, b, ha, hb, hab⟩ := hf
        rw [ha, hb]
        dsimp only
        rw [if_pos (by linarith)]
        exact ⟨fun h => by omega, fun _ => ⟨⟨h1, by omega⟩, ⟨a, b, ha, hb, hab⟩, fun j h1 h2 => by omega⟩⟩
      · have e : (match g i, g (i + 1) with
            | some a, some b => if a - b > 0 then i else s
            | _, _ => s) = s := by
          cases ha : g i with
          | none => rfl
          | some a =>
            cases hb : g (i + 1) with
            | none => rfl
            | some b =>
              dsimp only
              refine if_neg fun h => hf ⟨a, b, ha, hb, by linarith⟩
        rw [e]
        refine ⟨fun h0 j h1 h2 => ?_, fun h0 => ?_⟩
        · by_cases ej : j = i
          · rwa [ej]
          · exact hz h0 j h1 (by omega)
        · obtain ⟨⟨a, b⟩, c, d⟩ := hs h0
          refine ⟨⟨a, by omega⟩, c, fun j h1 h2 => ?_⟩
          by_cases ej : j = i
          · rwa [ej]
          · exact d j h1 (by omega))
  obtain ⟨hz, hs⟩ := key
  refine ⟨fun h0 i h1 h2 => hz h0 i h1 (by omega), fun h0 => ?_⟩
  obtain ⟨⟨a, b⟩, c, d⟩ := hs h0
  change 1 ≤ lastTurn n g at a
  change lastTurn n g < n - 1 + 1 at b
  exact ⟨⟨a, by omega⟩, c, fun i h1 h2 => d i h1 (by omega)⟩

theorem windowSum_eq (lo hi : ℕ) (g : ℕ → Option ℝ) : windowSum lo hi g =
    (∑ j ∈ Finset.Icc lo hi, (g j).getD 0, ((Finset.Icc lo hi).filter fun j => (g j).isSome = true).card) := by
  rw [windowSum]
  refine (doLoop_congr (g := fun j s => s + ((g j).getD 0, if (g j).isSome = true then 1 else 0)) (fun j s _ _ => ?_)).trans ?_
  · cases g j with
    | none => simp
    | some v => rfl
  rw [doLoop_add]
  rw [show ((0, 0) : ℝ × ℕ) = 0 from rfl, zero_add]
  refine Prod.ext ?_ ?_
  · rw [Prod.fst_sum]
  · rw [Prod.snd_sum, Finset.card_filter]

/-- Specification: the samples within `half` of sample `i`, on a spectrum of `n` samples. -/
def Spec.near (n half i : ℕ) : Finset ℕ := (Finset.Icc 1 n).filter fun j => j ≤ i + half ∧ i ≤ j + half

/-- The running mean of a spectrum without gaps is the mean of the neighbours. -/
theorem runningMean_eq {n window : ℕ} {g : ℕ → Option ℝ} {s : ℕ → ℝ} (hs : ∀ i, 1 ≤ i → i ≤ n → g i = some (s i)) (hw : window % 2 = 1) {i : ℕ}
    (h1 : 1 ≤ i) (h2 : i ≤ n) :
    runningMean n g window i = some ((∑ j ∈ Spec.near n (window / 2) i, s j) / (Spec.near n (window / 2) i).card) := by
  have e : Finset.Icc (max 1 (i - window / 2)) (min n (i + window / 2)) = Spec.near n (window / 2) i := by
    ext j
    simp only [Spec.near, Finset.mem_Icc, Finset.mem_filter]
    omega
  have hmem : i ∈ Spec.near n (window / 2) i := by simp only [Spec.near, Finset.mem_Icc, Finset.mem_filter]; omega
  by_cases h : window ≤ 1
  · rw [runningMean, if_pos h, hs i h1 h2]
    have : Spec.near n (window / 2) i = {i} := by
      ext j
      simp only [Spec.near, Finset.mem_Icc, Finset.mem_filter, Finset.mem_singleton]
      omega
    rw [this]; simp
  · rw [runningMean, if_neg h]
    dsimp only
    rw [windowSum_eq, e]
    have e1 : ∑ j ∈ Spec.near n (window / 2) i, (g j).getD 0 = ∑ j ∈ Spec.near n (window / 2) i, s j := Finset.sum_congr rfl fun j hj => by
      simp only [Spec.near, Finset.mem_Icc, Finset.mem_filter] at hj
      rw [hs j hj.1.1 hj.1.2]; rfl
    have e2 : ((Spec.near n (window / 2) i).filter fun j => (g j).isSome = true) = Spec.near n (window / 2) i :=
      Finset.filter_true_of_mem fun j hj => by
        simp only [Spec.near, Finset.mem_Icc, Finset.mem_filter] at hj
        rw [hs j hj.1.1 hj.1.2]; rfl
    dsimp only
    rw [e1, e2, if_pos (Finset.card_pos.mpr ⟨i, hmem⟩)]

end Skyborn.Growth
