import Verif.ROF.Model
import Mathlib.Data.List.Nodup
import Mathlib.Data.Finset.Card

/-! C121: `PreProcess.extract_Z2`. -/

namespace Skyborn.ROF

/-- Position `i` of the control sample is selected for `Z2`: it is (counting from 1) the integer part of a multiple of `1 / frac`. -/
def Spec.Selected (frac : ℝ) (i : ℕ) : Prop := ∃ k : ℕ, (i : ℤ) + 1 = ⌊((k : ℝ) + 1) / frac⌋

/-- The indices computed by the code. -/
noncomputable def ixOf (nz : ℕ) (frac : ℝ) : List ℤ := (arange (1 / frac - 1) nz (1 / frac)).map truncInt

theorem ixOf_eq {frac : ℝ} (h0 : 0 < frac) (h1 : frac ≤ 1) (nz : ℕ) :
    ixOf nz frac = (List.range ⌈frac * (nz + 1) - 1⌉.toNat).map fun k : ℕ => ⌊((k : ℝ) + 1) / frac⌋ - 1 := by
  unfold ixOf arange
  rw [List.map_map]
  have e : ((nz : ℝ) - (1 / frac - 1)) / (1 / frac) = frac * (nz + 1) - 1 := by field_simp; ring
  rw [e]
  apply List.map_congr_left
  intro k _
  have e2 : (1 : ℝ) / frac - 1 + k * (1 / frac) = ((k : ℝ) + 1) / frac - 1 := by field_simp; ring
  have hge : (1 : ℝ) ≤ ((k : ℝ) + 1) / frac := by
    rw [le_div_iff₀ h0]
    have : (0 : ℝ) ≤ k := Nat.cast_nonneg k
    linarith
  simp only [Function.comp]
  unfold truncInt
  rw [e2, if_pos (by linarith), Int.floor_sub_one]

theorem floor_strict {frac : ℝ} (h0 : 0 < frac) (h1 : frac ≤ 1) : StrictMono fun k : ℕ => ⌊((k : ℝ) + 1) / frac⌋ - 1 := by
  apply strictMono_nat_of_lt_succ
  intro k
  have : ((k : ℝ) + 1) / frac + 1 ≤ (((k + 1 : ℕ) : ℝ) + 1) / frac := by
    rw [div_add_one h0.ne', div_le_div_iff_of_pos_right h0]
    push_cast
    linarith
  have h2 := Int.floor_le_floor this
  rw [Int.floor_add_one] at h2
  omega

/-- Membership in the index list is the specification's selection. -/
theorem mem_ixOf {frac : ℝ} (h0 : 0 < frac) (h1 : frac ≤ 1) {nz i : ℕ} (hi : i < nz) : (i : ℤ) ∈ ixOf nz frac ↔ Spec.Selected frac i := by
  rw [ixOf_eq h0 h1, List.mem_map]
  constructor
  · rintro ⟨k, -, hk⟩
    exact ⟨k, by omega⟩
  · rintro ⟨k, hk⟩
    refine ⟨k, ?_, by omega⟩
    rw [List.mem_range, Int.lt_toNat, Int.lt_ceil]
    have h3 := Int.lt_floor_add_one (((k : ℝ) + 1) / frac)
    rw [← hk] at h3
    have h4 : ((k : ℝ) + 1) < frac * (nz + 1) := by
      rw [div_lt_iff₀ h0] at h3
      push_cast at h3
      have : (i : ℝ) + 1 ≤ nz := by exact_mod_cast hi
      nlinarith
    push_cast
    linarith

theorem zipIdx_filter_length {α : Type} (Z : List α) (p : ℕ → Bool) :
    (Z.zipIdx.filter fun e => p e.2).length = ((List.range Z.length).filter p).length := by
  have h := List.filter_map (f := Prod.snd) (p := p) (l := Z.zipIdx)
  have h2 : Z.zipIdx.map Prod.snd = List.range Z.length := by
    rw [List.zipIdx_map_snd, List.range_eq_range']
  rw [h2] at h
  rw [h, List.length_map]
  rfl

theorem filter_split {α : Type} (l : List α) (p : α → Bool) : (l.filter (fun e => p e = false) ++ l.filter (fun e => p e = true)).Perm l := by
  induction l with
  | nil => simp
  | cons a l ih =>
    cases h : p a
    · simp only [List.filter_cons, h, decide_true, if_true, List.cons_append]
      simpa using ih
    · simp only [List.filter_cons, h, decide_true, if_true]
      refine List.perm_middle.trans ?_
      simpa using ih

/-- **C121 (partition).** `extract_Z2` puts every realisation into exactly one of `Z1` and `Z2`, in the original order, for every
non-zero `frac`. -/
theorem C121_partition {α : Type} (Z : List α) {frac : ℝ} (h : frac ≠ 0) :
    ∃ Z1 Z2, extractZ2 Z frac = .ok (Z1, Z2) ∧ (Z1 ++ Z2).Perm Z ∧ Z1.Sublist Z ∧ Z2.Sublist Z := by
  unfold extractZ2
  rw [if_neg h]
  have hz : Z.zipIdx.map Prod.fst = Z := List.zipIdx_map_fst ..
  refine ⟨_, _, rfl, ?_, ?_, ?_⟩
  · rw [← List.map_append]
    have := (filter_split Z.zipIdx fun e => decide ((e.2 : ℤ) ∈ ixOf Z.length frac)).map Prod.fst
    rw [hz] at this
    exact this
  · have := (List.filter_sublist (l := Z.zipIdx) (p := fun e => decide (decide ((e.2 : ℤ) ∈ ixOf Z.length frac) = false))).map Prod.fst
    rw [hz] at this
    exact this
  · have := (List.filter_sublist (l := Z.zipIdx) (p := fun e => decide (decide ((e.2 : ℤ) ∈ ixOf Z.length frac) = true))).map Prod.fst
    rw [hz] at this
    exact this

open Classical in
/-- **C121 (selection).** For `0 < frac ≤ 1` the realisations put into `Z2` are those at the positions `⌊(k+1)/frac⌋` (counting from 1),
the others go to `Z1`, and the size of `Z2` differs from `frac · nz` by less than one. -/
theorem C121_selection {α : Type} (Z : List α) {frac : ℝ} (h0 : 0 < frac) (h1 : frac ≤ 1) :
    ∃ Z1 Z2, extractZ2 Z frac = .ok (Z1, Z2) ∧
      Z2 = (Z.zipIdx.filter fun e => Spec.Selected frac e.2).map Prod.fst ∧
      Z1 = (Z.zipIdx.filter fun e => ¬ Spec.Selected frac e.2).map Prod.fst ∧
      |(Z2.length : ℝ) - frac * Z.length| < 1 := by
  have hmem : ∀ e ∈ Z.zipIdx, ((e.2 : ℤ) ∈ ixOf Z.length frac ↔ Spec.Selected frac e.2) := by
    intro e he
    apply mem_ixOf h0 h1
    have := List.snd_lt_of_mem_zipIdx he
    omega
  have hrun : extractZ2 Z frac = .ok ((Z.zipIdx.filter fun e => ¬ Spec.Selected frac e.2).map Prod.fst,
      (Z.zipIdx.filter fun e => Spec.Selected frac e.2).map Prod.fst) := by
    unfold extractZ2
    rw [if_neg h0.ne']
    refine congrArg Except.ok (Prod.ext ?_ ?_)
    · refine congrArg (List.map Prod.fst) ?_
      apply List.filter_congr
      intro e he
      have := hmem e he
      unfold ixOf at this
      rw [decide_eq_decide, decide_eq_false_iff_not]
      exact not_congr this
    · refine congrArg (List.map Prod.fst) ?_
      apply List.filter_congr
      intro e he
      have := hmem e he
      unfold ixOf at this
      rw [decide_eq_decide, decide_eq_true_iff]
      exact this
  refine ⟨_, _, hrun, rfl, rfl, ?_⟩
  have hlen : ((Z.zipIdx.filter fun e => Spec.Selected frac e.2).map Prod.fst).length = ⌈frac * (Z.length + 1) - 1⌉.toNat := by
    rw [List.length_map]
    have e1 : (Z.zipIdx.filter fun e => Spec.Selected frac e.2) = Z.zipIdx.filter fun e => decide ((e.2 : ℤ) ∈ ixOf Z.length frac) := by
      apply List.filter_congr
      intro e he
      rw [decide_eq_decide]
      exact (hmem e he).symm
    rw [e1, zipIdx_filter_length Z (fun i => decide ((i : ℤ) ∈ ixOf Z.length frac))]
    have hnd : (ixOf Z.length frac).Nodup := by
      rw [ixOf_eq h0 h1]
      exact List.nodup_range.map (floor_strict h0 h1).injective
    have hperm : (((List.range Z.length).filter fun i : ℕ => decide ((i : ℤ) ∈ ixOf Z.length frac)).map (fun i : ℕ => (i : ℤ))).Perm
        (ixOf Z.length frac) := by
      rw [List.perm_ext_iff_of_nodup ((List.nodup_range.filter _).map Nat.cast_injective) hnd]
      intro a
      simp only [List.mem_map, List.mem_filter, List.mem_range, decide_eq_true_eq]
      constructor
      · rintro ⟨i, ⟨-, h⟩, rfl⟩; exact h
      · intro ha
        have hb := ha
        rw [ixOf_eq h0 h1, List.mem_map] at hb
        obtain ⟨k, hk, rfl⟩ := hb
        rw [List.mem_range, Int.lt_toNat, Int.lt_ceil] at hk
        have hge : (1 : ℤ) ≤ ⌊((k : ℝ) + 1) / frac⌋ := by
          rw [Int.le_floor, Int.cast_one, le_div_iff₀ h0]
          have : (0 : ℝ) ≤ k := Nat.cast_nonneg k
          linarith
        have hlt : ⌊((k : ℝ) + 1) / frac⌋ < (Z.length : ℤ) + 1 := by
          rw [Int.floor_lt, div_lt_iff₀ h0]
          push_cast at hk ⊢
          linarith
        refine ⟨(⌊((k : ℝ) + 1) / frac⌋ - 1).toNat, ⟨by omega, ?_⟩, by omega⟩
        rw [Int.toNat_of_nonneg (by omega)]
        exact ha
    have := hperm.length_eq
    rw [List.length_map] at this
    rw [this, ixOf_eq h0 h1, List.length_map, List.length_range]
  rw [hlen]
  have hz : (0 : ℝ) ≤ Z.length := Nat.cast_nonneg _
  have hc1 := Int.le_ceil (frac * ((Z.length : ℝ) + 1) - 1)
  have hc2 := Int.ceil_lt_add_one (frac * ((Z.length : ℝ) + 1) - 1)
  rcases le_or_gt 0 ⌈frac * ((Z.length : ℝ) + 1) - 1⌉ with hpos | hneg
  · have e : ((⌈frac * ((Z.length : ℝ) + 1) - 1⌉.toNat : ℕ) : ℝ) = ((⌈frac * ((Z.length : ℝ) + 1) - 1⌉ : ℤ) : ℝ) := by
      rw [← Int.cast_natCast, Int.toNat_of_nonneg hpos]
    rw [e, abs_lt]
    constructor <;> nlinarith
  · have e : ⌈frac * ((Z.length : ℝ) + 1) - 1⌉.toNat = 0 := Int.toNat_of_nonpos hneg.le
    rw [e, abs_lt]
    have h3 : ((⌈frac * ((Z.length : ℝ) + 1) - 1⌉ : ℤ) : ℝ) < 0 := by exact_mod_cast hneg
    have h4 : 0 ≤ frac * Z.length := by positivity
    constructor <;> push_cast <;> nlinarith

/-- With `frac = 1/2` exactly the odd positions (counting from 0) are selected. -/
theorem C121_half (i : ℕ) : Spec.Selected (1 / 2) i ↔ i % 2 = 1 := by
  have e : ∀ k : ℕ, ⌊((k : ℝ) + 1) / (1 / 2)⌋ = 2 * (k : ℤ) + 2 := fun k => by
    rw [show ((k : ℝ) + 1) / (1 / 2) = (((2 * (k : ℤ) + 2 : ℤ)) : ℝ) by push_cast; ring, Int.floor_intCast]
  constructor
  · rintro ⟨k, hk⟩
    rw [e] at hk
    omega
  · intro h
    exact ⟨i / 2, by rw [e]; push_cast; omega⟩

/-- Five realisations split in halves. -/
example : ∃ Z1 Z2, extractZ2 ['a', 'b', 'c', 'd', 'e'] (1 / 2) = .ok (Z1, Z2) ∧ Z1 = ['a', 'c', 'e'] ∧ Z2 = ['b', 'd'] := by
  obtain ⟨Z1, Z2, h, h2, h1, -⟩ := C121_selection ['a', 'b', 'c', 'd', 'e'] (frac := 1 / 2) (by norm_num) (by norm_num)
  refine ⟨Z1, Z2, h, ?_, ?_⟩
  · rw [h1]; simp only [C121_half]; rfl
  · rw [h2]; simp only [C121_half]; rfl

end Skyborn.ROF
