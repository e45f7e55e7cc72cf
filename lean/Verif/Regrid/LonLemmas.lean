import Verif.Regrid.LatProps
import Mathlib.Algebra.Order.Archimedean.Basic
import Mathlib.Tactic.Linarith

namespace Skyborn.Regrid

open Skyborn

variable {K : Type} [Field K] [LinearOrder K] [IsStrictOrderedRing K]

theorem alignPhase_shift (y c P : K) : ∃ j : ℤ, alignPhase y c P = y + j * P := by
  unfold alignPhase
  by_cases h1 : y > c + P / 2
  · simp only [if_pos h1]
    split
    · exact ⟨0, by push_cast; ring⟩
    · exact ⟨-1, by push_cast; ring⟩
  · simp only [if_neg h1]
    split
    · exact ⟨1, by push_cast; ring⟩
    · exact ⟨0, by push_cast; ring⟩

theorem alignPhase_near {y c P : K} (h1 : y - c ≤ 3 * P / 2) (h2 : c - y ≤ 3 * P / 2) :
    alignPhase y c P - c ≤ P / 2 ∧ -(P / 2) ≤ alignPhase y c P - c := by
  unfold alignPhase
  by_cases h3 : y > c + P / 2
  · simp only [if_pos h3]
    split <;> constructor <;> linarith
  · simp only [if_neg h3]
    split <;> constructor <;> linarith

theorem int_eq_zero_of_small {P : K} (hP : 0 < P) {j : ℤ} (h1 : (j : K) * P < P) (h2 : -P < (j : K) * P) : j = 0 := by
  have a : (j : K) < 1 := by
    by_contra h
    have := mul_le_mul_of_nonneg_right (not_lt.mp h) hP.le
    linarith
  have b : (-1 : K) < j := by
    by_contra h
    have := mul_le_mul_of_nonneg_right (not_lt.mp h) hP.le
    linarith
  have a' : j < 1 := by exact_mod_cast a
  have b' : -1 < j := by exact_mod_cast b
  omega

/-- The representative strictly within half a period is the one `align_phase_with` returns. -/
theorem alignPhase_eq {y c P a : K} (hP : 0 < P) (h1 : y - c ≤ 3 * P / 2) (h2 : c - y ≤ 3 * P / 2) (ha : ∃ j : ℤ, a = y + j * P)
    (h3 : a - c < P / 2) (h4 : -(P / 2) < a - c) : alignPhase y c P = a := by
  obtain ⟨j, hj⟩ := alignPhase_shift y c P
  obtain ⟨i, hi⟩ := ha
  obtain ⟨h5, h6⟩ := alignPhase_near h1 h2
  have : j - i = 0 := by
    apply int_eq_zero_of_small hP
    · push_cast; rw [sub_mul]; linarith
    · push_cast; rw [sub_mul]; linarith
  have : j = i := by omega
  rw [hj, hi, this]

section
variable [FloorRing K]

theorem modPeriod_eq {P : K} (hP : 0 < P) (x : K) : modPeriod x P = x - ⌊x / P⌋ * P := by
  have hx : x = x / P * P := by field_simp
  have hf := Int.floor_le (x / P)
  have hf' := Int.lt_floor_add_one (x / P)
  have g1 : (⌊x / P⌋ : K) * P ≤ x := by
    calc (⌊x / P⌋ : K) * P ≤ x / P * P := mul_le_mul_of_nonneg_right hf hP.le
      _ = x := hx.symm
  have g2 : x < ((⌊x / P⌋ : K) + 1) * P := by
    calc x = x / P * P := hx
      _ < _ := mul_lt_mul_of_pos_right hf' hP
  unfold modPeriod
  by_cases h : 0 ≤ x / P
  · simp only [if_pos h]
    rw [if_neg (by rw [mul_comm]; linarith), mul_comm]
  · simp only [if_neg h]
    have hc := Int.le_ceil (x / P)
    by_cases hi : (⌊x / P⌋ : K) = x / P
    · have : ⌈x / P⌉ = ⌊x / P⌋ := by rw [← hi]; simp
      rw [this, if_neg (by rw [mul_comm]; linarith), mul_comm]
    · have hlt : (⌊x / P⌋ : K) < x / P := lt_of_le_of_ne hf hi
      have : ⌈x / P⌉ = ⌊x / P⌋ + 1 := by
        rw [Int.ceil_eq_iff]
        push_cast
        exact ⟨by linarith, hf'.le⟩
      rw [this]
      push_cast
      rw [if_pos (by rw [mul_comm]; linarith)]
      ring

theorem modPeriod_range {P : K} (hP : 0 < P) (x : K) : 0 ≤ modPeriod x P ∧ modPeriod x P < P := by
  have hx : x = x / P * P := by field_simp
  have hf := Int.floor_le (x / P)
  have hf' := Int.lt_floor_add_one (x / P)
  have g1 : (⌊x / P⌋ : K) * P ≤ x := by
    calc (⌊x / P⌋ : K) * P ≤ x / P * P := mul_le_mul_of_nonneg_right hf hP.le
      _ = x := hx.symm
  have g2 : x < ((⌊x / P⌋ : K) + 1) * P := by
    calc x = x / P * P := hx
      _ < _ := mul_lt_mul_of_pos_right hf' hP
  rw [modPeriod_eq hP]
  constructor
  · linarith
  · linarith

theorem modAll_spec (n : ℕ) (x buf : ℕ → K) (P : K) :
    ∃ m, modAll n x buf P = some m ∧ ∀ i, i < n → m i = modPeriod (x i) P := by
  obtain ⟨m, e, h, -⟩ := forM_write (Nat.zero_le n) (a := buf) (f := fun i b => do
      let v ← rd0 n x i
      wr0 n b i (modPeriod v P)) (fun i => i) (fun i => modPeriod (x i) P) (by intro i j _ _ _ _ e; exact e)
    (by intro j _ hj b _ _; simp [rd0_ok hj, wr0_ok hj])
  exact ⟨m, e, fun i hi => h i (Nat.zero_le _) hi⟩
end

theorem lonBounds_spec (P : K) (n : ℕ) (m lo up : ℕ → K) :
    ∃ lo' up', lonBounds P n m lo up = some (lo', up') ∧ ∀ i, i < n →
      lo' i = 1 / 2 * (alignPhase (m ((i + n - 1) % n)) (m i) P + m i) ∧
      up' i = 1 / 2 * (m i + alignPhase (m ((i + 1) % n)) (m i) P) := by
  obtain ⟨⟨a, b⟩, e, h⟩ := forM_inv (Nat.zero_le n) (s := (lo, up)) (f := fun i (s : (ℕ → K) × (ℕ → K)) => do
      let c ← rd0 n m i
      let p ← rd0 n m ((i + 1) % n)
      let q ← rd0 n m ((i + n - 1) % n)
      let xPlus := alignPhase p c P
      let xMinus := alignPhase q c P
      let up ← wr0 n s.2 i (1 / 2 * (c + xPlus))
      let lo ← wr0 n s.1 i (1 / 2 * (xMinus + c))
      return (lo, up))
    (fun r s => ∀ i, i < r → s.1 i = 1 / 2 * (alignPhase (m ((i + n - 1) % n)) (m i) P + m i) ∧
      s.2 i = 1 / 2 * (m i + alignPhase (m ((i + 1) % n)) (m i) P))
    (by intro i hi; omega)
    (by
      rintro r ⟨a, b⟩ - hr h
      have h1 : (r + 1) % n < n := Nat.mod_lt _ (by omega)
      have h2 : (r + n - 1) % n < n := Nat.mod_lt _ (by omega)
      refine ⟨_, by simp only [rd0_ok hr, rd0_ok h1, rd0_ok h2, wr0_ok hr, Option.bind_eq_bind, Option.bind_some]; rfl, ?_⟩
      intro i hi
      rcases Nat.lt_succ_iff_lt_or_eq.mp hi with h5 | h5
      · simp only [Function.update_of_ne (show i ≠ r by omega)]
        exact h i h5
      · subst h5; simp)
  exact ⟨a, b, e, h⟩

theorem lonOverlap_spec (P : K) (nsrc ntgt : ℕ) (sl su tl tu w : ℕ → K) :
    ∃ w', lonOverlap P nsrc ntgt sl su tl tu w = some w' ∧ ∀ i j, i < ntgt → j < nsrc →
      w' (i * nsrc + j) = periodicOverlap (tl i) (tu i) (sl j) (su j) P := by
  obtain ⟨w', e, h, -⟩ := forM2_write (n := ntgt) (m := nsrc) (off := 0) (a := w)
    (f := fun itgt isrc w => do
      let a ← rd0 nsrc sl isrc
      let b ← rd0 nsrc su isrc
      let c ← rd0 ntgt tl itgt
      let d ← rd0 ntgt tu itgt
      wr0 (ntgt * nsrc) w (itgt * nsrc + isrc) (periodicOverlap c d a b P))
    (fun i j => periodicOverlap (tl i) (tu i) (sl j) (su j) P)
    (by
      intro i j hi hj b _
      rw [rd0_ok hj, rd0_ok hj, rd0_ok hi, rd0_ok hi]
      simp only [Option.bind_eq_bind, Option.bind_some, Nat.zero_add]
      rw [wr0_ok (flat_lt hi hj)])
  refine ⟨w', e, fun i j hi hj => ?_⟩
  have := h i j hi hj
  rwa [Nat.zero_add] at this

/-- The cell bounds the code derives from an axis. -/
def codeLower [FloorRing K] (P : K) (n : ℕ) (x : ℕ → K) (i : ℕ) : K :=
  1 / 2 * (alignPhase (modPeriod (x ((i + n - 1) % n)) P) (modPeriod (x i) P) P + modPeriod (x i) P)
def codeUpper [FloorRing K] (P : K) (n : ℕ) (x : ℕ → K) (i : ℕ) : K :=
  1 / 2 * (modPeriod (x i) P + alignPhase (modPeriod (x ((i + 1) % n)) P) (modPeriod (x i) P) P)

theorem longitudeWeights_spec [FloorRing K] (P : K) {nsrc ntgt : ℕ} (hs : 0 < nsrc) (ht : 0 < ntgt) {src tgt : ℕ → K}
    (hsi : Spec.StrictInc nsrc src) (hti : Spec.StrictInc ntgt tgt) :
    ∃ w, longitudeWeights P nsrc src ntgt tgt = .ok w ∧ ∀ i j, i < ntgt → j < nsrc → w (i * nsrc + j) =
      normWeight nsrc (fun i j => periodicOverlap (codeLower P ntgt tgt i) (codeUpper P ntgt tgt i)
        (codeLower P nsrc src j) (codeUpper P nsrc src j) P) i j := by
  unfold longitudeWeights
  rw [if_neg (by omega), isStrictlyIncreasing_true hsi, isStrictlyIncreasing_true hti]
  obtain ⟨sm, e1, h1⟩ := modAll_spec nsrc src (fun _ => 0) P
  obtain ⟨tm, e2, h2⟩ := modAll_spec ntgt tgt (fun _ => 0) P
  obtain ⟨sl, su, e3, h3⟩ := lonBounds_spec P nsrc sm (fun _ => 0) fun _ => 0
  obtain ⟨tl, tu, e4, h4⟩ := lonBounds_spec P ntgt tm (fun _ => 0) fun _ => 0
  obtain ⟨w, e5, h5⟩ := lonOverlap_spec P nsrc ntgt sl su tl tu fun _ => 0
  rw [e1, e2]
  simp only [run, bind, Except.bind, Bool.and_self, if_true]
  rw [e3, e4]
  simp only []
  rw [e5]
  obtain ⟨w', e6, h6⟩ := normalizeWeightRows_spec (nrows := ntgt) hs w (fun i j => periodicOverlap (tl i) (tu i) (sl j) (su j) P) h5
  refine ⟨w', e6, fun i j hi hj => ?_⟩
  rw [h6 i j hi hj]
  have hsl : ∀ k, k < nsrc → sl k = codeLower P nsrc src k ∧ su k = codeUpper P nsrc src k := by
    intro k hk
    have := h3 k hk
    rw [h1 k hk, h1 _ (Nat.mod_lt _ hs), h1 _ (Nat.mod_lt _ hs)] at this
    exact this
  have htl : ∀ k, k < ntgt → tl k = codeLower P ntgt tgt k ∧ tu k = codeUpper P ntgt tgt k := by
    intro k hk
    have := h4 k hk
    rw [h2 k hk, h2 _ (Nat.mod_lt _ ht), h2 _ (Nat.mod_lt _ ht)] at this
    exact this
  have ec : ∀ k, k < nsrc → periodicOverlap (tl i) (tu i) (sl k) (su k) P = periodicOverlap (codeLower P ntgt tgt i)
      (codeUpper P ntgt tgt i) (codeLower P nsrc src k) (codeUpper P nsrc src k) P := by
    intro k hk
    rw [(hsl k hk).1, (hsl k hk).2, (htl i hi).1, (htl i hi).2]
  unfold normWeight
  beta_reduce
  rw [ec j hj, Finset.sum_congr rfl fun k hk => ec k (Finset.mem_range.mp hk)]

theorem periodicOverlap_nonneg (a b c d P : K) : 0 ≤ periodicOverlap a b c d P := by
  unfold periodicOverlap
  dsimp only
  split
  · rename_i h; exact h.le
  · exact le_rfl

/-! Overlaps on the circle. -/

theorem inter_eq_latEntry (a b c d : K) : Spec.inter a b c d = latEntry (fun x => x) a b c d := by
  unfold Spec.inter latEntry
  split
  · rename_i h; rw [max_eq_right (by linarith)]
  · rename_i h; rw [max_eq_left (by linarith)]

theorem inter_zero_right {a b c d : K} (h : b ≤ c) : Spec.inter a b c d = 0 := by
  unfold Spec.inter
  apply max_eq_left
  have := min_le_left b d
  have := le_max_right a c
  linarith

theorem inter_zero_left {a b c d : K} (h : d ≤ a) : Spec.inter a b c d = 0 := by
  unfold Spec.inter
  apply max_eq_left
  have := min_le_right b d
  have := le_max_left a c
  linarith

theorem inter_shift (a b c d t : K) : Spec.inter (a + t) (b + t) (c + t) (d + t) = Spec.inter a b c d := by
  unfold Spec.inter
  rw [min_add_add_right, max_add_add_right]
  congr 1; ring

theorem inter_comm (a b c d : K) : Spec.inter a b c d = Spec.inter c d a b := by
  unfold Spec.inter
  rw [min_comm b, max_comm a]

theorem circleOverlap_shift (P a b c d : K) (i j : ℤ) :
    Spec.circleOverlap P (a + i * P) (b + i * P) (c + j * P) (d + j * P) = Spec.circleOverlap P a b c d := by
  unfold Spec.circleOverlap
  rw [← finsum_comp_equiv (Equiv.addRight (j - i)) (f := fun k : ℤ => Spec.inter a b (c + k * P) (d + k * P))]
  apply finsum_congr
  intro k
  rw [← inter_shift a b _ _ (i * P)]
  simp only [Equiv.coe_addRight]
  congr 1 <;> push_cast <;> ring

theorem circleOverlap_comm (P a b c d : K) : Spec.circleOverlap P a b c d = Spec.circleOverlap P c d a b := by
  unfold Spec.circleOverlap
  rw [← finsum_comp_equiv (Equiv.neg ℤ) (f := fun k : ℤ => Spec.inter c d (a + k * P) (b + k * P))]
  apply finsum_congr
  intro k
  rw [inter_comm, ← inter_shift _ _ _ _ (-(k * P))]
  simp only [Equiv.neg_apply]
  congr 1 <;> push_cast <;> ring

/-- Cells that are small enough: the code's overlap is the overlap on the circle. -/
theorem periodicOverlap_eq {P x0 x1 y0 y1 : K} (hP : 0 < P) (hx : x0 ≤ x1) (hy : y0 < y1) (h0 : y0 - x0 ≤ 3 * P / 2)
    (h0' : x0 - y0 ≤ 3 * P / 2) (h1 : y1 - x0 ≤ 3 * P / 2) (h1' : x0 - y1 ≤ 3 * P / 2)
    (hw : (x1 - x0) + (y1 - y0) ≤ P / 2) : periodicOverlap x0 x1 y0 y1 P = Spec.circleOverlap P x0 x1 y0 y1 := by
  obtain ⟨j, hj⟩ := alignPhase_shift y0 x0 P
  obtain ⟨l, hl⟩ := alignPhase_shift y1 x0 P
  obtain ⟨a1, a2⟩ := alignPhase_near h0 h0'
  obtain ⟨b1, b2⟩ := alignPhase_near h1 h1'
  rw [hj] at a1 a2
  rw [hl] at b1 b2
  have e : periodicOverlap x0 x1 y0 y1 P = Spec.inter x0 x1 (y0 + j * P) (y1 + l * P) := by
    unfold periodicOverlap Spec.inter
    dsimp only
    rw [hj, hl]
    split
    · rename_i h; rw [max_eq_right h.le]
    · rename_i h; rw [max_eq_left (not_lt.mp h)]
  rw [e]
  unfold Spec.circleOverlap
  by_cases hjl : j = l
  · subst hjl
    rw [finsum_eq_single _ j]
    intro k hk
    rcases lt_or_gt_of_ne hk with h | h
    · apply inter_zero_left
      have : (k : K) + 1 ≤ j := by exact_mod_cast h
      have := mul_le_mul_of_nonneg_right this hP.le
      linarith
    · apply inter_zero_right
      have : (j : K) + 1 ≤ k := by exact_mod_cast h
      have := mul_le_mul_of_nonneg_right this hP.le
      linarith
  · have hjl' : l + 1 ≤ j := by
      by_contra h
      have h2 : j + 1 ≤ l := by omega
      have : (j : K) + 1 ≤ l := by exact_mod_cast h2
      have := mul_le_mul_of_nonneg_right this hP.le
      linarith
    have hjl2 : (l : K) + 1 ≤ j := by exact_mod_cast hjl'
    have hjl3 := mul_le_mul_of_nonneg_right hjl2 hP.le
    have hz : ∀ k : ℤ, Spec.inter x0 x1 (y0 + k * P) (y1 + k * P) = 0 := by
      intro k
      rcases le_or_gt j k with h | h
      · apply inter_zero_right
        have : (j : K) ≤ k := by exact_mod_cast h
        have := mul_le_mul_of_nonneg_right this hP.le
        linarith
      · apply inter_zero_left
        have : (k : K) + 1 ≤ j := by exact_mod_cast h
        have := mul_le_mul_of_nonneg_right this hP.le
        linarith
    simp only [hz, finsum_zero]
    unfold Spec.inter
    apply max_eq_left
    have := min_le_right x1 (y1 + l * P)
    have := le_max_right x0 (y0 + j * P)
    linarith

/-- The overlaps of an arc with the cells of a tiling of the circle add up to the length of the arc. -/
theorem circleOverlap_sum [Archimedean K] {P a b : K} (hP : 0 < P) (hab : a ≤ b) (n : ℕ) (e : ℕ → K) (he : ∀ i, i < n → e i ≤ e (i + 1))
    (hn : e n = e 0 + P) : ∑ s ∈ Finset.range n, Spec.circleOverlap P a b (e s) (e (s + 1)) = b - a := by
  obtain ⟨M1, hM1⟩ := Archimedean.arch (b - e 0) hP
  obtain ⟨M2, hM2⟩ := Archimedean.arch (e 0 - a) hP
  rw [nsmul_eq_mul] at hM1 hM2
  obtain ⟨M, hMb, hMa⟩ : ∃ M : ℕ, b ≤ e 0 + M * P ∧ e 0 - M * P ≤ a := by
    refine ⟨max M1 M2, ?_, ?_⟩
    · have : (M1 : K) ≤ (max M1 M2 : ℕ) := by exact_mod_cast le_max_left _ _
      have := mul_le_mul_of_nonneg_right this hP.le
      linarith
    · have : (M2 : K) ≤ (max M1 M2 : ℕ) := by exact_mod_cast le_max_right _ _
      have := mul_le_mul_of_nonneg_right this hP.le
      linarith
  have mono : ∀ i, i ≤ n → e 0 ≤ e i := by
    intro i hi
    induction i with
    | zero => exact le_rfl
    | succ i ih => exact (ih (by omega)).trans (he i (by omega))
  have mono' : ∀ d, d ≤ n → e (n - d) ≤ e n := by
    intro d hd
    induction d with
    | zero => exact le_rfl
    | succ d ih =>
      have := he (n - (d + 1)) (by omega)
      rw [show n - (d + 1) + 1 = n - d by omega] at this
      exact this.trans (ih (by omega))
  have hfin : ∀ s ∈ Finset.range n, Spec.circleOverlap P a b (e s) (e (s + 1)) =
      ∑ i ∈ Finset.range (2 * M), latEntry (fun x => x) a b (e s + ((i : K) - M) * P) (e (s + 1) + ((i : K) - M) * P) := by
    intro s hs
    have hs := Finset.mem_range.mp hs
    unfold Spec.circleOverlap
    rw [finsum_eq_sum_of_support_subset (s := (Finset.range (2 * M)).image fun i : ℕ => (i : ℤ) - M)]
    · rw [Finset.sum_image (by intro i _ j _ h; simpa using h)]
      apply Finset.sum_congr rfl
      intro i _
      rw [inter_eq_latEntry]
      push_cast
      rfl
    · intro k hk
      rw [Function.mem_support] at hk
      rw [Finset.mem_coe, Finset.mem_image]
      have k1 : -(M : ℤ) ≤ k := by
        by_contra h
        apply hk
        apply inter_zero_left
        have h' : k + 1 ≤ -(M : ℤ) := by omega
        have : (k : K) + 1 ≤ -(M : K) := by exact_mod_cast h'
        have := mul_le_mul_of_nonneg_right this hP.le
        have h2 := mono' (n - (s + 1)) (by omega)
        rw [show n - (n - (s + 1)) = s + 1 by omega] at h2
        linarith
      have k2 : k < M := by
        by_contra h
        apply hk
        apply inter_zero_right
        have : (M : K) ≤ k := by exact_mod_cast not_lt.mp h
        have := mul_le_mul_of_nonneg_right this hP.le
        have h2 := mono s (by omega)
        linarith
      refine ⟨(k + M).toNat, ?_, ?_⟩
      · rw [Finset.mem_range]; omega
      · omega
  rw [Finset.sum_congr rfl hfin, Finset.sum_comm]
  have tel : ∀ i ∈ Finset.range (2 * M), ∑ s ∈ Finset.range n, latEntry (fun x => x) a b (e s + ((i : K) - M) * P)
      (e (s + 1) + ((i : K) - M) * P) = (fun i : ℕ => max a (min b (e 0 + ((i : K) - M) * P))) (i + 1) -
        (fun i : ℕ => max a (min b (e 0 + ((i : K) - M) * P))) i := by
    intro i _
    have : ∀ s ∈ Finset.range n, latEntry (fun x => x) a b (e s + ((i : K) - M) * P) (e (s + 1) + ((i : K) - M) * P) =
        (fun s => max a (min b (e s + ((i : K) - M) * P))) (s + 1) - (fun s => max a (min b (e s + ((i : K) - M) * P))) s := by
      intro s hs
      exact latEntry_clamp _ hab (by have := he s (Finset.mem_range.mp hs); linarith)
    rw [Finset.sum_congr rfl this, Finset.sum_range_sub (fun s => max a (min b (e s + ((i : K) - M) * P)))]
    rw [hn]
    push_cast
    congr 3; ring
  rw [Finset.sum_congr rfl tel, Finset.sum_range_sub (fun i : ℕ => max a (min b (e 0 + ((i : K) - M) * P)))]
  push_cast
  have h1 : b ≤ e 0 + (2 * (M : K) - M) * P := by linarith
  have h2 : e 0 + (0 - (M : K)) * P ≤ a := by linarith
  rw [min_eq_left h1, max_eq_right hab, max_eq_left ((min_le_right _ _).trans h2)]

end Skyborn.Regrid
