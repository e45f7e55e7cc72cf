import Verif.MK.RankLemmas

namespace Skyborn.MK

open Skyborn Finset Spec

variable {K : Type} [Field K] [LinearOrder K] [IsStrictOrderedRing K]

/-- samples in group `g` -/
def gcount (n period g : ℕ) : ℕ := 1 + (n - g) / period

theorem mem_gcount {n period g i : ℕ} (hp : 0 < period) (hg : g ≤ n) :
    i < gcount n period g ↔ g + i * period ≤ n := by
  unfold gcount
  rw [Nat.lt_one_add_iff, Nat.le_div_iff_mul_le hp]
  omega

theorem sum_groups {M : Type*} [AddCommMonoid M] {n period : ℕ} (hp : 0 < period) (f : ℕ → ℕ → M) :
    ∑ g ∈ Icc 1 (min period n), ∑ lag ∈ Icc 1 (gcount n period g - 1), ∑ i ∈ Icc 1 (gcount n period g - lag),
      f (g + (i - 1) * period) (g + (i - 1 + lag) * period) = ∑ p ∈ seasonPairs n period, f p.1 p.2 := by
  have h1 : ∀ g, ∑ lag ∈ Icc 1 (gcount n period g - 1), ∑ i ∈ Icc 1 (gcount n period g - lag),
      f (g + (i - 1) * period) (g + (i - 1 + lag) * period) =
      ∑ x ∈ (Icc 1 (gcount n period g - 1)).sigma (fun lag => Icc 1 (gcount n period g - lag)),
        f (g + (x.2 - 1) * period) (g + (x.2 - 1 + x.1) * period) := by
    intro g; rw [Finset.sum_sigma']
  simp only [h1]
  rw [Finset.sum_sigma']
  refine Finset.sum_nbij' (fun x => (x.1 + (x.2.2 - 1) * period, x.1 + (x.2.2 - 1 + x.2.1) * period))
    (fun q => ⟨(q.1 - 1) % period + 1, ⟨(q.2 - q.1) / period, (q.1 - 1) / period + 1⟩⟩) ?_ ?_ ?_ ?_ ?_
  · rintro ⟨g, lag, i⟩ h
    simp only [Finset.mem_sigma, Finset.mem_Icc, le_min_iff] at h
    obtain ⟨⟨g1, g2, g3⟩, ⟨l1, l2⟩, i1, i2⟩ := h
    have hlast : i - 1 + lag < gcount n period g := by omega
    rw [mem_gcount hp g3] at hlast
    simp only [seasonPairs, Finset.mem_filter, mem_pairs]
    refine ⟨⟨by omega, ?_, hlast⟩, ?_⟩
    · rw [Nat.add_mul]
      have : 1 * period ≤ lag * period := Nat.mul_le_mul_right _ l1
      omega
    · simp [Nat.add_mul_mod_self_right]
  · rintro ⟨a, b⟩ h
    simp only [seasonPairs, Finset.mem_filter, mem_pairs] at h
    obtain ⟨⟨a1, ab, bn⟩, hm⟩ := h
    obtain ⟨d, hd⟩ : ∃ d, b = a + d * period := by
      have : (b - a) % period = 0 := (Nat.modEq_iff_dvd' ab.le).mp hm |> Nat.mod_eq_zero_of_dvd
      refine ⟨(b - a) / period, ?_⟩
      have := Nat.div_add_mod (b - a) period
      rw [Nat.mul_comm] at this
      omega
    have hd1 : 1 ≤ d := by
      rcases Nat.eq_zero_or_pos d with h0 | h0
      · subst h0; omega
      · exact h0
    have hdd : (b - a) / period = d := by
      rw [hd, Nat.add_sub_cancel_left, Nat.mul_div_cancel _ hp]
    have hlt := Nat.mod_lt (a - 1) hp
    have hdm := Nat.div_add_mod (a - 1) period
    rw [Nat.mul_comm] at hdm
    have hgn : (a - 1) % period + 1 ≤ n := by
      have := Nat.mod_le (a - 1) period; omega
    simp only [Finset.mem_sigma, Finset.mem_Icc, le_min_iff, hdd]
    have key : (a - 1) / period + d < gcount n period ((a - 1) % period + 1) := by
      rw [mem_gcount hp hgn, Nat.add_mul]
      omega
    clear hdm hdd hd
    generalize (a - 1) / period = q at *
    refine ⟨⟨by omega, by omega, hgn⟩, ⟨hd1, by omega⟩, by omega, by omega⟩
  · rintro ⟨g, lag, i⟩ h
    simp only [Finset.mem_sigma, Finset.mem_Icc, le_min_iff] at h
    obtain ⟨⟨g1, g2, g3⟩, ⟨l1, l2⟩, i1, i2⟩ := h
    have e1 : g + (i - 1) * period - 1 = (g - 1) + (i - 1) * period := by omega
    have e2 : g + (i - 1 + lag) * period - (g + (i - 1) * period) = lag * period := by
      rw [Nat.add_mul]; omega
    have e3 : (g - 1) % period = g - 1 := Nat.mod_eq_of_lt (by omega)
    have e4 : (g - 1) / period = 0 := Nat.div_eq_of_lt (by omega)
    simp only [e1, e2, Nat.add_mul_mod_self_right, Nat.add_mul_div_right _ _ hp, Nat.mul_div_cancel _ hp, e3, e4]
    rw [show g - 1 + 1 = g by omega, show 0 + (i - 1) + 1 = i by omega]
  · rintro ⟨a, b⟩ h
    simp only [seasonPairs, Finset.mem_filter, mem_pairs] at h
    obtain ⟨⟨a1, ab, bn⟩, hm⟩ := h
    have hdv : period ∣ b - a := (Nat.modEq_iff_dvd' ab.le).mp hm
    have hdm := Nat.div_add_mod (a - 1) period
    have hdb := Nat.div_mul_cancel hdv
    rw [Nat.mul_comm] at hdm
    simp only [Nat.add_sub_cancel, Prod.mk.injEq]
    rw [Nat.add_mul, hdb]
    omega
  · rintro ⟨g, lag, i⟩ h
    rfl

theorem tri_sum (c : ℕ) : c * (c - 1) / 2 = ∑ lag ∈ Icc 1 (c - 1), (c - lag) := by
  have h : ∑ lag ∈ Icc 1 (c - 1), (c - lag) = ∑ i ∈ (range c).filter (fun i => i ≠ 0), i := by
    refine Finset.sum_nbij' (fun l => c - l) (fun i => c - i) ?_ ?_ ?_ ?_ ?_
    · intro l hl; simp at hl ⊢; omega
    · intro l hl; simp at hl ⊢; omega
    · intro l hl; simp at hl ⊢; omega
    · intro l hl; simp at hl ⊢; omega
    · intro l hl; rfl
  have h2 : ∑ i ∈ (range c).filter (fun i => i ≠ 0), i = ∑ i ∈ range c, i := Finset.sum_filter_ne_zero (range c)
  rw [h, h2, Finset.sum_range_id]

/-- slopes of one group -/
def gtotal (n period g : ℕ) : ℕ := ∑ lag ∈ Icc 1 (gcount n period g - 1), (gcount n period g - lag)

theorem groupedSlopeCount_eq {n period : ℕ} (hn : 2 ≤ n) (hp : 0 < period) :
    groupedSlopeCount n period = ∑ g ∈ Icc 1 (min period n), gtotal n period g := by
  unfold groupedSlopeCount
  rw [if_neg (by omega)]
  have : ∀ g s : ℕ, (if 1 + (n - g) / period > 1 then
      s + (1 + (n - g) / period) * (1 + (n - g) / period - 1) / 2 else s) = s + gtotal n period g := by
    intro g s
    unfold gtotal gcount
    rw [← tri_sum]
    split_ifs with h
    · rfl
    · have h1 : 1 + (n - g) / period = 1 := by
        generalize (n - g) / period = q at *
        omega
      rw [h1]; simp
  simp only [this, doLoop_add, zero_add]

theorem groupedSlopeCount_eq_card {n period : ℕ} (hp : 0 < period) :
    groupedSlopeCount n period = (seasonPairs n period).card := by
  by_cases hn : 2 ≤ n
  · rw [groupedSlopeCount_eq hn hp, Finset.card_eq_sum_ones, ← sum_groups hp (fun _ _ => 1)]
    apply Finset.sum_congr rfl; intro g _
    apply Finset.sum_congr rfl; intro lag _
    simp
  · have : pairs n = ∅ := by
      ext p; rw [mem_pairs]; simp; omega
    unfold groupedSlopeCount seasonPairs
    rw [if_pos (by omega), this]; rfl

theorem group_index_le {n period : ℕ} (hn : 2 ≤ n) (hp : 0 < period) {g lag i : ℕ} (g1 : 1 ≤ g) (g2 : g ≤ min period n)
    (l1 : 1 ≤ lag) (l2 : lag ≤ gcount n period g - 1) (i1 : 1 ≤ i) (i2 : i ≤ gcount n period g - lag) :
    ∑ h ∈ Icc 1 (g - 1), gtotal n period h + ∑ l ∈ Icc 1 (lag - 1), (gcount n period g - l) + (i - 1) + 1
      ≤ groupedSlopeCount n period := by
  rw [groupedSlopeCount_eq hn hp]
  have e1 : ∑ l ∈ Icc 1 (lag - 1), (gcount n period g - l) + i ≤ gtotal n period g := by
    calc _ ≤ ∑ l ∈ Icc 1 (lag - 1), (gcount n period g - l) + (gcount n period g - lag) := by omega
      _ = ∑ l ∈ Icc 1 lag, (gcount n period g - l) := (sum_Icc_succ_last _ l1).symm
      _ ≤ _ := Finset.sum_le_sum_of_subset (Finset.Icc_subset_Icc le_rfl l2)
  calc _ ≤ ∑ h ∈ Icc 1 (g - 1), gtotal n period h + gtotal n period g := by omega
    _ = ∑ h ∈ Icc 1 g, gtotal n period h := (sum_Icc_succ_last _ g1).symm
    _ ≤ _ := Finset.sum_le_sum_of_subset (Finset.Icc_subset_Icc le_rfl g2)

/-- slope between cycles `i` and `i+lag` of group `g` -/
def gslope (period : ℕ) (y : ℕ → K) (g lag i : ℕ) : K :=
  (y (g + (i - 1 + lag) * period) - y (g + (i - 1) * period)) * invLag lag

theorem gslopes_eq {n period : ℕ} (hp : 0 < period) (y : ℕ → K) :
    ∑ g ∈ Icc 1 (min period n), ∑ lag ∈ Icc 1 (gcount n period g - 1), ∑ i ∈ Icc 1 (gcount n period g - lag),
      ({gslope period y g lag i} : Multiset K) = seasonSlopes n period y := by
  have h := sum_groups (n := n) hp (fun a b => ({(y b - y a) / (((b : K) - (a : K)) / (period : K))} : Multiset K))
  rw [seasonSlopes]
  have e : (seasonPairs n period).val.map (fun p => (y p.2 - y p.1) / (((p.2 : K) - (p.1 : K)) / (period : K))) =
      ∑ p ∈ seasonPairs n period, ({(y p.2 - y p.1) / (((p.2 : K) - (p.1 : K)) / (period : K))} : Multiset K) := by
    rw [Finset.sum]
    rw [show (fun p : ℕ × ℕ => ({(y p.2 - y p.1) / (((p.2 : K) - (p.1 : K)) / (period : K))} : Multiset K)) =
      (fun x => ({x} : Multiset K)) ∘ fun p : ℕ × ℕ => (y p.2 - y p.1) / (((p.2 : K) - (p.1 : K)) / (period : K)) from rfl]
    rw [← Multiset.map_map, Multiset.sum_map_singleton]
  rw [e, ← h]
  apply Finset.sum_congr rfl; intro g _
  apply Finset.sum_congr rfl; intro lag _
  apply Finset.sum_congr rfl; intro i _
  congr 1
  unfold gslope invLag
  have hpK : (period : K) ≠ 0 := by exact_mod_cast hp.ne'
  have : (((g + (i - 1 + lag) * period : ℕ) : K) - ((g + (i - 1) * period : ℕ) : K)) / (period : K) = lag := by
    push_cast
    field_simp
    ring
  rw [this, mul_one_div]

theorem groupedSenFill_ok {n period : ℕ} (hn : 2 ≤ n) (hp : 0 < period) (y work : ℕ → K) :
    ∃ w, groupedSenFill n period y work = some (w, groupedSlopeCount n period) ∧
      (bufList (groupedSlopeCount n period) w : Multiset K) = seasonSlopes n period y := by
  unfold groupedSenFill
  let N1 : ℕ → ℕ := fun g => ∑ h ∈ Icc 1 (g - 1), gtotal n period h
  let S1 : ℕ → Multiset K := fun g => ∑ h ∈ Icc 1 (g - 1), ∑ lag ∈ Icc 1 (gcount n period h - 1),
    ∑ i ∈ Icc 1 (gcount n period h - lag), ({gslope period y h lag i} : Multiset K)
  obtain ⟨st, e, p⟩ := doLoopM_inv (lo := 1) (hi := min period n) (by omega) (s := (work, 0))
    (f := fun g (st : (ℕ → K) × ℕ) =>
      doLoopM 1 (1 + (n - g) / period - 1) st fun lag (st : (ℕ → K) × ℕ) =>
        doLoopM 1 (1 + (n - g) / period - lag) st fun i (st : (ℕ → K) × ℕ) => do
          let y2 ← rd n y (g + (i - 1 + lag) * period)
          let y1 ← rd n y (g + (i - 1) * period)
          let w ← wr (groupedSlopeCount n period) st.1 (st.2 + 1) ((y2 - y1) * invLag lag)
          return (w, st.2 + 1))
    (fun g st => st.2 = N1 g ∧ (bufList st.2 st.1 : Multiset K) = S1 g)
    (by simp [N1, S1, bufList])
    (by
      intro g st g1 g2 ⟨hN, hS⟩
      have hgn : g ≤ n := le_trans g2 (min_le_right _ _)
      obtain ⟨st', e', p'⟩ := doLoopM_inv (lo := 1) (hi := gcount n period g - 1) (by omega) (s := st)
        (f := fun lag (st : (ℕ → K) × ℕ) =>
          doLoopM 1 (1 + (n - g) / period - lag) st fun i (st : (ℕ → K) × ℕ) => do
            let y2 ← rd n y (g + (i - 1 + lag) * period)
            let y1 ← rd n y (g + (i - 1) * period)
            let w ← wr (groupedSlopeCount n period) st.1 (st.2 + 1) ((y2 - y1) * invLag lag)
            return (w, st.2 + 1))
        (fun lag st => st.2 = N1 g + ∑ l ∈ Icc 1 (lag - 1), (gcount n period g - l) ∧
          (bufList st.2 st.1 : Multiset K) = S1 g + ∑ l ∈ Icc 1 (lag - 1), ∑ i ∈ Icc 1 (gcount n period g - l),
            ({gslope period y g l i} : Multiset K))
        (by simpa using ⟨hN, hS⟩)
        (by
          intro lag st l1 l2 ⟨hN, hS⟩
          obtain ⟨st', e', p'⟩ := doLoopM_inv (lo := 1) (hi := gcount n period g - lag) (by omega) (s := st)
            (f := fun i (st : (ℕ → K) × ℕ) => do
                let y2 ← rd n y (g + (i - 1 + lag) * period)
                let y1 ← rd n y (g + (i - 1) * period)
                let w ← wr (groupedSlopeCount n period) st.1 (st.2 + 1) ((y2 - y1) * invLag lag)
                return (w, st.2 + 1))
            (fun i st => st.2 = N1 g + ∑ l ∈ Icc 1 (lag - 1), (gcount n period g - l) + (i - 1) ∧
              (bufList st.2 st.1 : Multiset K) = S1 g + ∑ l ∈ Icc 1 (lag - 1), ∑ i ∈ Icc 1 (gcount n period g - l),
                ({gslope period y g l i} : Multiset K) + ∑ k ∈ Icc 1 (i - 1), ({gslope period y g lag k} : Multiset K))
            (by simpa using ⟨hN, hS⟩)
            (by
              intro i st i1 i2 ⟨hN, hS⟩
              have hle := group_index_le hn hp g1 g2 l1 l2 i1 i2
              have b1 : g + (i - 1 + lag) * period ≤ n := (mem_gcount hp hgn).mp (by omega)
              have b2 : g + (i - 1) * period ≤ n := (mem_gcount hp hgn).mp (by omega)
              rw [rd_ok (by omega) b1, rd_ok (by omega) b2]
              simp only [Option.bind_eq_bind, Option.bind_some]
              rw [wr_ok (by omega) (by rw [hN]; exact hle)]
              refine ⟨_, rfl, ?_, ?_⟩
              · simp only; omega
              · simp only
                rw [bufList_update_succ, coe_append_singleton, hS, Nat.add_sub_cancel, sum_Icc_succ_last _ i1]
                rw [add_assoc, add_assoc, add_assoc]
                rfl)
          refine ⟨st', e', ?_, ?_⟩
          · rw [p'.1, Nat.add_sub_cancel, Nat.add_sub_cancel, sum_Icc_succ_last _ l1, add_assoc]
          · rw [p'.2, Nat.add_sub_cancel, Nat.add_sub_cancel, sum_Icc_succ_last _ l1, add_assoc])
      refine ⟨st', e', ?_, ?_⟩
      · rw [p'.1, Nat.add_sub_cancel]
        simp only [N1, Nat.add_sub_cancel]
        rw [sum_Icc_succ_last _ g1]; rfl
      · rw [p'.2, Nat.add_sub_cancel]
        simp only [S1, Nat.add_sub_cancel]
        rw [sum_Icc_succ_last _ g1])
  have hc : st.2 = groupedSlopeCount n period := by
    rw [p.1, groupedSlopeCount_eq hn hp]; simp [N1]
  refine ⟨st.1, ?_, ?_⟩
  · refine Eq.trans e ?_
    rw [← hc]
  · rw [← hc, p.2, ← gslopes_eq hp]; simp [S1]

theorem groupedSenSlope_ok {n period : ℕ} (hc : (seasonPairs n period).card ≠ 0) (hp : 0 < period) (y work : ℕ → K) :
    groupedSenSlope n period y work = some (some (median (seasonSlopes n period y))) := by
  have hn : 2 ≤ n := by
    by_contra h
    apply hc
    rw [← groupedSlopeCount_eq_card hp]
    unfold groupedSlopeCount
    rw [if_pos (by omega)]
  obtain ⟨w, e, h⟩ := groupedSenFill_ok hn hp y work
  unfold groupedSenSlope
  rw [if_neg (by omega)]
  simp only
  rw [if_neg (by rw [groupedSlopeCount_eq_card hp]; exact hc), e]
  simp only [Option.bind_eq_bind, Option.bind_some]
  rw [medianByselect_ok _ (by rw [groupedSlopeCount_eq_card hp]; omega), h]
  rfl

end Skyborn.MK
