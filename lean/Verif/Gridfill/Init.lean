import Verif.Gridfill.Lemmas
import Mathlib.Algebra.Order.BigOperators.Group.Finset

/-! Closed forms of the three initialisations. -/

namespace Skyborn.Gridfill

open Skyborn

variable {K : Type} [Field K] [LinearOrder K]
variable {nlat nlon : ℕ} {cyclic : Bool} {mask : ℕ → ℕ → ℤ}

/-- the loop `for j in range(nlon): if mask[i, j]: grid[i, j] = v` -/
theorem fillRow_eq {i : ℕ} (hi : i < nlat) (v : K) (g : ℕ → ℕ → K) : ∃ g',
    (forM 0 nlon g fun j grid => do
      let m ← rd2 nlat nlon mask i j
      if m ≠ 0 then wr2 nlat nlon grid i j v else return grid) = some g' ∧
    ∀ a b, g' a b = if a = i ∧ b < nlon ∧ mask i b ≠ 0 then v else g a b := by
  obtain ⟨g', e, h⟩ := forM_inv (lo := 0) (hi := nlon) (Nat.zero_le _) (s := g)
    (f := fun j grid => do
      let m ← rd2 nlat nlon mask i j
      if m ≠ 0 then wr2 nlat nlon grid i j v else return grid)
    (fun j g' => ∀ a b, g' a b = if a = i ∧ b < j ∧ mask i b ≠ 0 then v else g a b) (by simp)
    (by
      intro j s _ hj hs
      by_cases hm : mask i j = 0
      · refine ⟨s, by simp [rd2_ok hi hj, hm], fun a b => ?_⟩
        rw [hs]
        by_cases hb : b = j
        · subst hb; simp [hm]
        · have : (b < j + 1) ↔ b < j := by omega
          simp only [this]
      · refine ⟨set2 s i j v, by simp [rd2_ok hi hj, hm, wr2_ok hi hj], fun a b => ?_⟩
        by_cases hab : a = i ∧ b = j
        · obtain ⟨rfl, rfl⟩ := hab
          rw [set2_same, if_pos ⟨rfl, by omega, hm⟩]
        · rw [set2_ne hab, hs]
          by_cases ha : a = i
          · have : (b < j + 1) ↔ b < j := by
              have : b ≠ j := fun h => hab ⟨ha, h⟩
              omega
            simp only [this]
          · simp [ha])
  exact ⟨g', e, h⟩

theorem initConst_eq (v : K) (g : ℕ → ℕ → K) : ∃ g', initConst nlat nlon v mask g = some g' ∧
    ∀ a b, g' a b = if a < nlat ∧ b < nlon ∧ mask a b ≠ 0 then v else g a b := by
  unfold initConst
  refine forM_inv (Nat.zero_le _)
    (fun i (g' : ℕ → ℕ → K) => ∀ a b, g' a b = if a < i ∧ b < nlon ∧ mask a b ≠ 0 then v else g a b) (by simp) ?_
  intro i s _ hi hs
  obtain ⟨g', e, h⟩ := fillRow_eq (mask := mask) (nlon := nlon) hi v s
  refine ⟨g', e, fun a b => ?_⟩
  rw [h, hs]
  by_cases ha : a = i
  · subst ha; simp
  · have : a < i + 1 ↔ a < i := by omega
    simp only [ha, false_and, if_false, this]

/-- observed columns of row `i` -/
def obs (nlon : ℕ) (mask : ℕ → ℕ → ℤ) (i : ℕ) : Finset ℕ := (Finset.range nlon).filter fun j => mask i j = 0

theorem initZonal_eq (g : ℕ → ℕ → K) : ∃ g', initZonal nlat nlon mask g = some g' ∧
    ∀ a b, g' a b = if a < nlat ∧ b < nlon ∧ mask a b ≠ 0 ∧ (obs nlon mask a).Nonempty then
      (∑ j ∈ obs nlon mask a, g a j) / ((obs nlon mask a).card : K) else g a b := by
  unfold initZonal
  refine forM_inv (Nat.zero_le _)
    (fun i (g' : ℕ → ℕ → K) => ∀ a b, g' a b = if a < i ∧ b < nlon ∧ mask a b ≠ 0 ∧ (obs nlon mask a).Nonempty then
      (∑ j ∈ obs nlon mask a, g a j) / ((obs nlon mask a).card : K) else g a b) (by simp) ?_
  intro i s _ hi hs
  have hsi : ∀ b, s i b = g i b := fun b => by rw [hs, if_neg (by omega)]
  obtain ⟨⟨n, z⟩, e, h⟩ := forM_inv (lo := 0) (hi := nlon) (Nat.zero_le _) (s := ((0 : ℕ), (0 : K)))
    (f := fun j (t : ℕ × K) => do
      let m ← rd2 nlat nlon mask i j
      if m = 0 then
        let v ← rd2 nlat nlon s i j
        return (t.1 + 1, t.2 + v)
      else return t)
    (fun j t => t.1 = (obs j mask i).card ∧ t.2 = ∑ k ∈ obs j mask i, g i k) (by simp [obs])
    (by
      rintro j ⟨n, z⟩ _ hj ⟨hn, hz⟩
      simp only at hn hz
      have hins : obs (j + 1) mask i = if mask i j = 0 then insert j (obs j mask i) else obs j mask i := by
        unfold obs; rw [Finset.range_add_one, Finset.filter_insert]
      have hnot : j ∉ obs j mask i := by simp [obs]
      by_cases hm : mask i j = 0
      · refine ⟨(n + 1, z + s i j), by simp [rd2_ok hi hj, hm], ?_, ?_⟩
        · rw [hins, if_pos hm, Finset.card_insert_of_notMem hnot, hn]
        · rw [hins, if_pos hm, Finset.sum_insert hnot, hz, hsi]; exact add_comm _ _
      · refine ⟨(n, z), by simp [rd2_ok hi hj, hm], ?_⟩
        rw [hins, if_neg hm]; exact ⟨hn, hz⟩)
  simp only at h
  obtain ⟨hn, hz⟩ := h
  by_cases hne : (obs nlon mask i).Nonempty
  · obtain ⟨g', e', h'⟩ := fillRow_eq (mask := mask) (nlon := nlon) hi (z / (n : K)) s
    have hpos : n > 0 := by rw [hn]; exact Finset.card_pos.mpr hne
    refine ⟨g', ?_, fun a b => ?_⟩
    · simp only [Option.bind_eq_bind] at e e' ⊢
      rw [e]
      simp only [Option.bind_some, if_pos hpos]
      exact e'
    · rw [h', hs]
      by_cases ha : a = i
      · subst ha; simp [hne, hn, hz]
      · have : a < i + 1 ↔ a < i := by omega
        simp only [ha, false_and, if_false, this]
  · have h0 : n = 0 := by rw [hn, Finset.card_eq_zero]; exact Finset.not_nonempty_iff_eq_empty.mp hne
    refine ⟨s, ?_, fun a b => ?_⟩
    · simp only [Option.bind_eq_bind] at e ⊢
      rw [e]
      simp [h0]
    · rw [hs]
      by_cases ha : a = i
      · subst ha; simp [hne]
      · have : a < i + 1 ↔ a < i := by omega
        simp only [this]

/-! ### Zonal linear -/

/-- virtual table of segment starts: a leading entry 0 when the scan starts inside a gap -/
def vs (p : Bool) (sg : Segs K) (k : ℕ) : ℕ := if p then (if k = 0 then 0 else sg.s (k - 1)) else sg.s k

/-- what the scan of a row has established after `j` columns; `M c` = column `c` is missing, `p` = the column regarded as the
left neighbour of column 0 is missing, `L s` = left neighbour of column `s` -/
structure ScanInv (M : ℕ → Prop) (x : ℕ → K) (L : ℕ → ℕ) (p : Bool) (j : ℕ) (cur : Bool) (sg : Segs K) : Prop where
  count : sg.nS + p.toNat = sg.nE + cur.toNat
  nSle : sg.nS ≤ j
  nEle : sg.nE ≤ j
  starts : ∀ k, k < sg.nS → sg.s k < j ∧ M (sg.s k) ∧ ¬ M (L (sg.s k)) ∧ sg.sVal k = x (L (sg.s k))
  ends : ∀ k, k < sg.nE → sg.e k < j ∧ ¬ M (sg.e k) ∧ sg.eVal k = x (sg.e k) ∧ vs p sg k ≤ sg.e k
  gap : ∀ k, k < sg.nE → ∀ c, vs p sg k ≤ c → c < sg.e k → M c
  openGap : cur = true → vs p sg sg.nE ≤ j ∧ ∀ c, vs p sg sg.nE ≤ c → c < j → M c
  sep : ∀ k, k + 1 < sg.nE + cur.toNat → sg.e k ≤ vs p sg (k + 1)
  cover : ∀ c, c < j → M c → (∃ k, k < sg.nE ∧ vs p sg k ≤ c ∧ c < sg.e k) ∨ (cur = true ∧ vs p sg sg.nE ≤ c)
  hasStart : ∀ c, c < j → M c → ¬ M (L c) → 0 < sg.nS

theorem scan_eq (h2 : 3 ≤ nlon) {i : ℕ} (hi : i < nlat) (g : ℕ → ℕ → K) (sg0 : Segs K) : ∃ sg,
    scanSegments nlat nlon cyclic mask g i sg0 = some sg ∧
    ScanInv (fun c => mask i c ≠ 0) (g i) (fun c => (longitudeIndices c nlon cyclic).1)
      (decide (mask i (longitudeIndices 0 nlon cyclic).1 ≠ 0)) nlon (decide (mask i (nlon - 1) ≠ 0)) sg := by
  unfold scanSegments
  obtain ⟨p, hp⟩ : ∃ p : Bool, p = decide (mask i (longitudeIndices 0 nlon cyclic).1 ≠ 0) := ⟨_, rfl⟩
  rw [← hp]
  obtain ⟨sg, e, h⟩ := forM_inv (lo := 0) (hi := nlon) (Nat.zero_le _) (s := { sg0 with nS := 0, nE := 0 })
    (f := fun j sg => do
      let jm1 := (longitudeIndices j nlon cyclic).1
      let ml ← rd2 nlat nlon mask i jm1
      let m ← rd2 nlat nlon mask i j
      if ml = 0 ∧ m ≠ 0 then
        let v ← rd2 nlat nlon g i jm1
        let s ← wr0 nlon sg.s sg.nS j
        let sv ← wr0 nlon sg.sVal sg.nS v
        return { sg with s := s, sVal := sv, nS := sg.nS + 1 }
      else if ml ≠ 0 ∧ m = 0 then
        let v ← rd2 nlat nlon g i j
        let e ← wr0 nlon sg.e sg.nE j
        let ev ← wr0 nlon sg.eVal sg.nE v
        return { sg with e := e, eVal := ev, nE := sg.nE + 1 }
      else return sg)
    (fun j sg => ScanInv (fun c => mask i c ≠ 0) (g i) (fun c => (longitudeIndices c nlon cyclic).1) p j
      (if j = 0 then p else decide (mask i (j - 1) ≠ 0)) sg)
    (by
      refine ⟨by simp, by simp, by simp, by simp, by simp, by simp, ?_, ?_, by simp, by simp⟩
      · intro h; simp at h; simp [vs, h]
      · intro k hk; simp at hk; cases p <;> simp at hk)
    (by
      intro j sg _ hj hI
      have hL : (longitudeIndices j nlon cyclic).1 < nlon := (lon_lt (c := cyclic) h2 hj).1
      have hcur : (if j = 0 then p else decide (mask i (j - 1) ≠ 0)) = decide (mask i (longitudeIndices j nlon cyclic).1 ≠ 0) := by
        by_cases h : j = 0
        · subst h; simp [hp]
        · have : (longitudeIndices j nlon cyclic).1 = j - 1 := by
            unfold longitudeIndices; cases cyclic <;> simp [h]
          simp [h, this]
      rw [hcur] at hI
      simp only [if_neg (Nat.succ_ne_zero j), Nat.add_sub_cancel, rd2_ok hi hL, rd2_ok hi hj, Option.bind_eq_bind, Option.bind_some]
      obtain ⟨c1, c2, c3, c4, c5, c6, c7, c8, c9, c10⟩ := hI
      by_cases hl : mask i (longitudeIndices j nlon cyclic).1 = 0
      · have hd1 : decide (mask i (longitudeIndices j nlon cyclic).1 ≠ 0) = false := by simp [hl]
        rw [hd1] at c1 c7 c8 c9
        by_cases hm : mask i j = 0
        · -- stays outside a gap
          refine ⟨sg, by simp [hl, hm], ?_⟩
          rw [show decide (mask i j ≠ 0) = false by simp [hm]]
          refine ⟨c1, by omega, by omega, fun k hk => ?_, fun k hk => ?_, c6, by simp, c8, fun c hc hM => ?_, fun c hc hM hL => ?_⟩
          · have := c4 k hk; exact ⟨by omega, this.2⟩
          · have := c5 k hk; exact ⟨by omega, this.2⟩
          · by_cases hcj : c = j
            · subst hcj; exact absurd hm hM
            · exact c9 c (by omega) hM
          · by_cases hcj : c = j
            · subst hcj; exact absurd hm hM
            · exact c10 c (by omega) hM hL
        · -- a gap starts
          have hp' : p.toNat ≤ 1 := by cases p <;> simp
          rw [show decide (mask i j ≠ 0) = true by simp [hm]]
          simp only [Bool.toNat_false, Nat.add_zero] at c1 c8
          refine ⟨{ sg with s := Function.update sg.s sg.nS j, sVal := Function.update sg.sVal sg.nS (g i (longitudeIndices j nlon cyclic).1), nS := sg.nS + 1 }, ?_, ?_⟩
          · have hn : sg.nS < nlon := by omega
            simp [wr0_ok hn, hl, hm, rd2_ok hi hL]
          · have hvs : ∀ k, k < sg.nE → vs p { sg with s := Function.update sg.s sg.nS j, sVal := Function.update sg.sVal sg.nS (g i (longitudeIndices j nlon cyclic).1), nS := sg.nS + 1 } k = vs p sg k := by
              intro k hk
              unfold vs
              cases p
              · simp only [Bool.toNat_false] at c1
                simp [Function.update_of_ne (show k ≠ sg.nS by omega)]
              · simp only [Bool.toNat_true] at c1
                simp only [if_true]
                split
                · rfl
                · rw [Function.update_of_ne (by omega)]
            have hvsn : vs p { sg with s := Function.update sg.s sg.nS j, sVal := Function.update sg.sVal sg.nS (g i (longitudeIndices j nlon cyclic).1), nS := sg.nS + 1 } sg.nE = j := by
              unfold vs
              cases p
              · simp only [Bool.toNat_false] at c1
                simp [← c1]
              · simp only [Bool.toNat_true] at c1
                simp [← c1]
            refine ⟨?_, ?_, ?_, ?_, ?_, ?_, ?_, ?_, ?_, fun _ _ _ _ => by simp⟩
            · simp only [Bool.toNat_true]; omega
            · simp only; omega
            · simp only; omega
            · intro k hk
              simp only at hk ⊢
              by_cases hks : k = sg.nS
              · subst hks
                simp only [Function.update_self]
                exact ⟨by omega, hm, by simpa using hl, trivial⟩
              · rw [Function.update_of_ne hks, Function.update_of_ne hks]
                have := c4 k (by omega)
                exact ⟨by omega, this.2⟩
            · intro k hk
              simp only at hk
              rw [hvs k hk]
              have := c5 k hk
              exact ⟨by simp only; omega, this.2⟩
            · intro k hk
              simp only at hk
              rw [hvs k hk]; exact c6 k hk
            · intro _
              simp only
              rw [hvsn]
              refine ⟨by omega, fun c h1 h2 => ?_⟩
              have : c = j := by omega
              subst this; exact hm
            · intro k hk
              simp only [Bool.toNat_true] at hk
              by_cases hk2 : k + 1 < sg.nE
              · rw [hvs (k + 1) hk2]; exact c8 k hk2
              · have : k + 1 = sg.nE := by omega
                rw [this, hvsn]
                exact (c5 k (by omega)).1.le
            · intro c hc hM
              simp only
              by_cases hcj : c = j
              · subst hcj; right; exact ⟨trivial, hvsn.le⟩
              · left
                rcases c9 c (by omega) hM with ⟨k, hk, hk2⟩ | ⟨h, _⟩
                · exact ⟨k, hk, by rw [hvs k hk]; exact hk2⟩
                · exact absurd h (by simp)
      · have hd1 : decide (mask i (longitudeIndices j nlon cyclic).1 ≠ 0) = true := by simp [hl]
        rw [hd1] at c1 c7 c8 c9
        have c7' := c7 rfl
        by_cases hm : mask i j = 0
        · -- a gap ends
          rw [show decide (mask i j ≠ 0) = false by simp [hm]]
          simp only [Bool.toNat_true] at c1 c8
          have hp' : p.toNat ≤ 1 := by cases p <;> simp
          have hnE : sg.nE < nlon := by omega
          refine ⟨{ sg with e := Function.update sg.e sg.nE j, eVal := Function.update sg.eVal sg.nE (g i j), nE := sg.nE + 1 }, ?_, ?_⟩
          · simp [wr0_ok hnE, hl, hm, rd2_ok hi hj]
          · have hvs : ∀ k, vs p { sg with e := Function.update sg.e sg.nE j, eVal := Function.update sg.eVal sg.nE (g i j), nE := sg.nE + 1 } k = vs p sg k := fun _ => rfl
            refine ⟨?_, ?_, ?_, ?_, ?_, ?_, ?_, ?_, ?_, fun c hc hM hL => c10 c (by
              have hcj : c ≠ j := by rintro rfl; exact hM hm
              omega) hM hL⟩
            · simp only [Bool.toNat_false]; omega
            · simp only; omega
            · simp only; omega
            · intro k hk
              have := c4 k hk
              exact ⟨by simp only; omega, this.2⟩
            · intro k hk
              simp only at hk
              rw [hvs]
              by_cases hke : k = sg.nE
              · subst hke
                simp only [Function.update_self]
                exact ⟨by omega, by simpa using hm, trivial, c7'.1⟩
              · simp only [Function.update_of_ne hke]
                have := c5 k (by omega)
                exact ⟨by omega, this.2⟩
            · intro k hk c h1 h2
              simp only at hk
              rw [hvs] at h1
              by_cases hke : k = sg.nE
              · subst hke
                simp only [Function.update_self] at h2
                exact c7'.2 c h1 h2
              · simp only [Function.update_of_ne hke] at h2
                exact c6 k (by omega) c h1 h2
            · simp
            · intro k hk
              simp only [Bool.toNat_false, Nat.add_zero] at hk
              rw [hvs]
              simp only [Function.update_of_ne (show k ≠ sg.nE by omega)]
              exact c8 k (by omega)
            · intro c hc hM
              left
              have hcj : c ≠ j := by
                rintro rfl; exact hM hm
              rcases c9 c (by omega) hM with ⟨k, hk, hk2⟩ | ⟨_, h⟩
              · exact ⟨k, by simp only; omega, by rw [hvs]; simp only [Function.update_of_ne (show k ≠ sg.nE by omega)]; exact hk2⟩
              · exact ⟨sg.nE, by simp only; omega, by rw [hvs]; exact h, by simp only [Function.update_self]; omega⟩
        · -- stays inside a gap
          refine ⟨sg, by simp [hl, hm], ?_⟩
          rw [show decide (mask i j ≠ 0) = true by simp [hm]]
          refine ⟨c1, by omega, by omega, fun k hk => ?_, fun k hk => ?_, c6, fun _ => ⟨by omega, fun c h1 h2 => ?_⟩, c8, fun c hc hM => ?_, fun c hc hM hLc => ?_⟩
          · have := c4 k hk; exact ⟨by omega, this.2⟩
          · have := c5 k hk; exact ⟨by omega, this.2⟩
          · by_cases hcj : c = j
            · subst hcj; exact hm
            · exact c7'.2 c h1 (by omega)
          · by_cases hcj : c = j
            · subst hcj; exact Or.inr ⟨rfl, c7'.1⟩
            · exact c9 c (by omega) hM
          · by_cases hcj : c = j
            · subst hcj; exact absurd hl hLc
            · exact c10 c (by omega) hM hLc)
  refine ⟨sg, e, ?_⟩
  rw [if_neg (by omega)] at h
  exact h

theorem fillRun_eq {i lo hi : ℕ} (hi' : i < nlat) (hle : lo ≤ hi) (hhi : hi ≤ nlon) (sv ev : K) (len : ℕ) (g : ℕ → ℕ → K) (n0 : ℕ) :
    ∃ g', fillRun nlat nlon i lo hi sv ev len (g, n0) = some (g', n0 + (hi - lo)) ∧
      ∀ a c, g' a c = if a = i ∧ lo ≤ c ∧ c < hi then ((n0 + (c - lo) : ℕ) : K) * (ev - sv) / (len : K) + sv else g a c := by
  unfold fillRun
  obtain ⟨⟨g', n⟩, e, hn, h⟩ := forM_inv (lo := lo) (hi := hi) hle (s := (g, n0))
    (f := fun jj (st : (ℕ → ℕ → K) × ℕ) => do
      let g ← wr2 nlat nlon st.1 i jj ((st.2 : K) * (ev - sv) / (len : K) + sv)
      return (g, st.2 + 1))
    (fun jj st => st.2 = n0 + (jj - lo) ∧ ∀ a c, st.1 a c =
      if a = i ∧ lo ≤ c ∧ c < jj then ((n0 + (c - lo) : ℕ) : K) * (ev - sv) / (len : K) + sv else g a c)
    ⟨by simp, fun a c => by rw [if_neg (by omega)]⟩
    (by
      rintro jj ⟨s, n⟩ h1 h2 ⟨hn, hs⟩
      simp only at hn hs
      refine ⟨(set2 s i jj ((n : K) * (ev - sv) / (len : K) + sv), n + 1), by simp [wr2_ok hi' (show jj < nlon by omega)], by simp only; omega, ?_⟩
      intro a c
      by_cases hac : a = i ∧ c = jj
      · obtain ⟨rfl, rfl⟩ := hac
        simp only [set2_same]
        rw [if_pos ⟨trivial, h1, by omega⟩, hn]
      · simp only [set2_ne hac]
        rw [hs]
        by_cases ha : a = i
        · have : c < jj + 1 ↔ c < jj := by
            have : c ≠ jj := fun h => hac ⟨ha, h⟩
            omega
          simp only [this]
        · simp [ha])
  simp only at hn h
  subst hn
  exact ⟨g', e, h⟩

/-- filling a family of disjoint runs -/
theorem fillRuns_eq {i N : ℕ} (hi' : i < nlat) (s e : ℕ → ℕ) (sv ev : ℕ → K) (g : ℕ → ℕ → K) (f : ℕ → (ℕ → ℕ → K) → Option (ℕ → ℕ → K))
    (hf : ∀ k g, k < N → f k g = (fillRun nlat nlon i (s k) (e k) (sv k) (ev k) (e k - s k) (g, 0)).map (·.1))
    (hse : ∀ k, k < N → s k ≤ e k ∧ e k ≤ nlon) (hsep : ∀ k, k + 1 < N → e k ≤ s (k + 1)) :
    ∃ g', forM 0 N g f = some g' ∧
      (∀ k c, k < N → s k ≤ c → c < e k → g' i c = ((c - s k : ℕ) : K) * (ev k - sv k) / ((e k - s k : ℕ) : K) + sv k) ∧
      (∀ a c, ¬ (a = i ∧ ∃ k, k < N ∧ s k ≤ c ∧ c < e k) → g' a c = g a c) := by
  have hmono : ∀ k' k, k < k' → k' < N → e k ≤ s k' := by
    intro k'
    induction k' with
    | zero => intros; omega
    | succ k' ih =>
      intro k h1 h2
      have h3 := hsep k' h2
      rcases Nat.lt_or_ge k k' with h | h
      · have := ih k h (by omega)
        have := hse k' (by omega)
        omega
      · have : k = k' := by omega
        subst this; exact h3
  refine forM_inv (Nat.zero_le _) (fun N' (g' : ℕ → ℕ → K) =>
      (∀ k c, k < N' → s k ≤ c → c < e k → g' i c = ((c - s k : ℕ) : K) * (ev k - sv k) / ((e k - s k : ℕ) : K) + sv k) ∧
      (∀ a c, ¬ (a = i ∧ ∃ k, k < N' ∧ s k ≤ c ∧ c < e k) → g' a c = g a c)) ⟨by intros; omega, fun _ _ _ => rfl⟩ ?_
  intro k t _ hk ⟨hA, hB⟩
  obtain ⟨g', e1, h1⟩ := fillRun_eq (nlon := nlon) hi' (hse k hk).1 (hse k hk).2 (sv k) (ev k) (e k - s k) t 0
  refine ⟨g', by rw [hf k t hk, e1]; rfl, ?_, ?_⟩
  · intro k' c hk' h2 h3
    by_cases hkk : k' = k
    · subst hkk
      rw [h1, if_pos ⟨rfl, h2, h3⟩, Nat.zero_add]
    · have := hmono k k' (by omega) hk
      rw [h1, if_neg (by omega)]
      exact hA k' c (by omega) h2 h3
  · intro a c h
    rw [h1, if_neg (fun hh => h ⟨hh.1, k, by omega, hh.2.1, hh.2.2⟩)]
    exact hB a c fun hh => h ⟨hh.1, by obtain ⟨k', a1, a2⟩ := hh.2; exact ⟨k', by omega, a2⟩⟩

/-- Ramp between the observed value `x l` (left) and `x r` (right) at step `t` of `len`. -/
def Ramp (x : ℕ → K) (l r t len : ℕ) : K := (t : K) * (x r - x l) / (len : K) + x l

/-- What the zonal-linear initialisation does to a missing column `c` of a row with mask `M`: it is ramped between the observed
columns that bound its gap, the gap being `[s, e)` or, across the end of the row, `[s, n) ∪ [0, e)`. -/
def Ramped (n : ℕ) (M : ℕ → Prop) (x : ℕ → K) (L : ℕ → ℕ) (c : ℕ) (v : K) : Prop :=
  (∃ s e, s ≤ c ∧ c < e ∧ e < n ∧ (∀ c', s ≤ c' → c' < e → M c') ∧ ¬ M (L s) ∧ ¬ M e ∧ v = Ramp x (L s) e (c - s) (e - s)) ∨
  (∃ s e, e ≤ s ∧ s < n ∧ (∀ c', s ≤ c' → c' < n → M c') ∧ (∀ c', c' < e → M c') ∧ ¬ M (L s) ∧ ¬ M e ∧
    ((s ≤ c ∧ v = Ramp x (L s) e (c - s) (n - s + e)) ∨ (c < e ∧ v = Ramp x (L s) e (n - s + c) (n - s + e))))

/-- result of the zonal-linear initialisation for one row -/
structure RowInit (nlon : ℕ) (cyclic : Bool) (iv : K) (m : ℕ → ℤ) (x x' : ℕ → K) : Prop where
  observed : ∀ c, ¬ (c < nlon ∧ m c ≠ 0) → x' c = x c
  noStart : (∀ c, c < nlon → m c ≠ 0 → m (longitudeIndices c nlon cyclic).1 ≠ 0) → ∀ c, c < nlon → m c ≠ 0 → x' c = iv
  ramped : (∃ c, c < nlon ∧ m c ≠ 0 ∧ m (longitudeIndices c nlon cyclic).1 = 0) →
    (m (longitudeIndices 0 nlon cyclic).1 = 0 ↔ m (nlon - 1) = 0) →
    ∀ c, c < nlon → m c ≠ 0 → Ramped nlon (fun c => m c ≠ 0) x (fun c => (longitudeIndices c nlon cyclic).1) c (x' c)
  untouched : (∃ c, c < nlon ∧ m c ≠ 0 ∧ m (longitudeIndices c nlon cyclic).1 = 0) →
    ¬ (m (longitudeIndices 0 nlon cyclic).1 = 0 ↔ m (nlon - 1) = 0) → ∀ c, x' c = x c

/-- the body of the row loop of the zonal-linear initialisation -/
def linearRow (nlat nlon : ℕ) (cyclic : Bool) (initialValue : K) (mask : ℕ → ℕ → ℤ) (i : ℕ) (st : (ℕ → ℕ → K) × Segs K) :
    Option ((ℕ → ℕ → K) × Segs K) := do
  let sg ← scanSegments nlat nlon cyclic mask st.1 i st.2
  if sg.nS = 0 then
    let g ← forM 0 nlon st.1 fun j grid => do
      let m ← rd2 nlat nlon mask i j
      if m ≠ 0 then wr2 nlat nlon grid i j initialValue else return grid
    return (g, sg)
  else if sg.nS = sg.nE then
    let s0 ← rd0 nlon sg.s 0
    let e0 ← rd0 nlon sg.e 0
    if s0 < e0 then
      let g ← forM 0 sg.nS st.1 fun j grid => do
        let s ← rd0 nlon sg.s j
        let e ← rd0 nlon sg.e j
        let sv ← rd0 nlon sg.sVal j
        let ev ← rd0 nlon sg.eVal j
        let r ← fillRun nlat nlon i s e sv ev (e - s) (grid, 0)
        return r.1
      return (g, sg)
    else
      let g ← forM 0 (sg.nS - 1) st.1 fun j grid => do
        let s ← rd0 nlon sg.s j
        let e ← rd0 nlon sg.e (j + 1)
        let sv ← rd0 nlon sg.sVal j
        let ev ← rd0 nlon sg.eVal (j + 1)
        let r ← fillRun nlat nlon i s e sv ev (e - s) (grid, 0)
        return r.1
      let s ← rd0 nlon sg.s (sg.nS - 1)
      let sv ← rd0 nlon sg.sVal (sg.nS - 1)
      let ev ← rd0 nlon sg.eVal 0
      let r ← fillRun nlat nlon i s nlon sv ev (nlon - s + e0) (g, 0)
      let r ← fillRun nlat nlon i 0 e0 sv ev (nlon - s + e0) r
      return (r.1, sg)
  else return (st.1, sg)

theorem linearRow_eq (h2 : 3 ≤ nlon) {i : ℕ} (hi : i < nlat) (iv : K) (g : ℕ → ℕ → K) (sg0 : Segs K) : ∃ g' sg,
    linearRow nlat nlon cyclic iv mask i (g, sg0) = some (g', sg) ∧ (∀ a c, a ≠ i → g' a c = g a c) ∧
      RowInit nlon cyclic iv (mask i) (g i) (g' i) := by
  obtain ⟨sg, e, hI⟩ := scan_eq (mask := mask) (cyclic := cyclic) h2 hi g sg0
  obtain ⟨p, hp⟩ : ∃ p : Bool, p = decide (mask i (longitudeIndices 0 nlon cyclic).1 ≠ 0) := ⟨_, rfl⟩
  obtain ⟨q, hq⟩ : ∃ q : Bool, q = decide (mask i (nlon - 1) ≠ 0) := ⟨_, rfl⟩
  rw [← hp, ← hq] at hI
  have hpq : (mask i (longitudeIndices 0 nlon cyclic).1 = 0 ↔ mask i (nlon - 1) = 0) ↔ p = q := by
    rw [hp, hq, decide_eq_decide]; tauto
  obtain ⟨c1, c2, c3, c4, c5, c6, c7, c8, c9, c10⟩ := hI
  simp only [linearRow, e, Option.bind_eq_bind, Option.bind_some]
  by_cases hS : sg.nS = 0
  · obtain ⟨g', e', h'⟩ := fillRow_eq (mask := mask) (nlon := nlon) hi iv g
    simp only [Option.bind_eq_bind] at e'
    refine ⟨g', sg, by rw [if_pos hS, e']; rfl, fun a c ha => by rw [h', if_neg (by tauto)], ?_, ?_, ?_, ?_⟩
    · intro c hc; rw [h', if_neg (by tauto)]
    · intro _ c hc hm; rw [h', if_pos ⟨rfl, hc, hm⟩]
    · rintro ⟨c, h1, h2, h3⟩
      have := c10 c h1 h2 (by simpa using h3); omega
    · rintro ⟨c, h1, h2, h3⟩
      have := c10 c h1 h2 (by simpa using h3); omega
  · have hnS : ¬ (∀ c, c < nlon → mask i c ≠ 0 → mask i (longitudeIndices c nlon cyclic).1 ≠ 0) := by
      intro h
      have := c4 0 (by omega)
      exact this.2.2.1 (h _ this.1 this.2.1)
    have hne : ¬ sg.nS = 0 := hS
    rw [if_neg hne]
    by_cases hE : sg.nS = sg.nE
    · have hpq' : p = q := by
        have h : p.toNat = q.toNat := by omega
        cases p <;> cases q <;> simp_all
      rw [if_pos hE]
      have hs0 := (c4 0 (by omega)).1
      have he0 := (c5 0 (by omega)).1
      have hb0 : ∀ k, k < sg.nS → k < nlon := by omega
      simp only [rd0_ok (show 0 < nlon by omega), Option.bind_some]
      cases hpc : p
      · -- every gap inside the row
        subst hpc
        have hvs : ∀ k, vs false sg k = sg.s k := fun _ => rfl
        have hqf : q = false := hpq'.symm
        subst hqf
        have hlt : ∀ k, k < sg.nS → sg.s k < sg.e k := by
          intro k hk
          have h1 := (c5 k (by omega)).2.2.2
          have h2 := (c4 k hk).2.1
          have h3 := (c5 k (by omega)).2.1
          rw [hvs] at h1
          rcases Nat.lt_or_ge (sg.s k) (sg.e k) with h | h
          · exact h
          · have : sg.s k = sg.e k := by omega
            rw [this] at h2; exact absurd h2 h3
        rw [if_pos (hlt 0 (by omega))]
        obtain ⟨g', e', hA, hB⟩ := fillRuns_eq (nlon := nlon) (N := sg.nS) hi sg.s sg.e sg.sVal sg.eVal g
          (fun j grid => do
            let s ← rd0 nlon sg.s j
            let e ← rd0 nlon sg.e j
            let sv ← rd0 nlon sg.sVal j
            let ev ← rd0 nlon sg.eVal j
            let r ← fillRun nlat nlon i s e sv ev (e - s) (grid, 0)
            return r.1)
          (by
            intro k g hk
            simp only [rd0_ok (hb0 k hk), Option.bind_eq_bind, Option.bind_some]
            cases fillRun nlat nlon i (sg.s k) (sg.e k) (sg.sVal k) (sg.eVal k) (sg.e k - sg.s k) (g, 0) <;> rfl)
          (by
            intro k hk
            have := (c5 k (by omega)).1
            exact ⟨(hlt k hk).le, by omega⟩)
          (by
            intro k hk
            have := c8 k (by simpa [← hE] using hk)
            rwa [hvs] at this)
        simp only [Option.bind_eq_bind] at e'
        refine ⟨g', sg, by rw [e']; rfl, fun a c ha => hB a c (by tauto), ?_, fun h => absurd h hnS, ?_, fun _ h => absurd (hpq.mpr rfl) h⟩
        · intro c hc
          apply hB
          rintro ⟨-, k, hk, h1, h2⟩
          have := c6 k (by omega) c h1 h2
          have := (c5 k (by omega)).1
          exact hc ⟨by omega, by assumption⟩
        · intro _ _ c hc hm
          rcases c9 c hc hm with ⟨k, hk, h1, h2⟩ | ⟨h, -⟩
          · left
            rw [hvs] at h1
            have a4 := c4 k (by omega)
            have a5 := c5 k hk
            refine ⟨sg.s k, sg.e k, h1, h2, a5.1, c6 k hk, a4.2.2.1, a5.2.1, ?_⟩
            rw [hA k c (by omega) h1 h2, a4.2.2.2, a5.2.2.1]; rfl
          · exact absurd h (by simp)
      · -- a gap goes across the end of the row
        subst hpc
        have hqt : q = true := hpq'.symm
        subst hqt
        have hv0 : vs true sg 0 = 0 := rfl
        have hvs : ∀ k, vs true sg (k + 1) = sg.s k := fun _ => rfl
        have hes : sg.e 0 ≤ sg.s 0 := by
          have := c8 0 (by simp; omega)
          rwa [hvs] at this
        rw [if_neg (by omega)]
        obtain ⟨g1, e1, hA, hB⟩ := fillRuns_eq (nlon := nlon) (N := sg.nS - 1) hi sg.s (fun k => sg.e (k + 1)) sg.sVal (fun k => sg.eVal (k + 1)) g
          (fun j grid => do
            let s ← rd0 nlon sg.s j
            let e ← rd0 nlon sg.e (j + 1)
            let sv ← rd0 nlon sg.sVal j
            let ev ← rd0 nlon sg.eVal (j + 1)
            let r ← fillRun nlat nlon i s e sv ev (e - s) (grid, 0)
            return r.1)
          (by
            intro k g hk
            simp only [rd0_ok (hb0 k (by omega)), rd0_ok (hb0 (k + 1) (by omega)), Option.bind_eq_bind, Option.bind_some]
            cases fillRun nlat nlon i (sg.s k) (sg.e (k + 1)) (sg.sVal k) (sg.eVal (k + 1)) (sg.e (k + 1) - sg.s k) (g, 0) <;> rfl)
          (by
            intro k hk
            have := c5 (k + 1) (by omega)
            rw [hvs] at this
            exact ⟨this.2.2.2, by omega⟩)
          (by
            intro k hk
            have := c8 (k + 1) (by simp; omega)
            rwa [hvs] at this)
        obtain ⟨l, hl⟩ : ∃ l, sg.nS = l + 1 := ⟨sg.nS - 1, by omega⟩
        rw [show sg.nS - 1 = l by omega] at e1 hA hB ⊢
        have hsl := c4 l (by omega)
        obtain ⟨g2, e2, h2'⟩ := fillRun_eq (nlon := nlon) hi hsl.1.le le_rfl (sg.sVal l) (sg.eVal 0) (nlon - sg.s l + sg.e 0) g1 0
        obtain ⟨g3, e3, h3'⟩ := fillRun_eq (nlon := nlon) hi (Nat.zero_le (sg.e 0)) he0.le (sg.sVal l) (sg.eVal 0) (nlon - sg.s l + sg.e 0) g2
          (0 + (nlon - sg.s l))
        simp only [Option.bind_eq_bind] at e1
        have hsm : ∀ k, k ≤ l → sg.e 0 ≤ sg.s k := by
          intro k
          induction k with
          | zero => intro _; exact hes
          | succ k ih =>
            intro hk
            have a := ih (by omega)
            have b := (c5 (k + 1) (by omega)).2.2.2
            rw [hvs] at b
            have c := c8 (k + 1) (by simp; omega)
            rw [hvs] at c
            omega
        have hsl2 : ∀ k, k < l → sg.e (k + 1) ≤ sg.s l := by
          intro k hk
          obtain ⟨d, rfl⟩ : ∃ d, l = k + 1 + d := ⟨l - k - 1, by omega⟩
          have hd : k + 1 + d < sg.nS := by omega
          clear hsl e2 h2' e3 h3' hk hsm hA hB e1 hl
          have : ∀ d, k + 1 + d < sg.nS → sg.e (k + 1) ≤ sg.s (k + 1 + d) := by
            intro d
            induction d with
            | zero =>
              intro h
              have c := c8 (k + 1) (by simp; omega)
              rwa [hvs] at c
            | succ d ih =>
              intro h
              have a := ih (by omega)
              have b := (c5 (k + 1 + d + 1) (by omega)).2.2.2
              rw [hvs] at b
              have c := c8 (k + 1 + d + 1) (by simp; omega)
              rw [hvs] at c
              rw [show k + 1 + (d + 1) = k + 1 + d + 1 by omega]
              omega
          exact this d hd
        have c7' := c7 rfl
        rw [← hE, hl, hvs] at c7'
        refine ⟨g3, sg, ?_, ?_, ?_, fun h => absurd h hnS, ?_, fun _ h => absurd (hpq.mpr rfl) h⟩
        · rw [e1]
          simp only [Option.bind_some, rd0_ok (hb0 l (by omega)), e2, e3]; rfl
        · intro a c ha
          rw [h3', if_neg (by tauto), h2', if_neg (by tauto), hB a c (by tauto)]
        · intro c hc
          rw [h3', if_neg, h2', if_neg, hB]
          · rintro ⟨-, k, hk, h1, h2⟩
            have := c6 (k + 1) (by omega) c (by rw [hvs]; exact h1) h2
            have := (c5 (k + 1) (by omega)).1
            exact hc ⟨by omega, by assumption⟩
          · rintro ⟨-, h1, h2⟩
            exact hc ⟨h2, c7'.2 c h1 h2⟩
          · rintro ⟨-, h1, h2⟩
            exact hc ⟨by omega, c6 0 (by omega) c (by rw [hv0]; omega) h2⟩
        · intro _ _ c hc hm
          have a5 := c5 0 (by omega)
          rcases c9 c hc hm with ⟨k, hk, h1, h2⟩ | ⟨-, h⟩
          · cases k with
            | zero =>
              right
              refine ⟨sg.s l, sg.e 0, hsm l le_rfl, hsl.1, c7'.2, fun c' h => c6 0 hk c' (by rw [hv0]; omega) h, hsl.2.2.1, a5.2.1, Or.inr ⟨h2, ?_⟩⟩
              rw [h3', if_pos ⟨rfl, by omega, h2⟩, hsl.2.2.2, a5.2.2.1]
              unfold Ramp
              rw [Nat.zero_add, Nat.sub_zero]
            | succ k =>
              left
              rw [hvs] at h1
              have hkl : k < l := by omega
              have a4 := c4 k (by omega)
              have a5' := c5 (k + 1) hk
              refine ⟨sg.s k, sg.e (k + 1), h1, h2, a5'.1, fun c' h h' => c6 (k + 1) hk c' (by rw [hvs]; exact h) h', a4.2.2.1, a5'.2.1, ?_⟩
              rw [h3', if_neg (by have := hsm k (by omega); omega), h2', if_neg (by have := hsl2 k hkl; omega), hA k c hkl h1 h2, a4.2.2.2, a5'.2.2.1]
              rfl
          · right
            rw [← hE, hl, hvs] at h
            refine ⟨sg.s l, sg.e 0, hsm l le_rfl, hsl.1, c7'.2, fun c' h => c6 0 (by omega) c' (by rw [hv0]; omega) h, hsl.2.2.1, a5.2.1, Or.inl ⟨h, ?_⟩⟩
            rw [h3', if_neg (by have := hsm l le_rfl; omega), h2', if_pos ⟨rfl, h, hc⟩, hsl.2.2.2, a5.2.2.1]
            unfold Ramp
            rw [Nat.zero_add]
    · rw [if_neg hE]
      refine ⟨g, sg, rfl, fun _ _ _ => rfl, fun _ _ => rfl, fun h => absurd h hnS, fun _ h => ?_, fun _ _ _ => rfl⟩
      have := hpq.mp h
      subst this
      omega

theorem initZonalLinear_eq (h2 : 3 ≤ nlon) (iv : K) (g : ℕ → ℕ → K) : ∃ g',
    initZonalLinear nlat nlon cyclic iv mask g = some g' ∧ (∀ a c, nlat ≤ a → g' a c = g a c) ∧
      ∀ a, a < nlat → RowInit nlon cyclic iv (mask a) (g a) (g' a) := by
  obtain ⟨⟨g', sg⟩, e, hA, hB⟩ := forM_inv (lo := 0) (hi := nlat) (Nat.zero_le _)
    (s := (g, (⟨fun _ => 0, fun _ => 0, 0, fun _ => 0, fun _ => 0, 0⟩ : Segs K)))
    (f := fun i st => linearRow nlat nlon cyclic iv mask i st)
    (fun i st => (∀ a c, i ≤ a → st.1 a c = g a c) ∧ ∀ a, a < i → RowInit nlon cyclic iv (mask a) (g a) (st.1 a))
    ⟨fun _ _ _ => rfl, by intros; omega⟩
    (by
      rintro i ⟨s, sg⟩ _ hi ⟨hA, hB⟩
      obtain ⟨g', sg', e, h1, h3⟩ := linearRow_eq (mask := mask) (cyclic := cyclic) h2 hi iv s sg
      refine ⟨(g', sg'), e, fun a c ha => ?_, fun a ha => ?_⟩
      · simp only at hA ⊢
        rw [h1 a c (by omega), hA a c (by omega)]
      · by_cases hai : a = i
        · subst hai
          have : s a = g a := funext fun c => hA a c le_rfl
          rw [this] at h3; exact h3
        · have : g' a = s a := funext fun c => h1 a c hai
          simp only
          rw [this]; exact hB a (by omega))
  refine ⟨g', ?_, hA, hB⟩
  have : initZonalLinear nlat nlon cyclic iv mask g =
      (forM 0 nlat (g, (⟨fun _ => 0, fun _ => 0, 0, fun _ => 0, fun _ => 0, 0⟩ : Segs K))
        fun i st => linearRow nlat nlon cyclic iv mask i st).map (·.1) := by
    unfold initZonalLinear linearRow
    simp only [Option.bind_eq_bind, Option.pure_def]
    cases h : forM 0 nlat (g, (⟨fun _ => 0, fun _ => 0, 0, fun _ => 0, fun _ => 0, 0⟩ : Segs K)) _ <;> rfl
  rw [this, e]; rfl

end Skyborn.Gridfill
