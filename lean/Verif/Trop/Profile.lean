import Verif.Trop.Lemmas
import Mathlib.Tactic.FieldSimp
import Mathlib.Tactic.NormNum

namespace Skyborn.Trop

open Spec

/-! #### Height -/

theorem dstdatmp_eq {p : ℝ} (hp : 85 ≤ p) : dstdatmp p = some (height p) := by
  unfold dstdatmp height
  by_cases h : 1013.25 < p
  · rw [if_neg (by intro h'; linarith [h'.2]), if_pos h]
  · rw [if_pos ⟨by linarith, by linarith⟩, if_neg h]
    by_cases h2 : 226.32064 ≤ p
    · rw [if_pos h2]
      have e : findLayer p 8 1 = some 1 := by
        unfold findLayer
        rw [rd_ok (by norm_num) (by norm_num)]
        simp only [Option.bind_eq_bind, Option.bind_some]
        rw [if_pos (by simpa [pb] using h2)]
      unfold stdp2z
      rw [e]
      simp only [Option.bind_eq_bind, Option.bind_some]
      rw [rd_ok (by norm_num) (by norm_num), rd_ok (by norm_num) (by norm_num), rd_ok (by norm_num) (by norm_num),
        rd_ok (by norm_num) (by norm_num)]
      simp only [Option.bind_some]
      rw [if_pos (by simp only [grad]; norm_num)]
      simp only [grad, abst, pb, hbase, stdR, stdG]
      congr 1
      rw [add_zero]
      congr 3 <;> norm_num
    · rw [if_neg h2]
      have e : findLayer p 8 1 = some 2 := by
        unfold findLayer
        rw [rd_ok (by norm_num) (by norm_num)]
        simp only [Option.bind_eq_bind, Option.bind_some]
        rw [if_neg (by simpa [pb] using h2)]
        unfold findLayer
        rw [rd_ok (by norm_num) (by norm_num)]
        simp only [Option.bind_eq_bind, Option.bind_some]
        rw [if_pos (by simp only [pb]; linarith)]
      unfold stdp2z
      rw [e]
      simp only [Option.bind_eq_bind, Option.bind_some]
      rw [rd_ok (by norm_num) (by norm_num), rd_ok (by norm_num) (by norm_num), rd_ok (by norm_num) (by norm_num),
        rd_ok (by norm_num) (by norm_num)]
      simp only [Option.bind_some]
      rw [if_neg (by simp only [grad]; norm_num)]
      simp only [abst, pb, hbase, stdR, stdG]
      congr 3
      norm_num

/-! #### Scans -/

theorem validBoth_spec (n : ℕ) (P T : ℕ → ℝ) (tmsg : ℝ) : ∃ b, validBoth n P T tmsg = some b ∧
    (b = true ↔ ∀ k, k < n → ¬ Marker tmsg (P (k + 1)) ∧ ¬ Marker tmsg (T (k + 1))) := by
  have key := doLoopM_inv (lo := 1) (hi := n) (by omega) (s := true)
    (f := fun k ok => if ok then do
      let a ← rd n P k
      let b ← rd n T k
      some (!(decide (|a - tmsg| < 1e-10) || decide (|b - tmsg| < 1e-10)))
    else some false)
    (P := fun i b => (b = true ↔ ∀ k, k + 1 < i → ¬ Marker tmsg (P (k + 1)) ∧ ¬ Marker tmsg (T (k + 1))))
    (by simp)
    (by
      intro i b h1 h2 ih
      beta_reduce
      cases b with
      | false =>
        refine ⟨false, rfl, by simp, fun h => ?_⟩
        exact ih.mpr fun k hk => h k (by omega)
      | true =>
        rw [if_pos rfl, rd_ok h1 h2, rd_ok h1 h2]
        refine ⟨_, rfl, ?_⟩
        have := ih.mp rfl
        constructor
        · intro h k hk
          rcases Nat.lt_or_ge (k + 1) i with h' | h'
          · exact this k h'
          · have : k + 1 = i := by omega
            rw [this]
            simpa [Marker] using h
        · intro h
          have := h (i - 1) (by omega)
          rw [show i - 1 + 1 = i by omega] at this
          simpa [Marker] using this)
  obtain ⟨b, e, h⟩ := key
  exact ⟨b, e, h.trans ⟨fun h k hk => h k (by omega), fun h k hk => h k (by omega)⟩⟩

theorem validPressure_spec (n : ℕ) (P : ℕ → ℝ) (tmsg : ℝ) : ∃ b, validPressure n P tmsg = some b ∧
    (b = true ↔ ∀ k, k < n → ¬ Marker tmsg (P (k + 1))) := by
  have key := doLoopM_inv (lo := 1) (hi := n) (by omega) (s := true)
    (f := fun k ok => if ok then do
      let a ← rd n P k
      some (!decide (|a - tmsg| < 1e-10))
    else some false)
    (P := fun i b => (b = true ↔ ∀ k, k + 1 < i → ¬ Marker tmsg (P (k + 1))))
    (by simp)
    (by
      intro i b h1 h2 ih
      beta_reduce
      cases b with
      | false =>
        refine ⟨false, rfl, by simp, fun h => ?_⟩
        exact ih.mpr fun k hk => h k (by omega)
      | true =>
        rw [if_pos rfl, rd_ok h1 h2]
        refine ⟨_, rfl, ?_⟩
        have := ih.mp rfl
        constructor
        · intro h k hk
          rcases Nat.lt_or_ge (k + 1) i with h' | h'
          · exact this k h'
          · have : k + 1 = i := by omega
            rw [this]
            simpa [Marker] using h
        · intro h
          have := h (i - 1) (by omega)
          rw [show i - 1 + 1 = i by omega] at this
          simpa [Marker] using this)
  obtain ⟨b, e, h⟩ := key
  exact ⟨b, e, h.trans ⟨fun h k hk => h k (by omega), fun h k hk => h k (by omega)⟩⟩

theorem copyColumn_spec (n : ℕ) (col : ℕ → ℝ) (tmsg : ℝ) (prof : ℕ → ℝ) : ∃ pr b, copyColumn n col tmsg prof = some (pr, b) ∧
    (b = true ↔ ∀ k, k < n → ¬ Marker tmsg (col (k + 1))) ∧ (b = true → ∀ k, k < n → pr (k + 1) = col (k + 1)) := by
  have key := doLoopM_inv (lo := 1) (hi := n) (by omega) (s := (prof, true))
    (f := fun k s => if s.2 then do
      let v ← rd n col k
      let prof ← wr n s.1 k v
      some (prof, !decide (|v - tmsg| < 1e-10))
    else some s)
    (P := fun i s => (s.2 = true ↔ ∀ k, k + 1 < i → ¬ Marker tmsg (col (k + 1))) ∧
      (s.2 = true → ∀ k, k + 1 < i → s.1 (k + 1) = col (k + 1)))
    (by simp)
    (by
      rintro i ⟨pr, b⟩ h1 h2 ⟨ih1, ih2⟩
      beta_reduce
      cases b with
      | false =>
        refine ⟨_, rfl, ⟨by simp, fun h => ?_⟩, by simp⟩
        exact ih1.mpr fun k hk => h k (by omega)
      | true =>
        rw [if_pos rfl, rd_ok h1 h2, Option.bind_eq_bind, Option.bind_some, wr_ok h1 h2, Option.bind_eq_bind, Option.bind_some]
        refine ⟨_, rfl, ?_, ?_⟩
        · have := ih1.mp rfl
          constructor
          · intro h k hk
            rcases Nat.lt_or_ge (k + 1) i with h' | h'
            · exact this k h'
            · have : k + 1 = i := by omega
              rw [this]
              simpa [Marker] using h
          · intro h
            have := h (i - 1) (by omega)
            rw [show i - 1 + 1 = i by omega] at this
            simpa [Marker] using this
        · intro _ k hk
          by_cases hki : k + 1 = i
          · simp only [hki, Function.update_self]
          · simp only [Function.update_of_ne (show k + 1 ≠ i from hki)]
            exact ih2 rfl k (by omega))
  obtain ⟨⟨pr, b⟩, e, h1, h2⟩ := key
  exact ⟨pr, b, e, h1.trans ⟨fun h k hk => h k (by omega), fun h k hk => h k (by omega)⟩, fun hb k hk => h2 hb k (by omega)⟩

/-! #### `STATTROPX` and what follows it -/

/-- Pressure in hPa of the value `v` given in the unit flagged by `punit`. -/
noncomputable def toHpa (punit : ℕ) (v : ℝ) : ℝ := if punit = 0 then v else v * 0.01

/-- The kernels depend on their arrays only through the elements 1..n. -/
theorem doLoopM_congr' {σ : Type*} {lo hi : ℕ} {s : σ} {f g : ℕ → σ → Option σ} (h : ∀ i, lo ≤ i → i ≤ hi → ∀ s, f i s = g i s) :
    doLoopM lo hi s f = doLoopM lo hi s g := by
  unfold doLoopM
  have : ∀ (l : List ℕ) (s : σ), (∀ i ∈ l, lo ≤ i ∧ i ≤ hi) →
      l.foldlM (fun s i => f i s) s = l.foldlM (fun s i => g i s) s := by
    intro l
    induction l with
    | nil => intros; rfl
    | cons a l ih =>
      intro s hl
      rw [List.foldlM_cons, List.foldlM_cons, h a (hl a (by simp)).1 (hl a (by simp)).2]
      congr 1; funext s'
      exact ih s' fun i hi => hl i (by simp [hi])
  apply this
  intro i hi'
  have := List.mem_range'_1.mp hi'
  omega

theorem pmb_spec (n : ℕ) (P : ℕ → ℝ) (punit : ℕ) (a : ℕ → ℝ) : ∃ b : ℕ → ℝ,
    (doLoopM 1 n a fun m a => do
      let v ← rd n P m
      wr n a m (if punit = 0 then v else v * 0.01)) = some b ∧ ∀ k, k < n → b (k + 1) = toHpa punit (P (k + 1)) := by
  have key := doLoopM_inv (lo := 1) (hi := n) (by omega) (s := a)
    (f := fun m a => do
      let v ← rd n P m
      wr n a m (if punit = 0 then v else v * 0.01))
    (P := fun i b => ∀ k, k + 1 < i → b (k + 1) = toHpa punit (P (k + 1)))
    (by intro k hk; omega)
    (by
      intro i b h1 h2 ih
      beta_reduce
      rw [rd_ok h1 h2, Option.bind_eq_bind, Option.bind_some, wr_ok h1 h2]
      refine ⟨_, rfl, fun k hk => ?_⟩
      by_cases hki : k + 1 = i
      · subst hki; simp only [Function.update_self]; rfl
      · simp only [Function.update_of_ne (show k + 1 ≠ i from hki)]
        exact ih k (by omega))
  obtain ⟨b, e, h⟩ := key
  exact ⟨b, e, fun k hk => h k (by omega)⟩

theorem Spec.Sounding.congr {n : ℕ} {p t p' t' : ℕ → ℝ} (h : Sounding n p t) (hp : ∀ k, k < n → p' k = p k) (ht : ∀ k, k < n → t' k = t k) :
    Sounding n p' t' :=
  ⟨fun k hk => by rw [hp k hk]; exact h.ppos k hk, fun k hk => by rw [ht k hk]; exact h.tpos k hk,
    fun k hk => by rw [hp k (by omega), hp _ hk]; exact h.asc k hk⟩

theorem gamma_congr {n : ℕ} {p t p' t' : ℕ → ℝ} (hp : ∀ k, k < n → p' k = p k) (ht : ∀ k, k < n → t' k = t k) {k : ℕ} (hk : k + 1 < n) :
    gamma p' t' k = gamma p t k := by
  unfold gamma; rw [hp k (by omega), hp _ hk, ht k (by omega), ht _ hk]

theorem mid_congr {n : ℕ} {p p' : ℕ → ℝ} (hp : ∀ k, k < n → p' k = p k) {k : ℕ} (hk : k + 1 < n) : mid p' k = mid p k := by
  unfold mid; rw [hp k (by omega), hp _ hk]

theorem cross_congr {n : ℕ} {p t p' t' : ℕ → ℝ} (hp : ∀ k, k < n → p' k = p k) (ht : ∀ k, k < n → t' k = t k) (c : ℝ) {k : ℕ}
    (hk : k + 2 < n) : cross p' t' c k = cross p t c k := by
  unfold cross
  rw [gamma_congr hp ht (k := k) (by omega), gamma_congr hp ht (k := k + 1) hk, mid_congr hp (k := k) (by omega),
    mid_congr hp (k := k + 1) hk]

theorem within_congr {n : ℕ} {p t p' t' : ℕ → ℝ} (hp : ∀ k, k < n → p' k = p k) (ht : ∀ k, k < n → t' k = t k) (c : ℝ) {k : ℕ}
    (hk : k + 2 < n) : within p' t' c k = within p t c k := by
  unfold within above
  apply Finset.filter_congr
  intro l hl
  rw [Finset.mem_range] at hl
  rw [cross_congr hp ht c hk, mid_congr hp (k := l) (by omega), ht k (by omega)]

theorem qualifies_congr {n : ℕ} {p t p' t' : ℕ → ℝ} (hp : ∀ k, k < n → p' k = p k) (ht : ∀ k, k < n → t' k = t k) (c : ℝ) (k : ℕ) :
    Qualifies n p' t' c k ↔ Qualifies n p t c k := by
  unfold Qualifies
  by_cases hk : k + 3 ≤ n
  · rw [gamma_congr hp ht (k := k) (by omega), within_congr hp ht c (by omega), hp k (by omega)]
    have : ∑ l ∈ within p t c k, gamma p' t' l = ∑ l ∈ within p t c k, gamma p t l := by
      apply Finset.sum_congr rfl
      intro l hl
      have := Finset.mem_range.mp (Finset.mem_filter.mp hl).1
      exact gamma_congr hp ht (by omega)
    rw [this]
  · constructor <;> intro h <;> exact absurd h.1 hk

theorem isTropopause_congr {n : ℕ} {p t p' t' : ℕ → ℝ} (hp : ∀ k, k < n → p' k = p k) (ht : ∀ k, k < n → t' k = t k) (c : ℝ) (k : ℕ) :
    IsTropopause n p' t' c k ↔ IsTropopause n p t c k := by
  unfold IsTropopause
  rw [qualifies_congr hp ht]
  constructor
  · rintro ⟨a, b⟩; exact ⟨a, fun j hj => by rw [← qualifies_congr hp ht]; exact b j hj⟩
  · rintro ⟨a, b⟩; exact ⟨a, fun j hj => by rw [qualifies_congr hp ht]; exact b j hj⟩

theorem stattropx_spec {n : ℕ} {P T : ℕ → ℝ} {punit : ℕ} {p t : ℕ → ℝ} (hp : ∀ k, k < n → p k = toHpa punit (P (k + 1)))
    (ht : ∀ k, k < n → t k = T (k + 1)) (hs : Sounding n p t) (tmsg : ℝ) {c : ℝ} (hc : c ≤ 10 ^ 9) (w : Work) :
    ∃ pt it w', stattropx n (n + 1) P T tmsg c punit w = some (if punit ≠ 0 then pt * 100 else pt, it - 1, w') ∧
      (∀ k, k + 1 < n → w'.lapse (k + 1) = gamma p t k) ∧
      ((∃ k, IsTropopause n p t c k ∧ pt = max (cross p t c k) 85 ∧ it = ((k + 1 : ℕ) : ℤ)) ∨
        ((∀ k, ¬ Qualifies n p t c k) ∧ pt = tmsg ∧ it = -999)) := by
  obtain ⟨b, e, hb⟩ := pmb_spec n P punit w.pmb
  have hb' : ∀ k, k < n → (fun k => b (k + 1)) k = p k := fun k hk => by rw [hp k hk, ← hb k hk]
  have ht' : ∀ k, k < n → (fun k => T (k + 1)) k = t k := fun k hk => (ht k hk).symm
  obtain ⟨pt, it, w', e', hf, h⟩ := dstattrop_spec (P := b) (T := T) (hs.congr hb' ht') tmsg hc { w with pmb := b }
  refine ⟨pt, it, w', by rw [stattropx, e, Option.bind_eq_bind, Option.bind_some, e']; rfl, fun k hk => ?_, ?_⟩
  · rw [(hf k hk).1, gamma_congr hb' ht' hk]
  · rcases h with ⟨k, h1, h2, h3⟩ | ⟨h1, h2, h3⟩
    · refine Or.inl ⟨k, (isTropopause_congr hb' ht' c k).mp h1, ?_, h3⟩
      rw [h2, cross_congr hb' ht' c (by have := h1.1.1; omega)]
    · exact Or.inr ⟨fun k hk => h1 k ((qualifies_congr hb' ht' c k).mpr hk), h2, h3⟩

/-- The outputs for a column whose tropopause is layer `k`. -/
noncomputable def foundCell (p t : ℕ → ℝ) (c tmsg : ℝ) (k : ℕ) : Cell :=
  ⟨max (cross p t c k) 85, height (max (cross p t c k) 85), k, if k = 0 then tmsg else gamma p t k, 1⟩

/-- The outputs for a complete column without tropopause. -/
noncomputable def notFoundCell (punit : ℕ) (tmsg : ℝ) : Cell :=
  if punit ≠ 0 ∧ |tmsg * 100 - tmsg| > 1e-10 then ⟨tmsg, -999, -1000, tmsg, 1⟩ else missingCell tmsg

/-- `STATTROPX` followed by the output statements. -/
theorem column_spec {n : ℕ} {P T : ℕ → ℝ} {punit : ℕ} {p t : ℕ → ℝ} (hp : ∀ k, k < n → p k = toHpa punit (P (k + 1)))
    (ht : ∀ k, k < n → t k = T (k + 1)) (hs : Sounding n p t) {tmsg : ℝ} (hm : tmsg ≤ 0) {c : ℝ} (hc : c ≤ 10 ^ 9) (w : Work) :
    ∃ r cell, stattropx n (n + 1) P T tmsg c punit w = some r ∧
      finish n (n + 1) tmsg punit r.1 r.2.1 r.2.2 (missingCell tmsg) = some cell ∧
      ((∃ k, IsTropopause n p t c k ∧ cell = foundCell p t c tmsg k) ∨
        ((∀ k, ¬ Qualifies n p t c k) ∧ cell = notFoundCell punit tmsg)) := by
  obtain ⟨pt, it, w', e, hw, h⟩ := stattropx_spec hp ht hs tmsg hc w
  refine ⟨(if punit ≠ 0 then pt * 100 else pt, it - 1, w'), ?_⟩
  rw [e]
  rcases h with ⟨k, h1, h2, h3⟩ | ⟨h1, h2, h3⟩
  · refine ⟨foundCell p t c tmsg k, rfl, ?_, Or.inl ⟨k, h1, rfl⟩⟩
    have h85 : (85 : ℝ) ≤ pt := by rw [h2]; exact le_max_right _ _
    unfold finish
    dsimp only
    have hne : |(if punit ≠ 0 then pt * 100 else pt) - tmsg| > 1e-10 := by
      split
      · rw [abs_of_pos (by linarith)]; linarith
      · rw [abs_of_pos (by linarith)]; linarith
    rw [if_pos hne]
    have hpt : (if punit = 0 then (if punit ≠ 0 then pt * 100 else pt) else (if punit ≠ 0 then pt * 100 else pt) * 0.01) = pt := by
      by_cases h0 : punit = 0
      · simp [h0]
      · rw [if_neg h0, if_pos h0]; ring
    rw [hpt, dstdatmp_eq h85]
    simp only [Option.bind_eq_bind, Option.bind_some, h3]
    have hk := h1.1.1
    unfold foundCell
    rw [← h2]
    by_cases hk0 : k = 0
    · subst hk0
      rw [if_neg (by omega)]
      simp [missingCell]
    · rw [if_pos (by push_cast; omega), show (((k + 1 : ℕ) : ℤ) - 1 + 1).toNat = k + 1 by omega, rd_ok (by omega) (by omega), hw k (by omega),
        if_neg hk0]
      simp
  · subst h2 h3
    refine ⟨notFoundCell punit pt, rfl, ?_, Or.inr ⟨h1, rfl⟩⟩
    unfold finish notFoundCell
    dsimp only
    by_cases h0 : punit = 0
    · simp only [h0]; norm_num
    · simp only [h0, ne_eq, not_false_eq_true, if_true, true_and]
      by_cases h' : |pt * 100 - pt| > 1e-10
      · rw [if_pos h', if_pos h']
        have : pt * 100 * 0.01 = pt := by ring
        rw [if_neg (fun h => h), this]
        unfold dstdatmp
        rw [if_neg (by rintro ⟨h, -⟩; linarith)]
        simp [missingCell]
      · rw [if_neg h', if_neg h']

theorem profile1d_spec {n : ℕ} {P T : ℕ → ℝ} {punit : ℕ} {p t : ℕ → ℝ} (hp : ∀ k, k < n → p k = toHpa punit (P (k + 1)))
    (ht : ∀ k, k < n → t k = T (k + 1)) (hs : Sounding n p t) {tmsg : ℝ} (hm : tmsg ≤ 0) {c : ℝ} (hc : c ≤ 10 ^ 9)
    (hv : ∀ k, k < n → ¬ Marker tmsg (P (k + 1)) ∧ ¬ Marker tmsg (T (k + 1))) (w : Work) :
    ∃ cell, profile1d n (n + 1) P T tmsg c punit w = some cell ∧
      ((∃ k, IsTropopause n p t c k ∧ cell = foundCell p t c tmsg k) ∨
        ((∀ k, ¬ Qualifies n p t c k) ∧ cell = notFoundCell punit tmsg)) := by
  obtain ⟨b, e, hb⟩ := validBoth_spec n P T tmsg
  obtain ⟨r, cell, e1, e2, h⟩ := column_spec hp ht hs hm hc w
  refine ⟨cell, ?_, h⟩
  rw [profile1d, e, Option.bind_eq_bind, Option.bind_some, hb.mpr hv, if_pos rfl, e1]
  exact e2

theorem profile1d_missing {n : ℕ} {P T : ℕ → ℝ} {punit : ℕ} {tmsg c : ℝ}
    (hv : ∃ k, k < n ∧ (Marker tmsg (P (k + 1)) ∨ Marker tmsg (T (k + 1)))) (w : Work) :
    profile1d n (n + 1) P T tmsg c punit w = some (missingCell tmsg) := by
  obtain ⟨b, e, hb⟩ := validBoth_spec n P T tmsg
  have : b = false := by
    rcases Bool.eq_false_or_eq_true b with h | h
    · obtain ⟨k, hk, h'⟩ := hv
      have := hb.mp h k hk
      tauto
    · exact h
  rw [profile1d, e, this]; rfl

end Skyborn.Trop
