import Verif.Trop.Model
import Verif.Trop.Spec

namespace Skyborn.Trop

open Spec

theorem const_eq : const = gR := rfl

theorem Spec.Sounding.lt {n : ℕ} {p t : ℕ → ℝ} (h : Sounding n p t) {a b : ℕ} (hab : a < b) (hb : b < n) : p a < p b := by
  induction b, hab using Nat.le_induction with
  | base => exact h.asc a hb
  | succ b hab ih => exact (ih (by omega)).trans (h.asc b hb)

theorem Spec.Sounding.mid_lt {n : ℕ} {p t : ℕ → ℝ} (h : Sounding n p t) {a b : ℕ} (hab : a < b) (hb : b + 1 < n) :
    mid p a < mid p b := by
  have h1 := h.lt hab (by omega)
  have h2 := h.lt (show a + 1 < b + 1 by omega) hb
  unfold mid; linarith

theorem Spec.Sounding.mid_pos {n : ℕ} {p t : ℕ → ℝ} (h : Sounding n p t) {a : ℕ} (ha : a + 1 < n) : 0 < mid p a := by
  have h1 := h.ppos a (by omega)
  have h2 := h.ppos (a + 1) ha
  unfold mid; linarith

theorem cross_pos {n : ℕ} {p t : ℕ → ℝ} (h : Sounding n p t) (c : ℝ) {k : ℕ} (hk : k + 2 < n) : 0 < cross p t c k := by
  unfold cross
  split
  · exact h.mid_pos (by omega)
  · exact Real.exp_pos _

/-! #### `lapseLoop` -/

/-- What the work arrays hold after the first loop. -/
def Filled (n : ℕ) (p t : ℕ → ℝ) (w : Work) : Prop :=
  ∀ k, k + 1 < n → w.lapse (k + 1) = gamma p t k ∧ w.phalf (k + 1) = mid p k

theorem lapseLoop_spec (n : ℕ) (P T : ℕ → ℝ) (w : Work) : ∃ w', lapseLoop n (n + 1) P T w = some w' ∧
    Filled n (fun k => P (k + 1)) (fun k => T (k + 1)) w' := by
  rcases Nat.eq_zero_or_pos n with rfl | hn
  · exact ⟨w, by simp [lapseLoop, doLoopM], fun k hk => by omega⟩
  have key := doLoopM_inv (lo := 1) (hi := n - 1) (by omega) (s := w)
    (f := fun i w => do
      let t0 ← rd n T i
      let t1 ← rd n T (i + 1)
      let p0 ← rd n P i
      let p1 ← rd n P (i + 1)
      let lapse ← wr (n + 1) w.lapse i (const * ((Real.log t0 - Real.log t1) / (Real.log p0 - Real.log p1)))
      let phalf ← wr (n + 1) w.phalf i ((p0 + p1) * 0.5)
      some { w with lapse := lapse, phalf := phalf })
    (P := fun i w' => ∀ k, k + 1 < i → w'.lapse (k + 1) = gamma (fun k => P (k + 1)) (fun k => T (k + 1)) k ∧
      w'.phalf (k + 1) = mid (fun k => P (k + 1)) k)
    (by intro k hk; omega)
    (by
      intro i w' h1 h2 ih
      beta_reduce
      rw [rd_ok (a := T) h1 (by omega), rd_ok (a := T) (i := i + 1) (by omega) (by omega), rd_ok (a := P) h1 (by omega),
        rd_ok (a := P) (i := i + 1) (by omega) (by omega)]
      simp only [Option.bind_eq_bind, Option.bind_some]
      rw [wr_ok h1 (by omega), Option.bind_some, wr_ok h1 (by omega), Option.bind_some]
      refine ⟨_, rfl, fun k hk => ?_⟩
      by_cases hki : k + 1 = i
      · subst hki
        simp only [Function.update_self]
        refine ⟨rfl, ?_⟩
        unfold mid; norm_num; ring
      · have := ih k (by omega)
        simp only [Function.update_of_ne (show k + 1 ≠ i from hki)]
        exact this)
  obtain ⟨w', e, h⟩ := key
  refine ⟨w', e, fun k hk => h k (by omega)⟩

/-! #### `avgLoop` -/

theorem avgLoop_spec {n : ℕ} {p t : ℕ → ℝ} (hs : Sounding n p t) {w : Work} (hw : Filled n p t w) (q : ℝ) :
    ∀ (l : ℕ), l + 1 ≤ n → ∀ (sum avg : ℝ) (kount : ℕ),
      avgLoop (n + 1) w q l sum avg kount =
        some (if (Finset.range l).filter (fun j => q ≤ mid p j) = ∅ then avg
          else (sum + ∑ j ∈ (Finset.range l).filter (fun j => q ≤ mid p j), gamma p t j) /
            ((kount + ((Finset.range l).filter (fun j => q ≤ mid p j)).card : ℕ) : ℝ)) := by
  intro l
  induction l with
  | zero => intro _ sum avg k; simp [avgLoop]
  | succ l ih =>
    intro hl sum avg kount
    obtain ⟨hg, hp⟩ := hw l (by omega)
    unfold avgLoop
    rw [rd_ok (by omega) (by omega), Option.bind_eq_bind, Option.bind_some, hp]
    by_cases hc : mid p l < q
    · rw [if_pos hc]
      have : (Finset.range (l + 1)).filter (fun j => q ≤ mid p j) = ∅ := by
        apply Finset.filter_eq_empty_iff.mpr
        intro j hj
        rw [Finset.mem_range] at hj
        rcases Nat.lt_or_ge j l with h | h
        · have := hs.mid_lt h (by omega)
          push Not; linarith
        · have : j = l := by omega
          subst this; push Not; exact hc
      rw [if_pos this]
    · rw [if_neg hc]
      have hins : (Finset.range (l + 1)).filter (fun j => q ≤ mid p j) =
          insert l ((Finset.range l).filter (fun j => q ≤ mid p j)) := by
        rw [Finset.range_add_one, Finset.filter_insert, if_pos (not_lt.mp hc)]
      have hnm : l ∉ (Finset.range l).filter (fun j => q ≤ mid p j) := by simp
      rw [rd_ok (by omega) (by omega), Option.bind_some, hg, ih (by omega), hins,
        if_neg (Finset.insert_ne_empty _ _), Finset.sum_insert hnm, Finset.card_insert_of_notMem hnm]
      congr 1
      split
      · next h0 => rw [h0]; simp
      · congr 1
        · ring
        · push_cast; ring

/-! #### `findLoop` -/

theorem crossing_spec {n : ℕ} {p t : ℕ → ℝ} {w : Work} (hw : Filled n p t w) (c : ℝ) {k : ℕ} (hk : k + 3 ≤ n) :
    crossing (n + 1) w c (k + 1) = some (cross p t c k) := by
  obtain ⟨g0, m0⟩ := hw k (by omega)
  obtain ⟨g1, m1⟩ := hw (k + 1) (by omega)
  unfold crossing cross
  rw [rd_ok (by omega) (by omega), rd_ok (by omega) (by omega), rd_ok (by omega) (by omega), rd_ok (by omega) (by omega)]
  simp only [Option.bind_eq_bind, Option.bind_some, g0, m0, g1, m1]
  by_cases h : gamma p t k = gamma p t (k + 1)
  · simp [h]
  · rw [if_pos h, if_neg h]

theorem above_eq {n : ℕ} {p t : ℕ → ℝ} (h : Sounding n p t) (c : ℝ) {k : ℕ} (hk : k + 2 < n) :
    Real.exp (Real.log (cross p t c k) - 2 * const / t k) = above p t c k := by
  rw [sub_eq_add_neg, Real.exp_add, Real.exp_log (cross_pos h c hk)]; rfl

open Classical in
theorem findLoop_spec {n : ℕ} {P T : ℕ → ℝ} (hs : Sounding n (fun k => P (k + 1)) (fun k => T (k + 1))) {w : Work}
    (hw : Filled n (fun k => P (k + 1)) (fun k => T (k + 1)) w) (tmsg : ℝ) {c : ℝ} (hc : c ≤ 10 ^ 9) :
    ∀ (i : ℕ), i + 2 ≤ n ∨ i = 0 → ∀ s : Find, (s.found = false → s.ptrop = tmsg ∧ s.itrop = -999) →
      ∃ s', findLoop n (n + 1) P T w tmsg c i s = some s' ∧
        (s.found = true → s' = s) ∧
        (s.found = false →
          (∃ k, k < i ∧ Qualifies n (fun k => P (k + 1)) (fun k => T (k + 1)) c k ∧
            (∀ j, k < j → j < i → ¬ Qualifies n (fun k => P (k + 1)) (fun k => T (k + 1)) c j) ∧
            s' = ⟨max (cross (fun k => P (k + 1)) (fun k => T (k + 1)) c k) 85, ((k + 1 : ℕ) : ℤ), true⟩) ∨
          ((∀ j, j < i → ¬ Qualifies n (fun k => P (k + 1)) (fun k => T (k + 1)) c j) ∧ s' = ⟨tmsg, -999, false⟩)) := by
  intro i
  induction i with
  | zero =>
    intro _ s h0
    refine ⟨s, rfl, fun _ => rfl, fun hf => Or.inr ⟨fun j hj => absurd hj (by omega), ?_⟩⟩
    obtain ⟨a, b⟩ := h0 hf
    cases s; simp_all
  | succ i ih =>
    intro hi s h0
    have hi : i + 3 ≤ n := by omega
    obtain ⟨hg, hm⟩ := hw i (by omega)
    unfold findLoop
    rw [rd_ok (by omega) (by omega), rd_ok (a := P) (by omega) (by omega)]
    simp only [Option.bind_eq_bind, Option.bind_some, hg]
    by_cases h1 : gamma (fun k => P (k + 1)) (fun k => T (k + 1)) i < c ∧ P (i + 1) < 450
    · rw [if_pos h1]
      cases hf : s.found with
      | true =>
        simp only [if_true, Option.bind_some]
        obtain ⟨s', e, a, b⟩ := ih (by omega) s h0
        exact ⟨s', e, fun _ => a hf, fun h => by simp at h⟩
      | false =>
        rw [if_neg (by simp)]
        rw [crossing_spec hw c hi]
        rw [rd_ok (a := T) (by omega) (by omega)]
        simp only [Option.bind_some]
        have hab := above_eq hs c (k := i) (by omega)
        beta_reduce at hab
        rw [hab, avgLoop_spec hs hw _ (i + 1) (by omega)]
        simp only [Option.bind_some]
        have hq : Qualifies n (fun k => P (k + 1)) (fun k => T (k + 1)) c i ↔
            ¬ (if (Finset.range (i + 1)).filter (fun j => above (fun k => P (k + 1)) (fun k => T (k + 1)) c i ≤ mid (fun k => P (k + 1)) j) = ∅
              then (10 : ℝ) ^ 9
              else (0 + ∑ j ∈ (Finset.range (i + 1)).filter (fun j => above (fun k => P (k + 1)) (fun k => T (k + 1)) c i ≤
                mid (fun k => P (k + 1)) j), gamma (fun k => P (k + 1)) (fun k => T (k + 1)) j) /
                ((0 + ((Finset.range (i + 1)).filter (fun j => above (fun k => P (k + 1)) (fun k => T (k + 1)) c i ≤
                  mid (fun k => P (k + 1)) j)).card : ℕ) : ℝ)) ≥ c := by
          unfold Qualifies
          rw [show within (fun k => P (k + 1)) (fun k => T (k + 1)) c i = (Finset.range (i + 1)).filter (fun j =>
            above (fun k => P (k + 1)) (fun k => T (k + 1)) c i ≤ mid (fun k => P (k + 1)) j) from rfl]
          generalize hS : (Finset.range (i + 1)).filter (fun j =>
            above (fun k => P (k + 1)) (fun k => T (k + 1)) c i ≤ mid (fun k => P (k + 1)) j) = S
          rcases Finset.eq_empty_or_nonempty S with h | h
          · subst h
            simp only [if_true, Finset.not_nonempty_empty, false_and, and_false, false_iff, not_not]
            exact hc
          · rw [if_neg h.ne_empty, zero_add, zero_add, not_le]
            exact ⟨fun h' => h'.2.2.2.2, fun h' => ⟨hi, h1.1, h1.2, h, h'⟩⟩
        by_cases hlt : Qualifies n (fun k => P (k + 1)) (fun k => T (k + 1)) c i
        · rw [if_pos (not_le.mp (hq.mp hlt))]
          simp only [Option.bind_some]
          obtain ⟨s', e, a, b⟩ := ih (by omega) ⟨max (cross (fun k => P (k + 1)) (fun k => T (k + 1)) c i) 85, ((i + 1 : ℕ) : ℤ), true⟩
            (by simp)
          refine ⟨s', e, by simp, fun _ => Or.inl ⟨i, by omega, hlt, fun j h1 h2 => absurd h2 (by omega), a rfl⟩⟩
        · rw [if_neg (fun h => hlt (hq.mpr (not_le.mpr h)))]
          simp only [Option.bind_some]
          obtain ⟨s', e, a, b⟩ := ih (by omega) ⟨tmsg, s.itrop, false⟩ (by simp [(h0 hf).2])
          refine ⟨s', e, by simp, fun _ => ?_⟩
          rcases b rfl with ⟨k, hk, q1, q2, q3⟩ | ⟨q1, q2⟩
          · refine Or.inl ⟨k, by omega, q1, fun j h1 h2 => ?_, q3⟩
            rcases Nat.lt_or_ge j i with h | h
            · exact q2 j h1 h
            · have : j = i := by omega
              subst this; exact hlt
          · refine Or.inr ⟨fun j h2 => ?_, q2⟩
            rcases Nat.lt_or_ge j i with h | h
            · exact q1 j h
            · have : j = i := by omega
              subst this; exact hlt
    · rw [if_neg h1]
      simp only [Option.bind_some]
      have hlt : ¬ Qualifies n (fun k => P (k + 1)) (fun k => T (k + 1)) c i := fun h => h1 ⟨h.2.1, h.2.2.1⟩
      obtain ⟨s', e, a, b⟩ := ih (by omega) s h0
      refine ⟨s', e, a, fun hf => ?_⟩
      rcases b hf with ⟨k, hk, q1, q2, q3⟩ | ⟨q1, q2⟩
      · refine Or.inl ⟨k, by omega, q1, fun j h1 h2 => ?_, q3⟩
        rcases Nat.lt_or_ge j i with h | h
        · exact q2 j h1 h
        · have : j = i := by omega
          subst this; exact hlt
      · refine Or.inr ⟨fun j h2 => ?_, q2⟩
        rcases Nat.lt_or_ge j i with h | h
        · exact q1 j h
        · have : j = i := by omega
          subst this; exact hlt

theorem dstattrop_spec {n : ℕ} {P T : ℕ → ℝ} (hs : Sounding n (fun k => P (k + 1)) (fun k => T (k + 1))) (tmsg : ℝ) {c : ℝ}
    (hc : c ≤ 10 ^ 9) (w : Work) :
    ∃ pt it w', dstattrop n (n + 1) P T tmsg c w = some (pt, it, w') ∧ Filled n (fun k => P (k + 1)) (fun k => T (k + 1)) w' ∧
      ((∃ k, IsTropopause n (fun k => P (k + 1)) (fun k => T (k + 1)) c k ∧
          pt = max (cross (fun k => P (k + 1)) (fun k => T (k + 1)) c k) 85 ∧ it = ((k + 1 : ℕ) : ℤ)) ∨
        ((∀ k, ¬ Qualifies n (fun k => P (k + 1)) (fun k => T (k + 1)) c k) ∧ pt = tmsg ∧ it = -999)) := by
  obtain ⟨w', e, hw⟩ := lapseLoop_spec n P T w
  obtain ⟨s', e', -, h⟩ := findLoop_spec hs hw tmsg hc (n - 2) (by omega) ⟨tmsg, -999, false⟩ (by simp)
  have hout : ∀ j, n - 2 ≤ j → ¬ Qualifies n (fun k => P (k + 1)) (fun k => T (k + 1)) c j := fun j hj hq => by
    have := hq.1; omega
  refine ⟨s'.ptrop, s'.itrop, w', by rw [dstattrop, e, Option.bind_eq_bind, Option.bind_some, e']; rfl, hw, ?_⟩
  rcases h rfl with ⟨k, hk, q1, q2, q3⟩ | ⟨q1, q2⟩
  · refine Or.inl ⟨k, ⟨q1, fun j hj => ?_⟩, by rw [q3], by rw [q3]⟩
    rcases Nat.lt_or_ge j (n - 2) with h | h
    · exact q2 j hj h
    · exact hout j h
  · refine Or.inr ⟨fun j => ?_, by rw [q2], by rw [q2]⟩
    rcases Nat.lt_or_ge j (n - 2) with h | h
    · exact q1 j h
    · exact hout j h

end Skyborn.Trop
