import Verif.MK.PartialPy

namespace Skyborn.MK.Py

open Skyborn Skyborn.MK Finset Spec

/-! ### no division of a non-zero score by a zero variance -/

theorem untied_pos {n : ℕ} (hn : 3 ≤ n) : 0 < (n : ℝ) * ((n : ℝ) - 1) * (2 * (n : ℝ) + 5) / 18 := by
  have hn' : (3 : ℝ) ≤ (n : ℝ) := by exact_mod_cast hn
  apply div_pos _ (by norm_num)
  exact mul_pos (mul_pos (by linarith) (by linarith)) (by linarith)

/-- equality in Cauchy-Schwarz: the two sign patterns coincide up to the common sign -/
theorem covForm_eq_case {n : ℕ} {x y : ℕ → ℝ} {e : ℝ} (he : e * e = 1)
    (h : covForm n x x + covForm n y y - 2 * e * covForm n x y = 0) : score n x = e * score n y := by
  unfold covForm at h
  have hs : ∑ p ∈ pairs n, (sgn (x p.2 - x p.1) - e * sgn (y p.2 - y p.1)) ^ 2 +
      ∑ i ∈ Icc 1 n, (signSum n x i - e * signSum n y i) ^ 2 = 0 := by
    have e1 : ∀ a b : ℝ, (a - e * b) ^ 2 = a * a + b * b - 2 * e * (a * b) := by
      intro a b; linear_combination b * b * he
    simp only [e1, Finset.sum_sub_distrib, Finset.sum_add_distrib, ← Finset.mul_sum]
    linarith
  have h0 : ∑ p ∈ pairs n, (sgn (x p.2 - x p.1) - e * sgn (y p.2 - y p.1)) ^ 2 = 0 := by
    have a1 := Finset.sum_nonneg (s := pairs n) fun p _ => sq_nonneg (sgn (x p.2 - x p.1) - e * sgn (y p.2 - y p.1))
    have a2 := Finset.sum_nonneg (s := Icc 1 n) fun i _ => sq_nonneg (signSum n x i - e * signSum n y i)
    linarith
  rw [Finset.sum_eq_zero_iff_of_nonneg (fun p _ => sq_nonneg _)] at h0
  unfold score
  rw [Finset.mul_sum]
  refine Finset.sum_congr rfl fun p hp => ?_
  have := pow_eq_zero_iff (two_ne_zero) |>.mp (h0 p hp)
  linarith

theorem partial_zero_var {n : ℕ} (hn : 3 ≤ n) {x y : ℕ → ℝ} (h : (partialStats n x y).2.1 = 0) : (partialStats n x y).1 = 0 := by
  rw [C16_plain n hn] at h ⊢
  unfold partialClosed at h ⊢
  dsimp only at h ⊢
  have hpos := untied_pos hn
  set v : ℝ := (n : ℝ) * ((n : ℝ) - 1) * (2 * (n : ℝ) + 5) / 18 with hv
  rw [dietzKilleen_eq_covForm] at h ⊢
  set c := covForm n x y with hc
  have hr : (c / v) * (c / v) = 1 := by
    rcases mul_eq_zero.mp h with h | h
    · linarith
    · exact absurd h hpos.ne'
  have h1 := tieVariance_le n x
  have h2 := tieVariance_le n y
  have hcv : c = (c / v) * v := by field_simp
  rw [covForm_eq_case hr (n := n) (x := x) (y := y)]
  · ring
  · have hcc : 2 * (c / v) * c = 2 * v := by
      have : (c / v) * c = v := by
        calc (c / v) * c = (c / v) * ((c / v) * v) := by rw [← hcv]
          _ = ((c / v) * (c / v)) * v := by ring
          _ = v := by rw [hr, one_mul]
      linarith
    have hge : 0 ≤ covForm n x x + covForm n y y - 2 * (c / v) * c := by
      unfold covForm at hc ⊢
      have e1 : ∀ a b : ℝ, (a - (c / v) * b) ^ 2 = a * a + b * b - 2 * (c / v) * (a * b) := by
        intro a b; linear_combination b * b * hr
      have a1 := Finset.sum_nonneg (s := pairs n) fun p _ => sq_nonneg (sgn (x p.2 - x p.1) - (c / v) * sgn (y p.2 - y p.1))
      have a2 := Finset.sum_nonneg (s := Icc 1 n) fun i _ => sq_nonneg (signSum n x i - (c / v) * signSum n y i)
      simp only [e1, Finset.sum_sub_distrib, Finset.sum_add_distrib, ← Finset.mul_sum] at a1 a2
      have : 2 * (c / v) * c = (2 * (c / v) * ∑ p ∈ pairs n, sgn (x p.2 - x p.1) * sgn (y p.2 - y p.1) +
          2 * (c / v) * ∑ i ∈ Icc 1 n, signSum n x i * signSum n y i) / 3 := by
        nth_rewrite 2 [hc]; ring
      rw [this]
      linarith
    rw [covForm_self, covForm_self] at hge ⊢
    rw [hcc] at hge ⊢
    simp only [hv] at hge ⊢
    linarith

theorem partial_z_cases {n : ℕ} (hn : 3 ≤ n) (x y : ℕ → ℝ) :
    (divSqrt (partialStats n x y).1 (some (partialStats n x y).2.1) = .nan ∧ (partialStats n x y).2.1 = 0 ∧ (partialStats n x y).1 = 0) ∨
    (0 < (partialStats n x y).2.1 ∧ divSqrt (partialStats n x y).1 (some (partialStats n x y).2.1) =
      .fin ((partialStats n x y).1 / Real.sqrt (partialStats n x y).2.1)) := by
  have h0 := C50_partial_variance_nonneg n x y
  rcases h0.eq_or_lt with h | h
  · left
    have hs := partial_zero_var hn h.symm
    refine ⟨?_, h.symm, hs⟩
    rw [hs, ← h]; simp [divSqrt]
  · right
    refine ⟨h, ?_⟩
    simp [divSqrt, not_lt.mpr h0, h.ne']

theorem hypothesisFinite_eq {E : Env} {alpha : ℝ} {n : ℕ} (hn : 3 ≤ n) (x y : ℕ → ℝ) :
    hypothesis E alpha (divSqrt (partialStats n x y).1 (some (partialStats n x y).2.1)) =
      hypothesisFinite E alpha (divSqrt (partialStats n x y).1 (some (partialStats n x y).2.1)) := by
  rcases partial_z_cases hn x y with h | h
  · rw [h.1]; rfl
  · rw [h.2]; rfl

/-! ### the 1-D test in closed form -/

/-- statistics of a list of jointly finite samples -/
noncomputable def statsOf (j : List (ℝ × ℝ)) : ℝ × ℝ × ℝ :=
  partialStats j.length (buf (elems (j.map Prod.fst))) (buf (elems (j.map Prod.snd)))

noncomputable def resOf (E : Env) (alpha : ℝ) (total : ℕ) (j : List (ℝ × ℝ)) (tr : Option ℝ × Option ℝ × Option ℝ) : PRes :=
  let z := divSqrt (statsOf j).1 (some (statsOf j).2.1)
  { trend := tr.1, h := hypothesisFinite E alpha z, p := pValue E z, z := z, tau := some (statsOf j).2.2, s := some (statsOf j).1
    varS := some (statsOf j).2.1, intercept := tr.2.1, stdError := tr.2.2, n := j.length, nDropped := total - j.length }

theorem partialStatisticsBatch_ok {n m : ℕ} (hn : 3 ≤ n) (x y : ℕ → ℕ → ℝ) :
    ∃ out, partialStatisticsBatch n m x y = some out ∧ ∀ j, j < m → out j = partialStats n (buf (x j)) (buf (y j)) := by
  unfold partialStatisticsBatch
  rw [if_neg (by omega)]
  exact columns_ok (m := m) _ (g := fun j => partialStats n (buf (x j)) (buf (y j))) fun j _ => rfl

theorem partialTest_eq (E : Env) (alpha : ℝ) (method : Method) {resp cov : List (Option ℝ)} (hl : resp.length = cov.length) :
    partialTest E alpha method resp cov = some (if (jointPairs resp cov).length < 3
      then PRes.empty resp.length (jointPairs resp cov).length
      else resOf E alpha resp.length (jointPairs resp cov) (responseTrendScalar method resp)) := by
  unfold partialTest
  rw [if_neg (by simpa using hl)]
  dsimp only
  by_cases h : (jointPairs resp cov).length < 3
  · rw [if_pos h, if_pos h]
  · rw [if_neg h, if_neg h]
    obtain ⟨st, e, hst⟩ := partialStatisticsBatch_ok (m := 1) (not_lt.mp h)
      (fun _ => elems ((jointPairs resp cov).map Prod.fst)) (fun _ => elems ((jointPairs resp cov).map Prod.snd))
    rw [e]
    simp only [Option.bind_eq_bind, Option.bind_some, hst 0 (by omega)]
    rfl

theorem partialTest_short_len {E : Env} {alpha : ℝ} {method : Method} {resp cov : List (Option ℝ)} (hl : resp.length ≠ cov.length) :
    partialTest E alpha method resp cov = none := by
  unfold partialTest; rw [if_pos hl]

/-! ### joint samples -/

theorem jointPairs_length_le (resp cov : List (Option ℝ)) (hl : resp.length = cov.length) : (jointPairs resp cov).length ≤ resp.length := by
  unfold jointPairs
  refine (List.length_filterMap_le _ _).trans ?_
  rw [List.length_zip]; omega

theorem jointPairs_cons (a b : Option ℝ) (resp cov : List (Option ℝ)) :
    jointPairs (a :: resp) (b :: cov) = (match a, b with | some u, some v => [(u, v)] | _, _ => []) ++ jointPairs resp cov := by
  unfold jointPairs
  rw [List.zip_cons_cons, List.filterMap_cons]
  cases a <;> cases b <;> simp

theorem jointPairs_full : ∀ (resp cov : List (Option ℝ)), resp.length = cov.length →
    (jointPairs resp cov).length = resp.length →
    resp.reduceOption.length = resp.length ∧ cov.reduceOption.length = cov.length ∧
    (jointPairs resp cov).map Prod.fst = resp.reduceOption ∧ (jointPairs resp cov).map Prod.snd = cov.reduceOption := by
  intro resp
  induction resp with
  | nil => intro cov hl _; cases cov with
    | nil => simp [jointPairs]
    | cons => simp at hl
  | cons a resp ih =>
    intro cov hl hf
    cases cov with
    | nil => simp at hl
    | cons b cov =>
      have hl' : resp.length = cov.length := by simpa using hl
      have hle := jointPairs_length_le resp cov hl'
      rw [jointPairs_cons] at hf ⊢
      cases a with
      | none => simp at hf; omega
      | some u => cases b with
        | none => simp at hf; omega
        | some v =>
          have hf' : (jointPairs resp cov).length = resp.length := by simpa using hf
          obtain ⟨h1, h2, h3, h4⟩ := ih cov hl' hf'
          simp only [List.reduceOption_cons_of_some, List.length_cons, h1, h2, List.cons_append, List.nil_append, List.map_cons, h3, h4,
            and_self]

/-! ### the response's own trend -/

theorem pairSlopeList_eq (n : ℕ) (x y : ℕ → ℝ) :
    (pairSlopeList n x y : Multiset ℝ) = (pairs n).val.map fun p => (y (p.2 - 1) - y (p.1 - 1)) / (x (p.2 - 1) - x (p.1 - 1)) := by
  unfold pairSlopeList
  rw [coe_flatMap_range, map_val_eq_sum]
  have h := sum_rows n fun i j => ({(y (j - 1) - y (i - 1)) / (x (j - 1) - x (i - 1))} : Multiset ℝ)
  rw [← h]
  refine Finset.sum_nbij' (fun i => i + 1) (fun i => i - 1) ?_ ?_ ?_ ?_ ?_
  · intro i hi; simp at hi ⊢; omega
  · intro i hi; simp at hi ⊢; omega
  · intro i hi; simp
  · intro i hi; simp at hi ⊢; omega
  · intro i hi
    rw [← Multiset.map_coe, show ((List.range (n - i - 1) : List ℕ) : Multiset ℕ) = (range (n - i - 1)).val from rfl, map_val_eq_sum]
    refine Finset.sum_nbij' (fun k => i + 2 + k) (fun j => j - (i + 2)) ?_ ?_ ?_ ?_ ?_
    · intro k hk; simp at hk ⊢; omega
    · intro k hk; simp at hk ⊢; omega
    · intro k hk; simp
    · intro k hk; simp at hk ⊢; omega
    · intro k hk
      rw [show i + 2 + k - 1 = i + 1 + k by omega, Nat.add_sub_cancel]

theorem filterMap_eq_map_filter {α : Type} (l : List α) (f : α → Option ℝ) :
    l.filterMap f = (l.filter fun a => (f a).isSome).map fun a => (f a).getD 0 := by
  induction l with
  | nil => rfl
  | cons a l ih =>
    cases h : f a with
    | none => rw [List.filterMap_cons_none h, List.filter_cons_of_neg (by simp [h]), ih]
    | some v => rw [List.filterMap_cons_some h, List.filter_cons_of_pos (by simp [h]), List.map_cons, ih, h]; rfl

theorem range_getD (l : List (Option ℝ)) : (List.range l.length).map (fun i => l.getD i none) = l := by
  apply List.ext_getElem
  · simp
  · intro i h1 h2
    rw [List.getElem_map, List.getElem_range, List.getD_eq_getElem _ _ h2]

/-- the finite samples, in terms of their positions -/
theorem reduceOption_finiteIdx (resp : List (Option ℝ)) :
    resp.reduceOption = (finiteIdx resp).map fun i => (resp.getD i none).getD 0 := by
  conv_lhs => rw [← range_getD resp]
  rw [reduceOption_map_eq_filterMap, filterMap_eq_map_filter]
  rfl

theorem finiteIdx_sorted (resp : List (Option ℝ)) : (finiteIdx resp).Pairwise (· < ·) := by
  unfold finiteIdx
  exact List.Pairwise.filter _ (List.pairwise_lt_range)

theorem mem_finiteIdx {resp : List (Option ℝ)} {i : ℕ} : i ∈ finiteIdx resp ↔ i < resp.length ∧ (resp.getD i none).isSome = true := by
  unfold finiteIdx; simp

theorem finiteIdx_length (resp : List (Option ℝ)) : (finiteIdx resp).length = resp.reduceOption.length := by
  rw [reduceOption_finiteIdx resp]; simp

/-- slopes between all pairs of present samples, at their own times -/
noncomputable def Spec.gapSlopes (vals : List (Option ℝ)) : Multiset ℝ :=
  ((pairs vals.length).filter fun q => (vals.getD (q.1 - 1) none).isSome = true ∧ (vals.getD (q.2 - 1) none).isSome = true).val.map
    fun q => ((vals.getD (q.2 - 1) none).getD 0 - (vals.getD (q.1 - 1) none).getD 0) / ((q.2 : ℝ) - (q.1 : ℝ))

theorem pairSlopeList_gaps (resp : List (Option ℝ)) :
    (pairSlopeList resp.reduceOption.length (fun i => (((finiteIdx resp).getD i 0 : ℕ) : ℝ)) (elems resp.reduceOption) : Multiset ℝ) =
      Spec.gapSlopes resp := by
  rw [pairSlopeList_eq]
  unfold Spec.gapSlopes
  rw [map_val_eq_sum, map_val_eq_sum]
  set L := finiteIdx resp with hL
  have hlen : L.length = resp.reduceOption.length := finiteIdx_length resp
  have hs := finiteIdx_sorted resp
  rw [← hL] at hs
  have hget : ∀ k, k < L.length → L.getD k 0 ∈ L := by
    intro k hk; rw [List.getD_eq_getElem _ _ hk]; exact List.getElem_mem _
  have hlt : ∀ a b, a < b → b < L.length → L.getD a 0 < L.getD b 0 := by
    intro a b hab hb
    rw [List.getD_eq_getElem _ _ hb, List.getD_eq_getElem _ _ (by omega)]
    exact List.pairwise_iff_getElem.mp hs a b (by omega) hb hab
  have hlt' : ∀ a b, a < L.length → b < L.length → L.getD a 0 < L.getD b 0 → a < b := by
    intro a b ha hb h
    by_contra hn
    rcases (not_lt.mp hn).eq_or_lt with e | e
    · subst e; omega
    · have := hlt b a e ha; omega
  have hval : ∀ k, k < L.length → elems resp.reduceOption k = (resp.getD (L.getD k 0) none).getD 0 := by
    intro k hk
    unfold elems
    rw [reduceOption_finiteIdx resp, List.getD_eq_getElem _ _ (by simpa using hk), List.getElem_map,
      List.getD_eq_getElem L _ hk]
  refine Finset.sum_nbij (fun p => (L.getD (p.1 - 1) 0 + 1, L.getD (p.2 - 1) 0 + 1)) ?_ ?_ ?_ ?_
  · intro p hp
    rw [mem_pairs, ← hlen] at hp
    have m1 := mem_finiteIdx.mp (hget (p.1 - 1) (by omega))
    have m2 := mem_finiteIdx.mp (hget (p.2 - 1) (by omega))
    have := hlt (p.1 - 1) (p.2 - 1) (by omega) (by omega)
    rw [Finset.mem_filter, mem_pairs]
    simp only [Nat.add_sub_cancel]
    exact ⟨⟨by omega, by omega, by omega⟩, m1.2, m2.2⟩
  · intro p hp q hq e
    rw [Finset.mem_coe, mem_pairs, ← hlen] at hp hq
    simp only [Prod.mk.injEq, Nat.add_right_cancel_iff] at e
    have inj : ∀ a b, a < L.length → b < L.length → L.getD a 0 = L.getD b 0 → a = b := by
      intro a b ha hb h
      rcases lt_trichotomy a b with c | c | c
      · have := hlt a b c hb; omega
      · exact c
      · have := hlt b a c ha; omega
    have e1 := inj _ _ (by omega) (by omega) e.1
    have e2 := inj _ _ (by omega) (by omega) e.2
    ext <;> omega
  · intro q hq
    rw [Finset.mem_coe, Finset.mem_filter, mem_pairs] at hq
    have m1 : q.1 - 1 ∈ L := mem_finiteIdx.mpr ⟨by omega, hq.2.1⟩
    have m2 : q.2 - 1 ∈ L := mem_finiteIdx.mpr ⟨by omega, hq.2.2⟩
    obtain ⟨a, ha, ea⟩ := List.getElem_of_mem m1
    obtain ⟨b, hb, eb⟩ := List.getElem_of_mem m2
    have ea' : L.getD a 0 = q.1 - 1 := by rw [List.getD_eq_getElem _ _ ha, ea]
    have eb' : L.getD b 0 = q.2 - 1 := by rw [List.getD_eq_getElem _ _ hb, eb]
    refine ⟨(a + 1, b + 1), ?_, ?_⟩
    · rw [Finset.mem_coe, mem_pairs, ← hlen]
      have := hlt' a b ha hb (by omega)
      exact ⟨by omega, by simp only; omega, by simp only; omega⟩
    · simp only [Nat.add_sub_cancel, ea', eb']
      ext <;> simp only <;> omega
  · intro p hp
    rw [mem_pairs, ← hlen] at hp
    rw [hval _ (by omega), hval _ (by omega)]
    simp only [Nat.add_sub_cancel]
    congr 2
    push_cast; ring

/-- a complete series: positions are `0, 1, 2, ...` -/
theorem finiteIdx_full {resp : List (Option ℝ)} (h : resp.reduceOption.length = resp.length) : finiteIdx resp = List.range resp.length := by
  have hsub : (finiteIdx resp).Sublist (List.range resp.length) := List.filter_sublist
  exact hsub.eq_of_length (by rw [finiteIdx_length, h]; simp)

theorem getD_range {n i : ℕ} (h : i < n) : (List.range n).getD i 0 = i := by
  rw [List.getD_eq_getElem _ _ (by simpa using h)]; simp

end Skyborn.MK.Py
