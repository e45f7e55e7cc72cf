/-
C202-C205: what the partial test computes, what it depends on, its symmetries and its range.
-/
import Verif.MK.PartialPyProps

namespace Skyborn.MK.Py

open Skyborn Skyborn.MK Finset Spec

variable (E : Env)

/-! ### C202 -/

/-- the statistics a result reports -/
def Spec.SameStats (r r' : PRes) : Prop :=
  r.z = r'.z ∧ r.p = r'.p ∧ r.h = r'.h ∧ r.tau = r'.tau ∧ r.s = r'.s ∧ r.varS = r'.varS ∧ r.n = r'.n

theorem jointPairs_congr : ∀ (resp cov resp' cov' : List (Option ℝ)), resp.length = cov.length → resp'.length = resp.length →
    cov'.length = resp.length →
    (∀ t, t < resp.length → ((resp.getD t none).isSome = true ∧ (cov.getD t none).isSome = true ∨
        (resp'.getD t none).isSome = true ∧ (cov'.getD t none).isSome = true) →
      resp.getD t none = resp'.getD t none ∧ cov.getD t none = cov'.getD t none) →
    jointPairs resp cov = jointPairs resp' cov' := by
  intro resp
  induction resp with
  | nil =>
    intro cov resp' cov' h1 h2 h3 _
    rw [List.length_eq_zero_iff.mp h2]; simp [jointPairs]
  | cons a resp ih =>
    intro cov resp' cov' h1 h2 h3 h
    cases cov with
    | nil => simp at h1
    | cons b cov => cases resp' with
      | nil => simp at h2
      | cons a' resp' => cases cov' with
        | nil => simp at h3
        | cons b' cov' =>
          rw [jointPairs_cons, jointPairs_cons, ih cov resp' cov' (by simpa using h1) (by simpa using h2) (by simpa using h3)
            fun t ht hh => by
              have := h (t + 1) (by simpa using ht)
              simp only [List.getD_cons_succ] at this
              exact this hh]
          have h0 := h 0 (by simp)
          simp only [List.getD_cons_zero] at h0
          congr 1
          cases a with
          | none => cases a' with
            | none => rfl
            | some u' => cases b' with
              | none => rfl
              | some v' => have := (h0 (Or.inr ⟨rfl, rfl⟩)).1; simp at this
          | some u => cases b with
            | none => cases a' with
              | none => rfl
              | some u' => cases b' with
                | none => rfl
                | some v' => have := (h0 (Or.inr ⟨rfl, rfl⟩)).2; simp at this
            | some v => obtain ⟨e1, e2⟩ := h0 (Or.inl ⟨rfl, rfl⟩); rw [← e1, ← e2]

theorem sameStats_of_joint (alpha : ℝ) (method method' : Method) {resp cov resp' cov' : List (Option ℝ)} (h1 : resp.length = cov.length)
    (h2 : resp'.length = cov'.length) (hj : jointPairs resp cov = jointPairs resp' cov') :
    ∃ r r', partialTest E alpha method resp cov = some r ∧ partialTest E alpha method' resp' cov' = some r' ∧ Spec.SameStats r r' := by
  refine ⟨_, _, partialTest_eq E alpha method h1, partialTest_eq E alpha method' h2, ?_⟩
  rw [hj]
  by_cases h : (jointPairs resp' cov').length < 3
  · rw [if_pos h, if_pos h]; exact ⟨rfl, rfl, rfl, rfl, rfl, rfl, rfl⟩
  · rw [if_neg h, if_neg h]; exact ⟨rfl, rfl, rfl, rfl, rfl, rfl, rfl⟩

/-- C202: the test statistics only depend on the samples at which both series are finite: whatever stands at the other times
(and whichever slope method is asked for) leaves z, p, h, tau, s, var_s and n alone. -/
theorem C202_joint_only (alpha : ℝ) (method method' : Method) (resp cov resp' cov' : List (Option ℝ)) (h1 : resp.length = cov.length)
    (h2 : resp'.length = resp.length) (h3 : cov'.length = resp.length)
    (h : ∀ t, t < resp.length → ((resp.getD t none).isSome = true ∧ (cov.getD t none).isSome = true ∨
        (resp'.getD t none).isSome = true ∧ (cov'.getD t none).isSome = true) →
      resp.getD t none = resp'.getD t none ∧ cov.getD t none = cov'.getD t none) :
    ∃ r r', partialTest E alpha method resp cov = some r ∧ partialTest E alpha method' resp' cov' = some r' ∧ Spec.SameStats r r' :=
  sameStats_of_joint E alpha method method' h1 (h2.trans h3.symm) (jointPairs_congr resp cov resp' cov' h1 h2 h3 h)

/-- `τ 1 < τ 2 < ... < τ n` are exactly the times at which both series are finite -/
structure Spec.JointTimes (resp cov : List (Option ℝ)) (n : ℕ) (τ : ℕ → ℕ) : Prop where
  lt : ∀ i j, 1 ≤ i → i < j → j ≤ n → τ i < τ j
  mem : ∀ t, (t < resp.length ∧ (resp.getD t none).isSome = true ∧ (cov.getD t none).isSome = true) ↔ ∃ i, 1 ≤ i ∧ i ≤ n ∧ τ i = t

theorem jointPairs_times : ∀ (resp cov : List (Option ℝ)), resp.length = cov.length →
    jointPairs resp cov = ((List.range resp.length).filter fun t => (resp.getD t none).isSome && (cov.getD t none).isSome).map
      fun t => ((resp.getD t none).getD 0, (cov.getD t none).getD 0) := by
  intro resp
  induction resp with
  | nil => intro cov _; simp [jointPairs]
  | cons a resp ih =>
    intro cov hl
    cases cov with
    | nil => simp at hl
    | cons b cov =>
      rw [jointPairs_cons, ih cov (by simpa using hl), List.length_cons, List.range_succ_eq_map, List.filter_cons, List.filter_map]
      simp only [List.getD_cons_zero]
      have e : ((List.range resp.length).filter ((fun t => ((a :: resp).getD t none).isSome && ((b :: cov).getD t none).isSome) ∘ Nat.succ)) =
          ((List.range resp.length).filter fun t => (resp.getD t none).isSome && (cov.getD t none).isSome) := by
        congr 1
      rw [e]
      cases a <;> cases b <;> simp [Function.comp_def]

theorem jointPairs_of_times {resp cov : List (Option ℝ)} (hl : resp.length = cov.length) {n : ℕ} {τ : ℕ → ℕ}
    (h : Spec.JointTimes resp cov n τ) :
    jointPairs resp cov = (List.range n).map fun i => ((resp.getD (τ (i + 1)) none).getD 0, (cov.getD (τ (i + 1)) none).getD 0) := by
  rw [jointPairs_times resp cov hl]
  have e : ((List.range resp.length).filter fun t => (resp.getD t none).isSome && (cov.getD t none).isSome) =
      (List.range n).map fun i => τ (i + 1) := by
    have p1 : ((List.range resp.length).filter fun t => (resp.getD t none).isSome && (cov.getD t none).isSome).Pairwise (· < ·) :=
      List.Pairwise.filter _ List.pairwise_lt_range
    have p2 : ((List.range n).map fun i => τ (i + 1)).Pairwise (· < ·) := by
      rw [List.pairwise_map]
      refine List.Pairwise.imp_of_mem ?_ List.pairwise_lt_range
      intro i j hi hj hij
      exact h.lt _ _ (by omega) (by omega) (by have := List.mem_range.mp hj; omega)
    refine List.Perm.eq_of_pairwise (le := (· < ·)) (fun a b _ _ h1 h2 => absurd h1 (by omega)) p1 p2 ?_
    rw [List.perm_ext_iff_of_nodup (p1.imp (fun h => h.ne)) (p2.imp fun h => h.ne)]
    intro t
    rw [List.mem_filter, List.mem_range, Bool.and_eq_true, h.mem t, List.mem_map]
    constructor
    · rintro ⟨i, i1, i2, e⟩; exact ⟨i - 1, List.mem_range.mpr (by omega), by rw [Nat.sub_add_cancel i1]; exact e⟩
    · rintro ⟨i, hi, e⟩; exact ⟨i + 1, by omega, by have := List.mem_range.mp hi; omega, e⟩
  rw [e, List.map_map]; rfl

/-- C202: the reported statistics are those of the jointly finite samples: with `x`, `y` the values of response and covariate
at these `n ≥ 3` times and `ρ` the Dietz-Killeen covariance over the untied variance, `s = S(x) - ρ S(y)`,
`var_s = (1 - ρ²) n(n-1)(2n+5)/18`, `tau = S(x) / (n(n-1)/2)`; `n` counts them, `n_dropped` the others. -/
theorem C202_formula (alpha : ℝ) (method : Method) (resp cov : List (Option ℝ)) (hl : resp.length = cov.length)
    (n : ℕ) (hn : 3 ≤ n) (τ : ℕ → ℕ) (hτ : Spec.JointTimes resp cov n τ) (x y : ℕ → ℝ)
    (hx : ∀ i, 1 ≤ i → i ≤ n → resp.getD (τ i) none = some (x i)) (hy : ∀ i, 1 ≤ i → i ≤ n → cov.getD (τ i) none = some (y i)) :
    ∃ r, partialTest E alpha method resp cov = some r ∧
      r.s = some (score n x - dietzKilleen n x y / ((n : ℝ) * (n - 1) * (2 * n + 5) / 18) * score n y) ∧
      r.varS = some ((1 - (dietzKilleen n x y / ((n : ℝ) * (n - 1) * (2 * n + 5) / 18)) ^ 2) * ((n : ℝ) * (n - 1) * (2 * n + 5) / 18)) ∧
      r.tau = some (score n x / ((n : ℝ) * (n - 1) / 2)) ∧ r.n = n ∧ r.nDropped = resp.length - n := by
  have hj := jointPairs_of_times hl hτ
  have hlen : (jointPairs resp cov).length = n := by rw [hj]; simp
  refine ⟨_, partialTest_eq E alpha method hl, ?_⟩
  rw [if_neg (by omega)]
  have hx' : ∀ i, 1 ≤ i → i ≤ n → buf (elems ((jointPairs resp cov).map Prod.fst)) i = x i := by
    intro i i1 i2
    unfold buf elems
    rw [hj, List.map_map, List.getD_eq_getElem _ _ (by simp; omega), List.getElem_map, List.getElem_range]
    simp only [Function.comp, Nat.sub_add_cancel i1]
    rw [hx i i1 i2]; rfl
  have hy' : ∀ i, 1 ≤ i → i ≤ n → buf (elems ((jointPairs resp cov).map Prod.snd)) i = y i := by
    intro i i1 i2
    unfold buf elems
    rw [hj, List.map_map, List.getD_eq_getElem _ _ (by simp; omega), List.getElem_map, List.getElem_range]
    simp only [Function.comp, Nat.sub_add_cancel i1]
    rw [hy i i1 i2]; rfl
  have hst : statsOf (jointPairs resp cov) = partialClosed n x y := by
    unfold statsOf
    rw [hlen, C16_plain n hn]
    unfold partialClosed
    rw [dietzKilleen_congr hx' hy', score_congr hx', score_congr hy']
  unfold resOf
  rw [hst, hlen]
  unfold partialClosed
  dsimp only
  refine ⟨rfl, ?_, ?_, rfl, rfl⟩
  · rw [sq]
  · congr 2; ring

/-- four samples, the third without a covariate: the joint times are 0, 1, 3 -/
example : Spec.JointTimes [some 1, some 5, some 2, some 4] [some 0, some 1, none, some 7] 3 (fun i => if i ≤ 2 then i - 1 else i) where
  lt := by
    intro i j h1 h2 h3
    split_ifs <;> omega
  mem := by
    intro t
    constructor
    · rintro ⟨h1, h2, h3⟩
      simp at h1
      have : t = 0 ∨ t = 1 ∨ t = 2 ∨ t = 3 := by omega
      rcases this with rfl | rfl | rfl | rfl
      · exact ⟨1, by simp⟩
      · exact ⟨2, by simp⟩
      · simp at h3
      · exact ⟨3, by simp⟩
    · rintro ⟨i, h1, h2, rfl⟩
      have : i = 1 ∨ i = 2 ∨ i = 3 := by omega
      rcases this with rfl | rfl | rfl <;> simp

/-- C202: trend, intercept and std_error are the response's own: they do not depend on the covariate at all (as long as the
test runs). -/
theorem C202_trend_ignores_covariate (alpha : ℝ) (method : Method) (resp cov cov' : List (Option ℝ)) (r r' : PRes)
    (hr : partialTest E alpha method resp cov = some r) (hr' : partialTest E alpha method resp cov' = some r') (hn : 3 ≤ r.n)
    (hn' : 3 ≤ r'.n) : r.trend = r'.trend ∧ r.intercept = r'.intercept ∧ r.stdError = r'.stdError := by
  have key : ∀ (c : List (Option ℝ)) (q : PRes), partialTest E alpha method resp c = some q → 3 ≤ q.n →
      (q.trend, q.intercept, q.stdError) = responseTrendScalar method resp := by
    intro c q hq h3
    by_cases hl : resp.length = c.length
    · rw [partialTest_eq E alpha method hl] at hq
      simp only [Option.some.injEq] at hq
      by_cases h : (jointPairs resp c).length < 3
      · rw [if_pos h] at hq
        rw [← hq] at h3
        simp [PRes.empty] at h3; omega
      · rw [if_neg h] at hq
        rw [← hq]; rfl
    · rw [partialTest_short_len hl] at hq; simp at hq
  have h := (key cov r hr hn).trans (key cov' r' hr' hn').symm
  simpa using h

/-- C202: the Theil-Sen trend is the median slope over all pairs of finite response samples at their original times. -/
theorem C202_theil_trend (alpha : ℝ) (resp cov : List (Option ℝ)) (r : PRes)
    (hr : partialTest E alpha .theilslopes resp cov = some r) (hn : 3 ≤ r.n) :
    r.trend = some (median (Spec.gapSlopes resp)) := by
  by_cases hl : resp.length = cov.length
  · rw [partialTest_eq E alpha .theilslopes hl] at hr
    simp only [Option.some.injEq] at hr
    by_cases h : (jointPairs resp cov).length < 3
    · rw [if_pos h] at hr; rw [← hr] at hn; simp [PRes.empty] at hn; omega
    · rw [if_neg h] at hr
      rw [← hr]
      have h2 : ¬ resp.reduceOption.length < 2 := by
        have : (jointPairs resp cov).length ≤ resp.reduceOption.length := by
          clear hr hn h
          revert cov
          induction resp with
          | nil => intro cov _; simp [jointPairs]
          | cons a resp ih =>
            intro cov hl
            cases cov with
            | nil => simp at hl
            | cons b cov =>
              have := ih cov (by simpa using hl)
              rw [jointPairs_cons]
              cases a with
              | none => simpa using this
              | some u => cases b with
                | none => simp; omega
                | some v => simp; omega
        omega
      show (responseTrendScalar .theilslopes resp).1 = _
      unfold responseTrendScalar
      dsimp only
      rw [if_neg h2, pairSlopeList_gaps]
  · rw [partialTest_short_len hl] at hr; simp at hr

/-! ### C203 -/

theorem jointPairs_map (f g : ℝ → ℝ) (resp cov : List (Option ℝ)) :
    jointPairs (resp.map (Option.map f)) (cov.map (Option.map g)) = (jointPairs resp cov).map fun q => (f q.1, g q.2) := by
  unfold jointPairs
  rw [List.zip_map, List.filterMap_map, List.map_filterMap]
  congr 1
  funext q
  rcases q with ⟨_ | a, _ | b⟩ <;> rfl

theorem statsOf_closed {j : List (ℝ × ℝ)} (h : ¬ j.length < 3) :
    statsOf j = partialClosed j.length (buf (elems (j.map Prod.fst))) (buf (elems (j.map Prod.snd))) := by
  unfold statsOf; exact C16_plain _ (not_lt.mp h) _ _

theorem buf_map_fst (f g : ℝ → ℝ) (j : List (ℝ × ℝ)) {i : ℕ} (h1 : 1 ≤ i) (h2 : i ≤ j.length) :
    buf (elems ((j.map fun q => (f q.1, g q.2)).map Prod.fst)) i = f (buf (elems (j.map Prod.fst)) i) := by
  unfold buf elems
  rw [List.map_map, List.getD_eq_getElem _ _ (by simp; omega), List.getD_eq_getElem _ _ (by simp; omega)]
  simp

theorem buf_map_snd (f g : ℝ → ℝ) (j : List (ℝ × ℝ)) {i : ℕ} (h1 : 1 ≤ i) (h2 : i ≤ j.length) :
    buf (elems ((j.map fun q => (f q.1, g q.2)).map Prod.snd)) i = g (buf (elems (j.map Prod.snd)) i) := by
  unfold buf elems
  rw [List.map_map, List.getD_eq_getElem _ _ (by simp; omega), List.getD_eq_getElem _ _ (by simp; omega)]
  simp

theorem covForm_signs {n : ℕ} {x y x' y' : ℕ → ℝ} {e e' : ℝ}
    (hx : ∀ i j, 1 ≤ i → i ≤ n → 1 ≤ j → j ≤ n → sgn (x' j - x' i) = e * sgn (x j - x i))
    (hy : ∀ i j, 1 ≤ i → i ≤ n → 1 ≤ j → j ≤ n → sgn (y' j - y' i) = e' * sgn (y j - y i)) :
    covForm n x' y' = e * e' * covForm n x y ∧ score n x' = e * score n x := by
  have hsx : ∀ i ∈ Icc 1 n, signSum n x' i = e * signSum n x i := by
    intro i hi
    rw [Finset.mem_Icc] at hi
    unfold signSum
    rw [Finset.mul_sum]
    refine Finset.sum_congr rfl fun k hk => ?_
    rw [Finset.mem_Icc] at hk
    exact hx _ _ hk.1 hk.2 hi.1 hi.2
  have hsy : ∀ i ∈ Icc 1 n, signSum n y' i = e' * signSum n y i := by
    intro i hi
    rw [Finset.mem_Icc] at hi
    unfold signSum
    rw [Finset.mul_sum]
    refine Finset.sum_congr rfl fun k hk => ?_
    rw [Finset.mem_Icc] at hk
    exact hy _ _ hk.1 hk.2 hi.1 hi.2
  constructor
  · unfold covForm
    have a1 : ∑ p ∈ pairs n, sgn (x' p.2 - x' p.1) * sgn (y' p.2 - y' p.1) =
        e * e' * ∑ p ∈ pairs n, sgn (x p.2 - x p.1) * sgn (y p.2 - y p.1) := by
      rw [Finset.mul_sum]
      refine Finset.sum_congr rfl fun p hp => ?_
      rw [mem_pairs] at hp
      rw [hx _ _ (by omega) (by omega) (by omega) (by omega), hy _ _ (by omega) (by omega) (by omega) (by omega)]; ring
    have a2 : ∑ i ∈ Icc 1 n, signSum n x' i * signSum n y' i = e * e' * ∑ i ∈ Icc 1 n, signSum n x i * signSum n y i := by
      rw [Finset.mul_sum]
      refine Finset.sum_congr rfl fun i hi => ?_
      rw [hsx i hi, hsy i hi]; ring
    rw [a1, a2]; ring
  · unfold score
    rw [Finset.mul_sum]
    refine Finset.sum_congr rfl fun p hp => ?_
    rw [mem_pairs] at hp
    exact hx _ _ (by omega) (by omega) (by omega) (by omega)

theorem statsOf_signs (f g : ℝ → ℝ) {e e' : ℝ} (he' : e' * e' = 1) (he : e * e = 1) (hf : ∀ a b, sgn (f b - f a) = e * sgn (b - a))
    (hg : ∀ a b, sgn (g b - g a) = e' * sgn (b - a)) {j : List (ℝ × ℝ)} (h : ¬ j.length < 3) :
    statsOf (j.map fun q => (f q.1, g q.2)) = (e * (statsOf j).1, (statsOf j).2.1, e * (statsOf j).2.2) := by
  rw [statsOf_closed h, statsOf_closed (by simpa using h), List.length_map]
  have hx : ∀ i k, 1 ≤ i → i ≤ j.length → 1 ≤ k → k ≤ j.length →
      sgn (buf (elems ((j.map fun q => (f q.1, g q.2)).map Prod.fst)) k - buf (elems ((j.map fun q => (f q.1, g q.2)).map Prod.fst)) i) =
        e * sgn (buf (elems (j.map Prod.fst)) k - buf (elems (j.map Prod.fst)) i) := by
    intro i k i1 i2 k1 k2
    rw [buf_map_fst f g j i1 i2, buf_map_fst f g j k1 k2, hf]
  have hy : ∀ i k, 1 ≤ i → i ≤ j.length → 1 ≤ k → k ≤ j.length →
      sgn (buf (elems ((j.map fun q => (f q.1, g q.2)).map Prod.snd)) k - buf (elems ((j.map fun q => (f q.1, g q.2)).map Prod.snd)) i) =
        e' * sgn (buf (elems (j.map Prod.snd)) k - buf (elems (j.map Prod.snd)) i) := by
    intro i k i1 i2 k1 k2
    rw [buf_map_snd f g j i1 i2, buf_map_snd f g j k1 k2, hg]
  have h1 := covForm_signs hx hy
  have h2 := covForm_signs hy hx
  unfold partialClosed
  dsimp only
  rw [dietzKilleen_eq_covForm, dietzKilleen_eq_covForm, h1.1, h1.2, h2.2]
  ext1
  · dsimp only
    linear_combination -(e * covForm j.length (buf (elems (j.map Prod.fst))) (buf (elems (j.map Prod.snd))) /
      ((j.length : ℝ) * (j.length - 1) * (2 * j.length + 5) / 18) * score j.length (buf (elems (j.map Prod.snd)))) * he'
  · ext1
    · dsimp only
      linear_combination -((covForm j.length (buf (elems (j.map Prod.fst))) (buf (elems (j.map Prod.snd))) /
        ((j.length : ℝ) * (j.length - 1) * (2 * j.length + 5) / 18)) ^ 2 * ((j.length : ℝ) * (j.length - 1) * (2 * j.length + 5) / 18)) *
        (e' * e' * he + he')
    · dsimp only; ring

theorem sgn_one_neg (a b : ℝ) : sgn (-b - -a) = (-1) * sgn (b - a) := by
  rw [show -b - -a = -(b - a) by ring]
  unfold sgn
  rw [Left.sign_neg]
  push_cast; ring

/-- C203: strictly increasing transformations of the response and of the covariate (logarithm, unit changes, ...) leave every
statistic unchanged. -/
theorem C203_increasing (alpha : ℝ) (method : Method) (resp cov : List (Option ℝ)) (hl : resp.length = cov.length) (f g : ℝ → ℝ)
    (hf : StrictMono f) (hg : StrictMono g) :
    ∃ r r', partialTest E alpha method resp cov = some r ∧
      partialTest E alpha method (resp.map (Option.map f)) (cov.map (Option.map g)) = some r' ∧ Spec.SameStats r r' := by
  refine ⟨_, _, partialTest_eq E alpha method hl, partialTest_eq E alpha method (by simpa using hl), ?_⟩
  rw [jointPairs_map]
  simp only [List.length_map]
  by_cases h : (jointPairs resp cov).length < 3
  · rw [if_pos h, if_pos h]; exact ⟨rfl, rfl, rfl, rfl, rfl, rfl, rfl⟩
  · rw [if_neg h, if_neg h]
    have hs := statsOf_signs f g (e := 1) (e' := 1) (by norm_num) (by norm_num)
      (fun a b => by rw [one_mul]; exact sgn_strictMono hf a b) (fun a b => by rw [one_mul]; exact sgn_strictMono hg a b) h
    simp only [one_mul, Prod.mk.eta] at hs
    unfold resOf
    rw [hs]
    refine ⟨rfl, rfl, rfl, rfl, rfl, rfl, by simp⟩

theorem hypothesisFinite_neg (alpha : ℝ) (z : Flt) : hypothesisFinite E alpha z.neg = hypothesisFinite E alpha z := by
  cases z <;> simp [hypothesisFinite, Flt.neg]

/-- C203: negating the response (or any strictly decreasing map of it) negates s, z and tau and leaves p, h, var_s and n
alone. -/
theorem C203_negate_response (alpha : ℝ) (method : Method) (resp cov : List (Option ℝ)) (hl : resp.length = cov.length) :
    ∃ r r', partialTest E alpha method resp cov = some r ∧
      partialTest E alpha method (resp.map (Option.map fun v => -v)) cov = some r' ∧
      r'.s = r.s.map (fun v => -v) ∧ r'.z = r.z.neg ∧ r'.tau = r.tau.map (fun v => -v) ∧ r'.p = r.p ∧ r'.h = r.h ∧
      r'.varS = r.varS ∧ r'.n = r.n := by
  refine ⟨_, _, partialTest_eq E alpha method hl, partialTest_eq E alpha method (by simpa using hl), ?_⟩
  have hc : cov = cov.map (Option.map id) := by simp
  have hm : jointPairs (resp.map (Option.map fun v => -v)) cov = (jointPairs resp cov).map fun q => (-q.1, id q.2) := by
    conv_lhs => rw [hc]
    exact jointPairs_map (fun v => -v) id resp cov
  rw [hm]
  simp only [List.length_map]
  by_cases h : (jointPairs resp cov).length < 3
  · rw [if_pos h, if_pos h]
    simp [PRes.empty, Flt.neg]
  · rw [if_neg h, if_neg h]
    have hs := statsOf_signs (fun v => -v) id (e := -1) (e' := 1) (by norm_num) (by norm_num) sgn_one_neg
      (fun a b => by simp) h
    unfold resOf
    rw [hs]
    simp only [neg_one_mul, divSqrt_neg, pValue_neg, hypothesisFinite_neg, Option.map_some, List.length_map, and_self]

/-- C203: negating the covariate changes nothing: only the strength of its association matters. -/
theorem C203_negate_covariate (alpha : ℝ) (method : Method) (resp cov : List (Option ℝ)) (hl : resp.length = cov.length) :
    ∃ r, partialTest E alpha method resp cov = some r ∧
      partialTest E alpha method resp (cov.map (Option.map fun v => -v)) = some r := by
  refine ⟨_, partialTest_eq E alpha method hl, ?_⟩
  rw [partialTest_eq E alpha method (by simpa using hl)]
  have hc : resp = resp.map (Option.map id) := by simp
  have hm : jointPairs resp (cov.map (Option.map fun v => -v)) = (jointPairs resp cov).map fun q => (id q.1, -q.2) := by
    conv_lhs => rw [hc]
    exact jointPairs_map id (fun v => -v) resp cov
  rw [hm]
  simp only [List.length_map]
  by_cases h : (jointPairs resp cov).length < 3
  · rw [if_pos h, if_pos h]
  · rw [if_neg h, if_neg h]
    have hs := statsOf_signs id (fun v => -v) (e := 1) (e' := -1) (by norm_num) (by norm_num) (fun a b => by simp) sgn_one_neg h
    simp only [one_mul, Prod.mk.eta] at hs
    unfold resOf
    rw [hs]
    simp

example : StrictMono (fun v : ℝ => 2 * v + 1) := fun a b h => by show 2 * a + 1 < 2 * b + 1; linarith

/-! ### C204 -/

/-- C204: the z score of the partial test is never infinite: it is the finite quotient `s / √var_s`, or NaN exactly when the
variance is zero, in which case s is zero too (then p is NaN and h is False). -/
theorem C204_z (alpha : ℝ) (method : Method) (resp cov : List (Option ℝ)) (r : PRes)
    (hr : partialTest E alpha method resp cov = some r) (hn : 3 ≤ r.n) :
    (r.varS = some 0 ∧ r.s = some 0 ∧ r.z = .nan ∧ r.p = none ∧ r.h = false) ∨
    ∃ s v, r.s = some s ∧ r.varS = some v ∧ 0 < v ∧ r.z = .fin (s / Real.sqrt v) ∧
      r.p = some (2 * (1 - E.cdf |s / Real.sqrt v|)) ∧ r.h = decide (|s / Real.sqrt v| > E.ppf (1 - alpha / 2)) := by
  by_cases hl : resp.length = cov.length
  · rw [partialTest_eq E alpha method hl] at hr
    simp only [Option.some.injEq] at hr
    by_cases h : (jointPairs resp cov).length < 3
    · rw [if_pos h] at hr; rw [← hr] at hn; simp [PRes.empty] at hn; omega
    · rw [if_neg h] at hr
      rw [← hr]
      unfold resOf
      rcases partial_z_cases (not_lt.mp h) (buf (elems ((jointPairs resp cov).map Prod.fst)))
        (buf (elems ((jointPairs resp cov).map Prod.snd))) with ⟨h1, h2, h3⟩ | ⟨h1, h2⟩
      · left
        unfold statsOf
        dsimp only
        rw [h1, h2, h3]
        exact ⟨rfl, rfl, rfl, rfl, rfl⟩
      · right
        refine ⟨(statsOf (jointPairs resp cov)).1, (statsOf (jointPairs resp cov)).2.1, rfl, rfl, h1, ?_, ?_, ?_⟩
        · exact h2
        · show pValue E (divSqrt (statsOf (jointPairs resp cov)).1 (some (statsOf (jointPairs resp cov)).2.1)) = _
          unfold statsOf; rw [h2]; rfl
        · show hypothesisFinite E alpha (divSqrt (statsOf (jointPairs resp cov)).1 (some (statsOf (jointPairs resp cov)).2.1)) = _
          unfold statsOf; rw [h2]; rfl
  · rw [partialTest_short_len hl] at hr; simp at hr

/-- C204: p is NaN or lies in [0, 1], and h is True exactly when p < alpha. -/
theorem C204_verdict (hE : NormalLike E) (alpha : ℝ) (ha0 : 0 < alpha) (ha1 : alpha < 2) (method : Method)
    (resp cov : List (Option ℝ)) (r : PRes) (hr : partialTest E alpha method resp cov = some r) :
    (r.h = true ↔ ∃ p, r.p = some p ∧ p < alpha) ∧ (∀ p, r.p = some p → 0 ≤ p ∧ p ≤ 1) := by
  by_cases hn : 3 ≤ r.n
  · rcases C204_z E alpha method resp cov r hr hn with ⟨-, -, -, hp, hh⟩ | ⟨s, v, -, -, -, -, hp, hh⟩
    · rw [hp, hh]; simp
    · rw [hp, hh]
      constructor
      · simp only [decide_eq_true_eq, Option.some.injEq, exists_eq_left']
        rw [gt_iff_lt, ← hE.mono.lt_iff_lt, hE.inverse _ (by linarith) (by linarith)]
        constructor <;> intro h <;> linarith
      · intro p hpp
        simp only [Option.some.injEq] at hpp
        have h0 : E.cdf 0 = 1 / 2 := by
          have := hE.symm 0
          rw [neg_zero] at this; linarith
        have h1 : E.cdf 0 ≤ E.cdf |s / Real.sqrt v| := hE.mono.monotone (abs_nonneg _)
        have h2 := hE.le_one |s / Real.sqrt v|
        constructor <;> linarith
  · by_cases hl : resp.length = cov.length
    · rw [partialTest_eq E alpha method hl] at hr
      simp only [Option.some.injEq] at hr
      by_cases h : (jointPairs resp cov).length < 3
      · rw [if_pos h] at hr
        rw [← hr]; simp [PRes.empty]
      · rw [if_neg h] at hr
        exact absurd (by rw [← hr]; exact not_lt.mp h) hn
    · rw [partialTest_short_len hl] at hr; simp at hr

/-- the assumptions of `C204_verdict` can be met, with a test that runs -/
example : NormalLike exampleEnv ∧ ∃ r, partialTest exampleEnv (1 / 20) .theilslopes [some 1, some 2, some 3] [some 0, some 5, some 1] = some r ∧
    r.n = 3 := by
  refine ⟨exampleEnv_normalLike, _, partialTest_eq exampleEnv _ _ (by simp), ?_⟩
  simp [jointPairs, resOf]

/-! ### C205 -/

theorem score_const (n : ℕ) {y : ℕ → ℝ} (c : ℝ) (h : ∀ i, 1 ≤ i → i ≤ n → y i = c) : score n y = 0 := by
  unfold score
  refine Finset.sum_eq_zero fun p hp => ?_
  rw [mem_pairs] at hp
  rw [h _ (by omega) (by omega), h _ (by omega) (by omega), sub_self]
  simp [sgn]

theorem covForm_const (n : ℕ) (x : ℕ → ℝ) {y : ℕ → ℝ} (c : ℝ) (h : ∀ i, 1 ≤ i → i ≤ n → y i = c) : covForm n x y = 0 := by
  unfold covForm
  have a1 : ∑ p ∈ pairs n, sgn (x p.2 - x p.1) * sgn (y p.2 - y p.1) = 0 := by
    refine Finset.sum_eq_zero fun p hp => ?_
    rw [mem_pairs] at hp
    rw [h _ (by omega) (by omega), h _ (by omega) (by omega), sub_self]
    simp [sgn]
  have a2 : ∑ i ∈ Icc 1 n, signSum n x i * signSum n y i = 0 := by
    refine Finset.sum_eq_zero fun i hi => ?_
    rw [Finset.mem_Icc] at hi
    have : signSum n y i = 0 := by
      unfold signSum
      refine Finset.sum_eq_zero fun k hk => ?_
      rw [Finset.mem_Icc] at hk
      rw [h _ hk.1 hk.2, h _ hi.1 hi.2, sub_self]
      simp [sgn]
    rw [this, mul_zero]
  rw [a1, a2]; simp

/-- C205: a covariate that does not vary over the joint samples takes nothing away: s is Kendall's S of the response, and the
variance is the *untied* `n(n-1)(2n+5)/18`, whatever ties the response has. -/
theorem C205_constant_covariate (alpha : ℝ) (method : Method) (resp cov : List (Option ℝ)) (hl : resp.length = cov.length)
    (n : ℕ) (hn : 3 ≤ n) (τ : ℕ → ℕ) (hτ : Spec.JointTimes resp cov n τ) (x : ℕ → ℝ) (c : ℝ)
    (hx : ∀ i, 1 ≤ i → i ≤ n → resp.getD (τ i) none = some (x i)) (hc : ∀ i, 1 ≤ i → i ≤ n → cov.getD (τ i) none = some c) :
    ∃ r, partialTest E alpha method resp cov = some r ∧ r.s = some (score n x) ∧
      r.varS = some ((n : ℝ) * (n - 1) * (2 * n + 5) / 18) ∧
      r.z = .fin (score n x / Real.sqrt ((n : ℝ) * (n - 1) * (2 * n + 5) / 18)) := by
  obtain ⟨r, er, h1, h2, -, h4, -⟩ := C202_formula E alpha method resp cov hl n hn τ hτ x (fun _ => c) hx hc
  rw [dietzKilleen_eq_covForm, covForm_const n x c fun _ _ _ => rfl] at h1 h2
  simp only [zero_div, zero_mul, sub_zero, ne_eq, OfNat.ofNat_ne_zero, not_false_eq_true, zero_pow, one_mul] at h1 h2
  refine ⟨r, er, h1, h2, ?_⟩
  rcases C204_z E alpha method resp cov r er (by omega) with ⟨hv, -⟩ | ⟨s, v, es, ev, hv, ez, -⟩
  · rw [h2] at hv
    simp only [Option.some.injEq] at hv
    exact absurd hv (untied_pos hn).ne'
  · rw [h1] at es; rw [h2] at ev
    simp only [Option.some.injEq] at es ev
    rw [ez, ← es, ← ev]

/-- C205: a covariate that orders a tie-free response exactly as the response orders itself leaves nothing to test:
s = var_s = 0, z and p are NaN and h is False. -/
theorem C205_fully_explained (alpha : ℝ) (method : Method) (resp cov : List (Option ℝ)) (hl : resp.length = cov.length)
    (n : ℕ) (hn : 3 ≤ n) (τ : ℕ → ℕ) (hτ : Spec.JointTimes resp cov n τ) (x y : ℕ → ℝ)
    (hx : ∀ i, 1 ≤ i → i ≤ n → resp.getD (τ i) none = some (x i)) (hy : ∀ i, 1 ≤ i → i ≤ n → cov.getD (τ i) none = some (y i))
    (hd : ∀ i j, 1 ≤ i → i < j → j ≤ n → x i ≠ x j)
    (hord : ∀ i j, 1 ≤ i → i ≤ n → 1 ≤ j → j ≤ n → (x i < x j ↔ y i < y j)) :
    ∃ r, partialTest E alpha method resp cov = some r ∧ r.s = some 0 ∧ r.varS = some 0 ∧ r.z = .nan ∧ r.p = none ∧ r.h = false := by
  obtain ⟨r, er, h1, h2, -, h4, -⟩ := C202_formula E alpha method resp cov hl n hn τ hτ x y hx hy
  have hs : ∀ i j, 1 ≤ i → i ≤ n → 1 ≤ j → j ≤ n → sgn (y j - y i) = 1 * sgn (x j - x i) := by
    intro i j i1 i2 j1 j2
    have a1 := hord i j i1 i2 j1 j2
    have a2 := hord j i j1 j2 i1 i2
    rw [one_mul]
    unfold sgn
    rcases lt_trichotomy (x i) (x j) with h | h | h
    · rw [sign_pos (sub_pos.mpr h), sign_pos (sub_pos.mpr (a1.mp h))]
    · have : y i = y j := le_antisymm (not_lt.mp fun hh => by have := a2.mpr hh; linarith)
        (not_lt.mp fun hh => by have := a1.mpr hh; linarith)
      rw [h, this, sub_self, sub_self]
    · rw [sign_neg (sub_neg.mpr h), sign_neg (sub_neg.mpr (a2.mp h))]
  have hcv := covForm_signs (n := n) (x := x) (x' := x) (e := 1) (fun i j _ _ _ _ => (one_mul _).symm) hs
  have hyx := covForm_signs (n := n) (x := x) (x' := y) (e := 1) hs hs
  rw [dietzKilleen_eq_covForm, hcv.1, covForm_self, tieVariance_distinct n x hd, hyx.2] at h1
  rw [dietzKilleen_eq_covForm, hcv.1, covForm_self, tieVariance_distinct n x hd] at h2
  have hv := (untied_pos hn).ne'
  rw [one_mul, one_mul, div_self hv] at h2
  rw [one_mul, one_mul, div_self hv, one_mul, one_mul, sub_self] at h1
  have h2' : r.varS = some 0 := by rw [h2]; simp
  rcases C204_z E alpha method resp cov r er (by omega) with ⟨a, b, c, d, e⟩ | ⟨s, v, es, ev, hvp, -⟩
  · exact ⟨r, er, b, a, c, d, e⟩
  · rw [h2'] at ev
    simp only [Option.some.injEq] at ev
    exact absurd ev hvp.ne

end Skyborn.MK.Py
