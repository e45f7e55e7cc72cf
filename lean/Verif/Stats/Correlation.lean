/- C108-C110: `spatial_correlation`. -/
import Verif.Stats.Regression
import Mathlib.Data.Sign.Basic

namespace Skyborn.Stats
open scoped BigOperators Classical
open Spec

/-- The times at which both series have a value. -/
noncomputable def Spec.both (n : ℕ) (x y : ℕ → Option ℝ) : Finset ℕ := (Finset.range n).filter fun t => x t ≠ none ∧ y t ≠ none

/-- Two-sided p-value of a correlation coefficient `r` from `c` pairs, by Student's t with `c - 2` degrees of freedom. -/
noncomputable def Spec.pValue (tcdf : ℝ → ℕ → ℝ) (r : ℝ) (c : ℕ) : ℝ :=
  if |r| = 1 then 0 else 2 * (1 - tcdf (|r| * Real.sqrt (((c : ℝ) - 2) / (1 - r ^ 2))) (c - 2))

theorem pOf_eq (tcdf : ℝ → ℕ → ℝ) {r : ℝ} (hr : |r| ≤ 1) (c : ℕ) : pOf tcdf r c = Spec.pValue tcdf r c := by
  unfold pOf Spec.pValue
  rcases hr.lt_or_eq with h | h
  · rw [if_pos h, if_neg h.ne, abs_mul, abs_of_nonneg (Real.sqrt_nonneg _)]
  · rw [if_neg (by rw [h]; exact lt_irrefl _), if_pos h]

theorem sum_ind (n : ℕ) (c : ℕ → Prop) (f : ℕ → ℝ) : ∑ t ∈ Finset.range n, f t * ind (c t) = ∑ t ∈ (Finset.range n).filter c, f t := by
  rw [Finset.sum_filter]
  exact Finset.sum_congr rfl fun t _ => by unfold ind; split_ifs <;> simp

/-- What a successful call returns at one grid point. -/
theorem corr_point {tcdf : ℝ → ℕ → ℝ} {data : NDArr (Option ℝ)} {np : ℕ} {pred : ℕ → Option ℝ} {m : Maps}
    (e : spatialCorrelation tcdf data np pred = .ok m) :
    ∃ d1 d2, data.shape = [np, d1, d2] ∧ ∀ j k, j < d1 → k < d2 →
      let V := both np (fun t => data.get [t, j, k]) pred
      let x : ℕ → ℝ := fun t => (pred t).getD 0
      let y : ℕ → ℝ := fun t => (data.get [t, j, k]).getD 0
      let c := (¬ (hasNaN data ∨ ∃ t, t < np ∧ pred t = none) ∨ 3 ≤ V.card) ∧ Varies V x ∧ Varies V y
      m.coef j k = (if c then some (pearson V x y) else none) ∧
      m.pval j k = (if c then some (Spec.pValue tcdf (pearson V x y) V.card) else none) := by
  unfold spatialCorrelation at e
  match hs : data.shape with
  | [] => simp [hs] at e
  | n :: rest =>
    simp only [hs] at e
    by_cases hn : n ≠ np
    · rw [if_pos hn] at e; simp at e
    rw [if_neg hn] at e
    have hn' : n = np := not_not.mp hn
    subst hn'
    match rest, hs with
    | [], hs => simp at e
    | [_], hs => simp at e
    | _ :: _ :: _ :: _, hs => simp at e
    | [d1, d2], hs =>
      dsimp only at e
      refine ⟨d1, d2, rfl, fun j k hj hk => ?_⟩
      intro V x y c
      by_cases hN : hasNaN data ∨ ∃ t, t < n ∧ pred t = none
      · rw [if_pos hN] at e
        simp only [Except.ok.injEq] at e
        subst e
        have hV : ((Finset.range n).filter fun t => (data.get [t, j, k]).isSome ∧ (pred t).isSome) = V := by
          apply Finset.filter_congr
          intro t _
          rw [Option.isSome_iff_ne_none, Option.isSome_iff_ne_none]
        have mul_ind : ∀ (p q : ℝ) (b : Prop), p * ind b * (q * ind b) = p * q * ind b := by
          intro p q b; unfold ind; split_ifs <;> ring
        have sq_ind : ∀ (p : ℝ) (b : Prop), (p * ind b) ^ 2 = p * p * ind b := by
          intro p b; unfold ind; split_ifs <;> ring
        simp only [mul_ind, sq_ind]
        have si : ∀ f : ℕ → ℝ, ∑ t ∈ Finset.range n, f t * ind ((data.get [t, j, k]).isSome = true ∧ (pred t).isSome = true) = ∑ t ∈ V, f t := by
          intro f
          rw [sum_ind n (fun t => (data.get [t, j, k]).isSome = true ∧ (pred t).isSome = true), ← hV]
          congr!
        simp only [si, hV]
        have m1 : (if V.card > 0 then (∑ t ∈ V, (pred t).getD 0) / (V.card : ℝ) else 0) = avg V x := by
          split_ifs with h
          · rfl
          · have : V.card = 0 := by omega
            unfold avg; rw [this]; simp
        have m2 : (if V.card > 0 then (∑ t ∈ V, (data.get [t, j, k]).getD 0) / (V.card : ℝ) else 0) = avg V y := by
          split_ifs with h
          · rfl
          · have : V.card = 0 := by omega
            unfold avg; rw [this]; simp
        simp only [m1, m2]
        change (if cov V x x > 0 ∧ cov V y y > 0 ∧ V.card ≥ 3 then some (pearson V x y) else none) = _ ∧
          (if cov V x x > 0 ∧ cov V y y > 0 ∧ V.card ≥ 3 then some (pOf tcdf (pearson V x y) V.card) else none) = _
        have hc : (cov V x x > 0 ∧ cov V y y > 0 ∧ V.card ≥ 3) ↔ c := by
          simp only [c, gt_iff_lt, cov_self_pos_iff, ge_iff_le, hN, not_true_eq_false, false_or]
          tauto
        simp only [hc, pOf_eq tcdf pearson_abs_le]
        exact ⟨trivial, trivial⟩
      · rw [if_neg hN] at e
        simp only [Except.ok.injEq] at e
        subst e
        have i1 : (j * d2 + k) / d2 = j := by
          have : 0 < d2 := by omega
          rw [mul_comm, Nat.mul_add_div this, Nat.div_eq_of_lt hk, add_zero]
        have i2 : (j * d2 + k) % d2 = k := by rw [mul_comm, Nat.mul_add_mod, Nat.mod_eq_of_lt hk]
        have hV : V = Finset.range n := by
          apply Finset.filter_true_of_mem
          intro t ht
          have ht := Finset.mem_range.mp ht
          constructor
          · intro h0; exact hN (Or.inl ⟨[t, j, k], by rw [hs]; exact ⟨ht, hj, hk, trivial⟩, h0⟩)
          · intro h0; exact hN (Or.inr ⟨t, ht, h0⟩)
        simp only [i1, i2]
        have a1 : (∑ t ∈ Finset.range n, (pred t).getD 0) / (n : ℝ) = avg V x := by rw [hV]; unfold avg; rw [Finset.card_range]
        have a2 : (∑ t ∈ Finset.range n, (data.get [t, j, k]).getD 0) / (n : ℝ) = avg V y := by rw [hV]; unfold avg; rw [Finset.card_range]
        simp only [a1, a2, pow_two]
        have hcard : n = V.card := by rw [hV, Finset.card_range]
        simp only [← hV]
        change (if cov V x x > 0 ∧ cov V y y > 0 then some (pearson V x y) else none) = _ ∧
          (if cov V x x > 0 ∧ cov V y y > 0 then some (pOf tcdf (pearson V x y) n) else none) = _
        have hc : (cov V x x > 0 ∧ cov V y y > 0) ↔ c := by
          simp only [c, gt_iff_lt, cov_self_pos_iff, hN, not_false_eq_true, true_or, true_and]
        simp only [hc, pOf_eq tcdf pearson_abs_le, ← hcard]
        exact ⟨trivial, trivial⟩

/-- C108: with at least three time steps the value at a grid point is Pearson's correlation over the times at which both the grid point and
the predictor have a value, provided there are at least three such times and both series vary there; otherwise it is missing. The p-value is
the two-sided p-value of that coefficient. -/
theorem C108_pearson {tcdf : ℝ → ℕ → ℝ} {data : NDArr (Option ℝ)} {n d1 d2 np : ℕ} {pred : ℕ → Option ℝ} {m : Maps}
    (hs : data.shape = [n, d1, d2]) (hn : 3 ≤ n) (e : spatialCorrelation tcdf data np pred = .ok m) {j k : ℕ} (hj : j < d1) (hk : k < d2)
    {x y : ℕ → ℝ} {V : Finset ℕ} (hV : V = both n (fun t => data.get [t, j, k]) pred) (hx : ∀ t ∈ V, pred t = some (x t))
    (hy : ∀ t ∈ V, data.get [t, j, k] = some (y t)) :
    (3 ≤ V.card ∧ Varies V x ∧ Varies V y → m.coef j k = some (pearson V x y) ∧ m.pval j k = some (Spec.pValue tcdf (pearson V x y) V.card)) ∧
    (¬ (3 ≤ V.card ∧ Varies V x ∧ Varies V y) → m.coef j k = none ∧ m.pval j k = none) := by
  obtain ⟨u1, u2, hu, h⟩ := corr_point e
  rw [hs] at hu
  simp only [List.cons.injEq, and_true] at hu
  obtain ⟨rfl, rfl, rfl⟩ := hu
  have h1 := h j k hj hk
  dsimp only at h1
  rw [← hV] at h1
  have ex : ∀ t ∈ V, (pred t).getD 0 = x t := fun t ht => by rw [hx t ht]; rfl
  have ey : ∀ t ∈ V, (data.get [t, j, k]).getD 0 = y t := fun t ht => by rw [hy t ht]; rfl
  have vx : Varies V (fun t => (pred t).getD 0) ↔ Varies V x := by
    constructor
    · rintro ⟨s, hs, t, ht, h⟩; exact ⟨s, hs, t, ht, by rw [← ex s hs, ← ex t ht]; exact h⟩
    · rintro ⟨s, hs, t, ht, h⟩; exact ⟨s, hs, t, ht, by dsimp only; rw [ex s hs, ex t ht]; exact h⟩
  have vy : Varies V (fun t => (data.get [t, j, k]).getD 0) ↔ Varies V y := by
    constructor
    · rintro ⟨s, hs, t, ht, h⟩; exact ⟨s, hs, t, ht, by rw [← ey s hs, ← ey t ht]; exact h⟩
    · rintro ⟨s, hs, t, ht, h⟩; exact ⟨s, hs, t, ht, by dsimp only; rw [ey s hs, ey t ht]; exact h⟩
  have ep : pearson V (fun t => (pred t).getD 0) (fun t => (data.get [t, j, k]).getD 0) = pearson V x y := by
    unfold pearson; rw [cov_congr ex ey, cov_congr ex ex, cov_congr ey ey]
  have hc : ((¬ (hasNaN data ∨ ∃ t, t < n ∧ pred t = none) ∨ 3 ≤ V.card) ∧ Varies V (fun t => (pred t).getD 0) ∧
      Varies V (fun t => (data.get [t, j, k]).getD 0)) ↔ 3 ≤ V.card ∧ Varies V x ∧ Varies V y := by
    rw [vx, vy]
    constructor
    · rintro ⟨h | h, h2⟩
      · refine ⟨?_, h2⟩
        have : V = Finset.range n := by
          rw [hV]
          apply Finset.filter_true_of_mem
          intro t ht
          have ht := Finset.mem_range.mp ht
          exact ⟨fun h0 => h (Or.inl ⟨[t, j, k], by rw [hs]; exact ⟨ht, hj, hk, trivial⟩, h0⟩), fun h0 => h (Or.inr ⟨t, ht, h0⟩)⟩
        rw [this, Finset.card_range]; exact hn
      · exact ⟨h, h2⟩
    · rintro ⟨h, h2⟩; exact ⟨Or.inr h, h2⟩
  constructor
  · intro h2
    rw [if_pos (hc.mpr h2), if_pos (hc.mpr h2), ep] at h1
    exact h1
  · intro h2
    rw [if_neg (fun h3 => h2 (hc.mp h3)), if_neg (fun h3 => h2 (hc.mp h3))] at h1
    exact h1

/-- C109: every coefficient reported lies between -1 and 1, every p-value between 0 and 1 (for a cdf that is between 1/2 and 1 on the
non-negative numbers), and a coefficient is reported together with a p-value. -/
theorem C109_range {tcdf : ℝ → ℕ → ℝ} (ht : ∀ x d, 0 ≤ x → 1 / 2 ≤ tcdf x d ∧ tcdf x d ≤ 1) {data : NDArr (Option ℝ)} {n d1 d2 np : ℕ}
    {pred : ℕ → Option ℝ} {m : Maps} (hs : data.shape = [n, d1, d2]) (e : spatialCorrelation tcdf data np pred = .ok m) {j k : ℕ}
    (hj : j < d1) (hk : k < d2) :
    (∀ r, m.coef j k = some r → -1 ≤ r ∧ r ≤ 1) ∧ (∀ p, m.pval j k = some p → 0 ≤ p ∧ p ≤ 1) ∧
      ((∃ r, m.coef j k = some r) ↔ ∃ p, m.pval j k = some p) := by
  obtain ⟨u1, u2, hu, h⟩ := corr_point e
  rw [hs] at hu
  simp only [List.cons.injEq, and_true] at hu
  obtain ⟨rfl, rfl, rfl⟩ := hu
  obtain ⟨h1, h2⟩ := h j k hj hk
  rw [h1, h2]
  have hp : ∀ r : ℝ, ∀ c, 0 ≤ Spec.pValue tcdf r c ∧ Spec.pValue tcdf r c ≤ 1 := by
    intro r c
    unfold Spec.pValue
    split_ifs
    · exact ⟨le_rfl, zero_le_one⟩
    · obtain ⟨a, b⟩ := ht (|r| * Real.sqrt (((c : ℝ) - 2) / (1 - r ^ 2))) (c - 2) (mul_nonneg (abs_nonneg _) (Real.sqrt_nonneg _))
      constructor <;> linarith
  refine ⟨?_, ?_, ?_⟩
  · intro r hr
    split_ifs at hr
    simp only [Option.some.injEq] at hr
    rw [← hr]
    exact abs_le.mp pearson_abs_le
  · intro p hr
    split_ifs at hr
    simp only [Option.some.injEq] at hr
    rw [← hr]
    exact hp _ _
  · split_ifs <;> simp

/-- The coefficient is unchanged, up to the sign of the product of the factors, when either series is rescaled and shifted. -/
theorem pearson_affine {V : Finset ℕ} (x y : ℕ → ℝ) {a c : ℝ} (ha : a ≠ 0) (hc : c ≠ 0) (b d : ℝ) :
    pearson V (fun t => a * x t + b) (fun t => c * y t + d) = (if 0 < a * c then 1 else -1) * pearson V x y := by
  unfold pearson
  rw [cov_affine, cov_affine_right, cov_affine, cov_affine_right, cov_affine, cov_affine_right]
  have e : a * (a * cov V x x) * (c * (c * cov V y y)) = (a * c) ^ 2 * (cov V x x * cov V y y) := by ring
  rw [e, Real.sqrt_mul (sq_nonneg _), Real.sqrt_sq_eq_abs]
  have hac : a * c ≠ 0 := mul_ne_zero ha hc
  split_ifs with h
  · rw [abs_of_pos h, one_mul, show a * (c * cov V x y) = a * c * cov V x y by ring, mul_div_mul_left _ _ hac]
  · have h' : a * c < 0 := lt_of_le_of_ne (not_lt.mp h) hac
    rw [abs_of_neg h', show a * (c * cov V x y) = -(a * c) * -cov V x y by ring, mul_div_mul_left _ _ (neg_ne_zero.mpr hac)]
    ring

/-- C109: rescaling and shifting the predictor and the data (`a, c ≠ 0`, e.g. a change of units) changes no coefficient except for its sign
when `a` and `c` have opposite signs, and changes no p-value. -/
theorem C109_units {tcdf : ℝ → ℕ → ℝ} {data data' : NDArr (Option ℝ)} {n d1 d2 np : ℕ}
    {pred pred' : ℕ → Option ℝ} {m m' : Maps} (hs : data.shape = [n, d1, d2]) (hs' : data'.shape = [n, d1, d2])
    {a b c d : ℝ} (ha : a ≠ 0) (hc : c ≠ 0) (hp : ∀ t, t < n → pred' t = (pred t).map fun v => a * v + b)
    (hd : ∀ idx, InB [n, d1, d2] idx → data'.get idx = (data.get idx).map fun v => c * v + d)
    (e : spatialCorrelation tcdf data np pred = .ok m) (e' : spatialCorrelation tcdf data' np pred' = .ok m') {j k : ℕ} (hj : j < d1) (hk : k < d2) :
    m'.coef j k = (m.coef j k).map (fun r => (if 0 < a * c then 1 else -1) * r) ∧ m'.pval j k = m.pval j k := by
  obtain ⟨u1, u2, hu, h⟩ := corr_point e
  obtain ⟨v1, v2, hv, h'⟩ := corr_point e'
  rw [hs] at hu; rw [hs'] at hv
  simp only [List.cons.injEq, and_true] at hu hv
  obtain ⟨rfl, rfl, rfl⟩ := hu
  obtain ⟨-, rfl, rfl⟩ := hv
  obtain ⟨h1, h2⟩ := h j k hj hk
  obtain ⟨g1, g2⟩ := h' j k hj hk
  have hd' : ∀ t, t < n → data'.get [t, j, k] = (data.get [t, j, k]).map fun v => c * v + d :=
    fun t ht => hd _ ⟨ht, hj, hk, trivial⟩
  have eV : both n (fun t => data'.get [t, j, k]) pred' = both n (fun t => data.get [t, j, k]) pred := by
    apply Finset.filter_congr
    intro t ht
    have ht := Finset.mem_range.mp ht
    dsimp only
    rw [hd' t ht, hp t ht]
    simp
  have eN : (hasNaN data' ∨ ∃ t, t < n ∧ pred' t = none) ↔ (hasNaN data ∨ ∃ t, t < n ∧ pred t = none) := by
    have n1 : hasNaN data' ↔ hasNaN data := by
      unfold hasNaN
      rw [hs, hs']
      constructor
      · rintro ⟨i, hi, h0⟩; rw [hd i hi] at h0; exact ⟨i, hi, by simpa using h0⟩
      · rintro ⟨i, hi, h0⟩; exact ⟨i, hi, by rw [hd i hi, h0]; rfl⟩
    have n2 : (∃ t, t < n ∧ pred' t = none) ↔ ∃ t, t < n ∧ pred t = none := by
      constructor
      · rintro ⟨i, hi, h0⟩; rw [hp i hi] at h0; exact ⟨i, hi, by simpa using h0⟩
      · rintro ⟨i, hi, h0⟩; exact ⟨i, hi, by rw [hp i hi, h0]; rfl⟩
    rw [n1, n2]
  rw [eV] at g1 g2
  set V := both n (fun t => data.get [t, j, k]) pred with hV
  have mem : ∀ t ∈ V, t < n ∧ data.get [t, j, k] ≠ none ∧ pred t ≠ none := by
    intro t ht
    rw [hV] at ht
    have := Finset.mem_filter.mp ht
    exact ⟨Finset.mem_range.mp this.1, this.2⟩
  have ex : ∀ t ∈ V, (pred' t).getD 0 = a * (pred t).getD 0 + b := by
    intro t ht
    obtain ⟨h1, h2, h3⟩ := mem t ht
    obtain ⟨v, hv⟩ := Option.ne_none_iff_exists'.mp h3
    rw [hp t h1, hv]; rfl
  have ey : ∀ t ∈ V, (data'.get [t, j, k]).getD 0 = c * (data.get [t, j, k]).getD 0 + d := by
    intro t ht
    obtain ⟨h1, h2, h3⟩ := mem t ht
    obtain ⟨v, hv⟩ := Option.ne_none_iff_exists'.mp h2
    rw [hd' t h1, hv]; rfl
  have var : ∀ (f g : ℕ → ℝ) (a b : ℝ), a ≠ 0 → (∀ t ∈ V, g t = a * f t + b) → (Varies V g ↔ Varies V f) := by
    intro f g a b ha hfg
    constructor
    · rintro ⟨s, hs, t, ht, h⟩
      refine ⟨s, hs, t, ht, fun h0 => h ?_⟩
      rw [hfg s hs, hfg t ht, h0]
    · rintro ⟨s, hs, t, ht, h⟩
      refine ⟨s, hs, t, ht, fun h0 => h ?_⟩
      rw [hfg s hs, hfg t ht] at h0
      exact mul_left_cancel₀ ha (by linarith)
  simp only [var _ _ a b ha ex, var _ _ c d hc ey, eN] at g1 g2
  have ep : pearson V (fun t => (pred' t).getD 0) (fun t => (data'.get [t, j, k]).getD 0) =
      (if 0 < a * c then 1 else -1) * pearson V (fun t => (pred t).getD 0) (fun t => (data.get [t, j, k]).getD 0) := by
    rw [← pearson_affine _ _ ha hc b d]
    unfold pearson; rw [cov_congr ex ey, cov_congr ex ex, cov_congr ey ey]
  rw [ep] at g1 g2
  rw [g1, g2, h1, h2]
  constructor
  · split_ifs <;> simp
  · have : ∀ r : ℝ, ∀ c', Spec.pValue tcdf ((if 0 < a * c then 1 else -1) * r) c' = Spec.pValue tcdf r c' := by
      intro r c'
      unfold Spec.pValue
      split_ifs <;> simp_all
    rw [this]

/-- C109: the coefficient is 1 exactly for an increasing straight-line relation, -1 exactly for a decreasing one. -/
theorem C109_perfect {V : Finset ℕ} {x y : ℕ → ℝ} (hx : Varies V x) (hy : Varies V y) :
    (pearson V x y = 1 ↔ ∃ a b, 0 < a ∧ ∀ t ∈ V, y t = a * x t + b) ∧ (pearson V x y = -1 ↔ ∃ a b, a < 0 ∧ ∀ t ∈ V, y t = a * x t + b) := by
  have px := cov_self_pos_iff.mpr hx
  have py := cov_self_pos_iff.mpr hy
  have hs := Real.sqrt_pos.mpr (mul_pos px py)
  have back : ∀ a b : ℝ, a ≠ 0 → (∀ t ∈ V, y t = a * x t + b) → pearson V x y = if 0 < a then 1 else -1 := by
    intro a b ha h
    have e : pearson V x y = pearson V (fun t => 1 * x t + 0) (fun t => a * x t + b) := by
      have h1 : ∀ t ∈ V, x t = 1 * x t + 0 := fun t _ => by ring
      unfold pearson
      rw [cov_congr h1 h, cov_congr h1 h1, cov_congr h h]
    rw [e, pearson_affine x x one_ne_zero ha, one_mul]
    have : pearson V x x = 1 := by
      unfold pearson
      rw [Real.sqrt_mul_self px.le, div_self px.ne']
    rw [this, mul_one]
  have fwd : pearson V x y ^ 2 = 1 → ∀ t ∈ V, y t = cov V x y / cov V x x * x t + (avg V y - cov V x y / cov V x x * avg V x) := by
    intro h
    have h1 : cov V x y ^ 2 = cov V x x * cov V y y := by
      unfold pearson at h
      rw [div_pow, Real.sq_sqrt (mul_pos px py).le, div_eq_one_iff_eq (mul_pos px py).ne'] at h
      exact h
    have h2 : ∑ t ∈ V, ((y t - avg V y) - cov V x y / cov V x x * (x t - avg V x)) ^ 2 = 0 := by
      have : ∑ t ∈ V, ((y t - avg V y) - cov V x y / cov V x x * (x t - avg V x)) ^ 2 =
          cov V y y - 2 * (cov V x y / cov V x x) * cov V x y + (cov V x y / cov V x x) ^ 2 * cov V x x := by
        generalize cov V x y / cov V x x = s
        unfold cov
        simp only [Finset.mul_sum, ← Finset.sum_add_distrib, ← Finset.sum_sub_distrib]
        exact Finset.sum_congr rfl fun t _ => by ring
      rw [this]
      have h3 : cov V y y = cov V x y ^ 2 / cov V x x := by rw [h1]; field_simp
      rw [h3]; field_simp; ring
    intro t ht
    have h3 := (Finset.sum_eq_zero_iff_of_nonneg fun t _ => sq_nonneg _).mp h2 t ht
    have := pow_eq_zero_iff two_ne_zero |>.mp h3
    linarith
  have sgn : cov V x y = pearson V x y * Real.sqrt (cov V x x * cov V y y) := by unfold pearson; field_simp
  constructor
  · constructor
    · intro h
      refine ⟨_, _, ?_, fwd (by rw [h]; norm_num)⟩
      rw [sgn, h, one_mul]; exact div_pos hs px
    · rintro ⟨a, b, ha, h⟩
      rw [back a b ha.ne' h, if_pos ha]
  · constructor
    · intro h
      refine ⟨_, _, ?_, fwd (by rw [h]; norm_num)⟩
      rw [sgn, h]
      exact div_neg_of_neg_of_pos (by linarith) px
    · rintro ⟨a, b, ha, h⟩
      rw [back a b ha.ne h, if_neg (not_lt.mpr ha.le)]

/-- A call on three-dimensional data of matching length succeeds. -/
theorem corr_ok {tcdf : ℝ → ℕ → ℝ} {data : NDArr (Option ℝ)} {n d1 d2 : ℕ} (hs : data.shape = [n, d1, d2]) (pred : ℕ → Option ℝ) :
    ∃ m, spatialCorrelation tcdf data n pred = .ok m := by
  unfold spatialCorrelation
  simp only [hs, ne_eq, not_true_eq_false, if_false]
  split_ifs <;> exact ⟨_, rfl⟩

/-- hypotheses of C108/C109 are met, with a missing sample -/
example : ∃ m, spatialCorrelation (fun _ _ => 3 / 4) ⟨[4, 1, 1], fun i => if i = [1, 0, 0] then none else some (i.sum : ℝ)⟩ 4 (fun t => some ((t : ℝ) ^ 2)) = .ok m ∧
    3 ≤ (both 4 (fun t => (if [t, 0, 0] = [1, 0, 0] then none else some (([t, 0, 0] : List ℕ).sum : ℝ))) (fun t => some ((t : ℝ) ^ 2))).card := by
  obtain ⟨m, hm⟩ := corr_ok (tcdf := fun _ _ => 3 / 4) (data := ⟨[4, 1, 1], fun i => if i = [1, 0, 0] then none else some (i.sum : ℝ)⟩) rfl (fun t => some ((t : ℝ) ^ 2))
  refine ⟨m, hm, ?_⟩
  have : ({0, 2, 3} : Finset ℕ) ⊆ both 4 (fun t => (if [t, 0, 0] = [1, 0, 0] then none else some (([t, 0, 0] : List ℕ).sum : ℝ))) (fun t => some ((t : ℝ) ^ 2)) := by
    intro t ht
    simp only [Finset.mem_insert, Finset.mem_singleton] at ht
    unfold both
    rw [Finset.mem_filter]
    rcases ht with rfl | rfl | rfl <;> simp
  calc 3 = ({0, 2, 3} : Finset ℕ).card := rfl
    _ ≤ _ := Finset.card_le_card this

/-! ### C110 -/

/-- C110: with at least three time steps the results at a grid point depend on nothing but its own series and the predictor. -/
theorem C110_local_partial {tcdf : ℝ → ℕ → ℝ} {data data' : NDArr (Option ℝ)} {n d1 d2 d1' d2' np : ℕ} {pred : ℕ → Option ℝ} {m m' : Maps}
    (hn : 3 ≤ n) (hs : data.shape = [n, d1, d2]) (hs' : data'.shape = [n, d1', d2']) (e : spatialCorrelation tcdf data np pred = .ok m)
    (e' : spatialCorrelation tcdf data' np pred = .ok m') {j k j' k' : ℕ} (hj : j < d1) (hk : k < d2) (hj' : j' < d1') (hk' : k' < d2')
    (h : ∀ t, t < n → data.get [t, j, k] = data'.get [t, j', k']) : m.coef j k = m'.coef j' k' ∧ m.pval j k = m'.pval j' k' := by
  have eV : both n (fun t => data.get [t, j, k]) pred = both n (fun t => data'.get [t, j', k']) pred := by
    apply Finset.filter_congr
    intro t ht
    dsimp only
    rw [h t (Finset.mem_range.mp ht)]
  have mem : ∀ t ∈ both n (fun t => data.get [t, j, k]) pred, t < n ∧ data.get [t, j, k] ≠ none ∧ pred t ≠ none := by
    intro t ht
    have := Finset.mem_filter.mp ht
    exact ⟨Finset.mem_range.mp this.1, this.2⟩
  have hx : ∀ t ∈ both n (fun t => data.get [t, j, k]) pred, pred t = some ((pred t).getD 0) := by
    intro t ht
    obtain ⟨v, hv⟩ := Option.ne_none_iff_exists'.mp (mem t ht).2.2
    rw [hv]; rfl
  have hy : ∀ t ∈ both n (fun t => data.get [t, j, k]) pred, data.get [t, j, k] = some ((data.get [t, j, k]).getD 0) := by
    intro t ht
    obtain ⟨v, hv⟩ := Option.ne_none_iff_exists'.mp (mem t ht).2.1
    rw [hv]; rfl
  have a := C108_pearson hs hn e hj hk rfl hx hy
  have b := C108_pearson hs' hn e' hj' hk' eV hx (fun t ht => by rw [← h t (mem t ht).1]; exact hy t ht)
  by_cases hc : 3 ≤ (both n (fun t => data.get [t, j, k]) pred).card ∧ Varies (both n (fun t => data.get [t, j, k]) pred) (fun t => (pred t).getD 0) ∧
      Varies (both n (fun t => data.get [t, j, k]) pred) (fun t => (data.get [t, j, k]).getD 0)
  · obtain ⟨a1, a2⟩ := a.1 hc
    obtain ⟨b1, b2⟩ := b.1 hc
    rw [a1, a2, b1, b2]; exact ⟨rfl, rfl⟩
  · obtain ⟨a1, a2⟩ := a.2 hc
    obtain ⟨b1, b2⟩ := b.2 hc
    rw [a1, a2, b1, b2]; exact ⟨rfl, rfl⟩

/-- C110 fails for two time steps: a complete grid point has coefficient 1, but a missing value at another grid point turns it into missing. -/
theorem C110_local_false (tcdf : ℝ → ℕ → ℝ) : ∃ (data data' : NDArr (Option ℝ)) (pred : ℕ → Option ℝ) (m m' : Maps),
    data.shape = [2, 1, 2] ∧ data'.shape = [2, 1, 2] ∧ (∀ t, t < 2 → data.get [t, 0, 0] = data'.get [t, 0, 0]) ∧
    spatialCorrelation tcdf data 2 pred = .ok m ∧ spatialCorrelation tcdf data' 2 pred = .ok m' ∧ m.coef 0 0 = some 1 ∧ m'.coef 0 0 = none := by
  obtain ⟨m, hm⟩ := corr_ok (tcdf := tcdf) (data := ⟨[2, 1, 2], fun i => some ((i.headD 0 : ℕ) : ℝ)⟩) rfl (fun t => some (t : ℝ))
  obtain ⟨m', hm'⟩ := corr_ok (tcdf := tcdf) (data := ⟨[2, 1, 2], fun i => if i = [0, 0, 1] then none else some ((i.headD 0 : ℕ) : ℝ)⟩) rfl (fun t => some (t : ℝ))
  have hb : ∀ f : ℕ → Option ℝ, (∀ t, f t ≠ none) → both 2 f (fun t => some (t : ℝ)) = Finset.range 2 := by
    intro f hf
    apply Finset.filter_true_of_mem
    intro t _
    exact ⟨hf t, by simp⟩
  have hv : Varies (Finset.range 2) (fun t => (t : ℝ)) := ⟨0, by simp, 1, by simp, by simp⟩
  refine ⟨_, _, _, m, m', rfl, rfl, fun t _ => ?_, hm, hm', ?_, ?_⟩
  · simp
  · obtain ⟨u1, u2, hu, h⟩ := corr_point hm
    simp only [List.cons.injEq, and_true, true_and] at hu
    obtain ⟨rfl, rfl⟩ := hu
    have h1 := (h 0 0 (by norm_num) (by norm_num)).1
    dsimp only at h1
    rw [hb _ (by intro t; simp)] at h1
    rw [h1, if_pos ?_]
    · refine congrArg some ((C109_perfect (x := fun t => (t : ℝ)) (y := fun t => (t : ℝ)) hv hv).1.mpr ⟨1, 0, one_pos, fun t _ => by ring⟩)
    · refine ⟨Or.inl ?_, hv, hv⟩
      rintro (⟨i, -, h0⟩ | ⟨t, -, h0⟩) <;> simp at h0
  · obtain ⟨u1, u2, hu, h⟩ := corr_point hm'
    simp only [List.cons.injEq, and_true, true_and] at hu
    obtain ⟨rfl, rfl⟩ := hu
    have h1 := (h 0 0 (by norm_num) (by norm_num)).1
    dsimp only at h1
    rw [h1, if_neg]
    rintro ⟨h2 | h2, -⟩
    · exact h2 (Or.inl ⟨[0, 0, 1], by simp [InB], by simp⟩)
    · have : (both 2 (fun t => if [t, 0, 0] = [0, 0, 1] then none else some (([t, 0, 0].headD 0 : ℕ) : ℝ)) (fun t => some (t : ℝ))).card ≤ 2 := by
        calc _ ≤ (Finset.range 2).card := Finset.card_filter_le _ _
          _ = 2 := rfl
      omega

end Skyborn.Stats
