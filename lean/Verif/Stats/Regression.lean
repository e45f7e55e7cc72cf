/- C104-C107: `linear_regression`. -/
import Verif.Stats.Model
import Verif.Stats.Spec
import Mathlib.Tactic.NormNum
import Mathlib.Tactic.IntervalCases

namespace Skyborn.Stats
open scoped BigOperators Classical
open Spec

/-- What `np.linalg.lstsq` guarantees for one column: a least-squares solution that depends on nothing but the `n` samples. -/
structure Spec.LeastSquares (ls : ℕ → (ℕ → ℝ) → (ℕ → ℝ) → ℝ × ℝ) : Prop where
  optimal : ∀ n x y a b, sse (Finset.range n) x y (ls n x y).1 (ls n x y).2 ≤ sse (Finset.range n) x y a b
  samples : ∀ n x y x' y', (∀ t, t < n → x t = x' t) → (∀ t, t < n → y t = y' t) → ls n x y = ls n x' y'

/-- `f_regression` depends on nothing but the `n` samples. -/
def Spec.OnSamples (fp : ℕ → (ℕ → ℝ) → (ℕ → ℝ) → Option ℝ) : Prop :=
  ∀ n x y x' y', (∀ t, t < n → x t = x' t) → (∀ t, t < n → y t = y' t) → fp n x y = fp n x' y'

/-- The least-squares contract can be met. -/
theorem leastSquares_exists : ∃ ls, Spec.LeastSquares ls := by
  refine ⟨fun n x y => (cov (Finset.range n) x y / cov (Finset.range n) x x,
    avg (Finset.range n) y - cov (Finset.range n) x y / cov (Finset.range n) x x * avg (Finset.range n) x), ?_, ?_⟩
  · intro n x y a b
    rcases (Finset.range n).eq_empty_or_nonempty with h | h
    · simp [sse, h]
    · refine sse_min h ?_ a b
      rcases (cov_self_nonneg (V := Finset.range n) (x := x)).lt_or_eq with h1 | h1
      · exact Or.inl h1.ne'
      · right
        intro t ht s hs
        by_contra hc
        exact absurd (cov_self_pos_iff.mpr ⟨s, hs, t, ht, hc⟩) (by rw [← h1]; exact lt_irrefl _)
  · intro n x y x' y' hx hy
    have hx' : ∀ t ∈ Finset.range n, x t = x' t := fun t ht => hx t (Finset.mem_range.mp ht)
    have hy' : ∀ t ∈ Finset.range n, y t = y' t := fun t ht => hy t (Finset.mem_range.mp ht)
    rw [cov_congr hx' hy', cov_congr hx' hx', avg_congr hx', avg_congr hy']

variable {ls : ℕ → (ℕ → ℝ) → (ℕ → ℝ) → ℝ × ℝ} {fp : ℕ → (ℕ → ℝ) → (ℕ → ℝ) → Option ℝ}

/-- What a successful call returns at one grid point. -/
theorem linreg_point (hl : LeastSquares ls) (hf : OnSamples fp) {data : NDArr (Option ℝ)} {np : ℕ} {pred : ℕ → Option ℝ} {m : Maps}
    {after : NDArr (Option ℝ)} (e : linearRegression ls fp data np pred = (.ok m, after)) :
    ∃ d1 d2, data.shape = [np, d1, d2] ∧ ∀ j k, j < d1 → k < d2 →
      if ∃ t, t < np ∧ data.get [t, j, k] = none then m.coef j k = none ∧ m.pval j k = none
      else m.coef j k = some (ls np (fun t => (pred t).getD 0) (fun t => (data.get [t, j, k]).getD 0)).1 ∧
        m.pval j k = fp np (fun t => (data.get [t, j, k]).getD 0) (fun t => (pred t).getD 0) := by
  unfold linearRegression at e
  match hs : data.shape with
  | [] => simp [hs] at e
  | n :: rest =>
    simp only [hs] at e
    by_cases hn : n ≠ np
    · rw [if_pos hn] at e; simp at e
    rw [if_neg hn] at e
    have hn' : n = np := not_not.mp hn
    subst hn'
    have idx : ∀ d2 j k : ℕ, k < d2 → (j * d2 + k) / d2 = j ∧ (j * d2 + k) % d2 = k := by
      intro d2 j k hk
      have : 0 < d2 := by omega
      constructor
      · rw [mul_comm, Nat.mul_add_div this, Nat.div_eq_of_lt hk, add_zero]
      · rw [mul_comm, Nat.mul_add_mod, Nat.mod_eq_of_lt hk]
    by_cases hN : hasNaN data ∨ ∃ t, t < n ∧ pred t = none
    · rw [if_pos hN] at e
      match rest, hs with
      | [d1, d2], hs =>
        simp only [Prod.mk.injEq, Except.ok.injEq] at e
        obtain ⟨e1, -⟩ := e
        subst e1
        refine ⟨d1, d2, rfl, fun j k hj hk => ?_⟩
        by_cases hb : ∃ t, t < n ∧ data.get [t, j, k] = none
        · rw [if_pos hb]; exact ⟨if_pos hb, if_pos hb⟩
        · rw [if_neg hb]
          dsimp only
          rw [if_neg hb, if_neg hb]
          obtain ⟨i1, i2⟩ := idx d2 j k hk
          simp only [i1, i2]
          simp [zeroFilled]
      | [], hs => simp at e
      | [_], hs => simp at e
      | _ :: _ :: _ :: _, hs => simp at e
    · rw [if_neg hN] at e
      match rest, hs with
      | [d1, d2], hs =>
        simp only [Prod.mk.injEq, Except.ok.injEq] at e
        obtain ⟨e1, -⟩ := e
        subst e1
        refine ⟨d1, d2, rfl, fun j k hj hk => ?_⟩
        have hb : ¬ ∃ t, t < n ∧ data.get [t, j, k] = none := by
          rintro ⟨t, ht, h⟩
          exact hN (Or.inl ⟨[t, j, k], by rw [hs]; exact ⟨ht, hj, hk, trivial⟩, h⟩)
        rw [if_neg hb]
        obtain ⟨i1, i2⟩ := idx d2 j k hk
        simp only [i1, i2, and_self]
      | [], hs => simp at e
      | [_], hs => simp at e
      | _ :: _ :: _ :: _, hs => simp at e

/-- C104: at a grid point without missing data, and with a complete predictor, the coefficient is the slope of a least-squares line of the
grid point's own series on the predictor; when the predictor varies it is the textbook slope. Missing values elsewhere do not matter. -/
theorem C104_slope (hl : LeastSquares ls) (hf : OnSamples fp) {data : NDArr (Option ℝ)} {n d1 d2 : ℕ} (hs : data.shape = [n, d1, d2])
    {np : ℕ} {x : ℕ → ℝ} {m : Maps} {after : NDArr (Option ℝ)}
    (e : linearRegression ls fp data np (fun t => some (x t)) = (.ok m, after)) {j k : ℕ} (hj : j < d1) (hk : k < d2)
    {y : ℕ → ℝ} (hy : ∀ t, t < n → data.get [t, j, k] = some (y t)) :
    ∃ a b, m.coef j k = some a ∧ (∀ a' b', sse (Finset.range n) x y a b ≤ sse (Finset.range n) x y a' b') ∧
      (Varies (Finset.range n) x → a = cov (Finset.range n) x y / cov (Finset.range n) x x) := by
  obtain ⟨e1, e2, hs', h⟩ := linreg_point hl hf e
  rw [hs] at hs'
  simp only [List.cons.injEq, and_true] at hs'
  obtain ⟨rfl, rfl, rfl⟩ := hs'
  have h1 := h j k hj hk
  rw [if_neg (by rintro ⟨t, ht, h0⟩; rw [hy t ht] at h0; exact absurd h0 (by simp))] at h1
  have hopt := hl.optimal n x y
  have hsame : ls n (fun t => ((fun t => some (x t)) t).getD 0) (fun t => (data.get [t, j, k]).getD 0) = ls n x y :=
    hl.samples _ _ _ _ _ (fun t _ => rfl) (fun t ht => by rw [hy t ht]; rfl)
  rw [hsame] at h1
  exact ⟨(ls n x y).1, (ls n x y).2, h1.1, hopt, fun hv => sse_min_unique hv hopt⟩

/-- C105: a grid point with a missing sample gets a missing coefficient and p-value; the results at a grid point do not depend on the
data of other grid points, whether these are missing or not. -/
theorem C105_missing (hl : LeastSquares ls) (hf : OnSamples fp) {data : NDArr (Option ℝ)} {n d1 d2 : ℕ} (hs : data.shape = [n, d1, d2])
    {np : ℕ} {pred : ℕ → Option ℝ} {m : Maps} {after : NDArr (Option ℝ)}
    (e : linearRegression ls fp data np pred = (.ok m, after)) {j k : ℕ} (hj : j < d1) (hk : k < d2) :
    (m.coef j k = none ↔ ∃ t, t < n ∧ data.get [t, j, k] = none) ∧ ((∃ t, t < n ∧ data.get [t, j, k] = none) → m.pval j k = none) := by
  obtain ⟨e1, e2, hs', h⟩ := linreg_point hl hf e
  rw [hs] at hs'
  simp only [List.cons.injEq, and_true] at hs'
  obtain ⟨rfl, rfl, rfl⟩ := hs'
  have h1 := h j k hj hk
  by_cases hb : ∃ t, t < n ∧ data.get [t, j, k] = none
  · rw [if_pos hb] at h1; exact ⟨⟨fun _ => hb, fun _ => h1.1⟩, fun _ => h1.2⟩
  · rw [if_neg hb] at h1
    exact ⟨⟨fun h0 => by rw [h1.1] at h0; exact absurd h0 (by simp), fun h0 => absurd h0 hb⟩, fun h0 => absurd h0 hb⟩

theorem C105_local (hl : LeastSquares ls) (hf : OnSamples fp) {data data' : NDArr (Option ℝ)} {n d1 d2 d1' d2' : ℕ}
    (hs : data.shape = [n, d1, d2]) (hs' : data'.shape = [n, d1', d2']) {np : ℕ} {pred : ℕ → Option ℝ} {m m' : Maps} {after after' : NDArr (Option ℝ)}
    (e : linearRegression ls fp data np pred = (.ok m, after)) (e' : linearRegression ls fp data' np pred = (.ok m', after'))
    {j k j' k' : ℕ} (hj : j < d1) (hk : k < d2) (hj' : j' < d1') (hk' : k' < d2')
    (h : ∀ t, t < n → data.get [t, j, k] = data'.get [t, j', k']) : m.coef j k = m'.coef j' k' ∧ m.pval j k = m'.pval j' k' := by
  obtain ⟨u1, u2, hu, h1⟩ := linreg_point hl hf e
  obtain ⟨v1, v2, hv, h2⟩ := linreg_point hl hf e'
  rw [hs] at hu; rw [hs'] at hv
  simp only [List.cons.injEq, and_true] at hu hv
  obtain ⟨rfl, rfl, rfl⟩ := hu
  obtain ⟨-, rfl, rfl⟩ := hv
  have a1 := h1 j k hj hk
  have a2 := h2 j' k' hj' hk'
  by_cases hb : ∃ t, t < n ∧ data.get [t, j, k] = none
  · have hb' : ∃ t, t < n ∧ data'.get [t, j', k'] = none := by
      obtain ⟨t, ht, h0⟩ := hb; exact ⟨t, ht, by rw [← h t ht]; exact h0⟩
    rw [if_pos hb] at a1; rw [if_pos hb'] at a2
    rw [a1.1, a1.2, a2.1, a2.2]; exact ⟨rfl, rfl⟩
  · have hb' : ¬ ∃ t, t < n ∧ data'.get [t, j', k'] = none := by
      rintro ⟨t, ht, h0⟩; exact hb ⟨t, ht, by rw [h t ht]; exact h0⟩
    rw [if_neg hb] at a1; rw [if_neg hb'] at a2
    have hc : ∀ t, t < n → (data.get [t, j, k]).getD 0 = (data'.get [t, j', k']).getD 0 := fun t ht => by rw [h t ht]
    rw [a1.1, a1.2, a2.1, a2.2, hl.samples n _ _ _ _ (fun t _ => rfl) hc, hf n _ _ _ _ hc (fun t _ => rfl)]
    exact ⟨rfl, rfl⟩

/-! ### The calls that succeed -/

/-- A call on three-dimensional data of matching length succeeds. -/
theorem linreg_ok {data : NDArr (Option ℝ)} {n d1 d2 : ℕ} (hs : data.shape = [n, d1, d2]) (pred : ℕ → Option ℝ) :
    ∃ m after, linearRegression ls fp data n pred = (.ok m, after) := by
  unfold linearRegression
  simp only [hs, ne_eq, not_true_eq_false, if_false]
  split_ifs <;> exact ⟨_, _, rfl⟩

/-- the hypotheses of C104/C105 are met: two grid points, one with a missing sample -/
example : ∃ ls, ∃ _ : LeastSquares ls, ∃ m after, linearRegression ls (fun _ _ _ => none)
    ⟨[3, 1, 2], fun i => if i = [1, 0, 1] then none else some (i.sum : ℝ)⟩ 3 (fun t => some (t : ℝ)) = (.ok m, after) := by
  obtain ⟨ls, h⟩ := leastSquares_exists
  exact ⟨ls, h, linreg_ok rfl _⟩

/-! ### C106 -/

/-- C106 fails: a missing predictor value is replaced by zero instead of leaving the sample out. For the predictor (missing, 1, 2) and the
data (5, 1, 2) the two usable samples lie on the line `y = x`, slope 1; the call reports slope -3/2. -/
theorem C106_missing_predictor_false (hl : LeastSquares ls) (hf : OnSamples fp) :
    let data : NDArr (Option ℝ) := ⟨[3, 1, 1], fun i => if i = [0, 0, 0] then some 5 else if i = [1, 0, 0] then some 1 else some 2⟩
    let pred : ℕ → Option ℝ := fun t => if t = 0 then none else some t
    ∃ m after, linearRegression ls fp data 3 pred = (.ok m, after) ∧ m.coef 0 0 = some (-3 / 2) ∧
      (∀ t ∈ ({1, 2} : Finset ℕ), pred t = data.get [t, 0, 0]) := by
  intro data pred
  obtain ⟨m, after, e⟩ := linreg_ok (ls := ls) (fp := fp) (data := data) (n := 3) (d1 := 1) (d2 := 1) rfl pred
  refine ⟨m, after, e, ?_, ?_⟩
  · obtain ⟨u1, u2, hu, h1⟩ := linreg_point hl hf e
    simp only [data, List.cons.injEq, and_true, true_and] at hu
    obtain ⟨rfl, rfl⟩ := hu
    have a := h1 0 0 (by norm_num) (by norm_num)
    rw [if_neg (by
      rintro ⟨t, ht, h0⟩
      simp only [data] at h0
      split_ifs at h0)] at a
    rw [a.1, sse_min_unique ?_ (hl.optimal 3 _ _)]
    · simp only [cov, avg, Finset.sum_range_succ, Finset.sum_range_zero, Finset.card_range, data, pred]
      norm_num
    · exact ⟨0, by simp, 1, by simp, by simp [pred]⟩
  · intro t ht
    simp only [Finset.mem_insert, Finset.mem_singleton] at ht
    rcases ht with rfl | rfl <;> simp [pred, data]

/-- C106, exact description: missing predictor values enter the regression as zeros. -/
theorem C106_zero_filled_partial (hl : LeastSquares ls) (hf : OnSamples fp) {data : NDArr (Option ℝ)} {n d1 d2 : ℕ} (hs : data.shape = [n, d1, d2])
    {np : ℕ} {pred : ℕ → Option ℝ} {m m' : Maps} {after after' : NDArr (Option ℝ)} (e : linearRegression ls fp data np pred = (.ok m, after))
    (e' : linearRegression ls fp data np (fun t => some ((pred t).getD 0)) = (.ok m', after')) {j k : ℕ} (hj : j < d1) (hk : k < d2) :
    m.coef j k = m'.coef j k ∧ m.pval j k = m'.pval j k := by
  obtain ⟨u1, u2, hu, h1⟩ := linreg_point hl hf e
  obtain ⟨v1, v2, hv, h2⟩ := linreg_point hl hf e'
  rw [hs] at hu hv
  simp only [List.cons.injEq, and_true] at hu hv
  obtain ⟨rfl, rfl, rfl⟩ := hu
  obtain ⟨-, rfl, rfl⟩ := hv
  have a1 := h1 j k hj hk
  have a2 := h2 j k hj hk
  split_ifs at a1 a2 with hb
  · rw [a1.1, a1.2, a2.1, a2.2]; exact ⟨rfl, rfl⟩
  · rw [a1.1, a1.2, a2.1, a2.2]; exact ⟨rfl, rfl⟩

/-! ### C107 -/

/-- C107: a call that succeeds leaves the caller's data array as it was; so does a rejected call on data without missing values, and a call
rejected because the lengths differ. -/
theorem C107_unchanged_partial (data : NDArr (Option ℝ)) (np : ℕ) (pred : ℕ → Option ℝ)
    (h : (∃ m, (linearRegression ls fp data np pred).1 = .ok m) ∨ ¬ hasNaN data ∨ data.shape.head? ≠ some np) :
    NDArr.Eqv (linearRegression ls fp data np pred).2 data := by
  have hz : ¬ hasNaN data → NDArr.Eqv (zeroFilled data) data := by
    intro h
    refine ⟨rfl, fun idx hi => ?_⟩
    have : data.get idx ≠ none := fun h0 => h ⟨idx, hi, h0⟩
    obtain ⟨v, hv⟩ := Option.ne_none_iff_exists'.mp this
    simp [zeroFilled, hv]
  have hr : NDArr.Eqv (restore data (zeroFilled data)) data := by
    refine ⟨rfl, fun idx hi => ?_⟩
    cases hv : data.get idx <;> simp [restore, zeroFilled, hv]
  have hrefl : NDArr.Eqv data data := ⟨rfl, fun _ _ => rfl⟩
  revert h
  unfold linearRegression
  match hs : data.shape with
  | [] => intro _; exact hrefl
  | n :: rest =>
    simp only
    by_cases hn : n ≠ np
    · rw [if_pos hn]; intro _; exact hrefl
    rw [if_neg hn]
    have hn' : n = np := not_not.mp hn
    subst hn'
    by_cases hN : hasNaN data ∨ ∃ t, t < n ∧ pred t = none
    · rw [if_pos hN]
      match rest with
      | [d1, d2] => intro _; exact hr
      | [] => intro h; simp at h; exact hz h
      | [_] => intro h; simp at h; exact hz h
      | _ :: _ :: _ :: _ => intro h; simp at h; exact hz h
    · rw [if_neg hN]
      match rest with
      | [d1, d2] => intro _; exact hrefl
      | [] => intro _; exact hrefl
      | [_] => intro _; exact hrefl
      | _ :: _ :: _ :: _ => intro _; exact hrefl

/-- C107 fails for a rejected call on data with missing values: a two-dimensional array is refused only after its missing values have been
overwritten with zeros in the caller's array. -/
theorem C107_unchanged_false : ∃ data : NDArr (Option ℝ), ∃ pred : ℕ → Option ℝ,
    (linearRegression ls fp data 2 pred).1 = .error .valueError ∧ data.get [0, 0] = none ∧
      (linearRegression ls fp data 2 pred).2.get [0, 0] = some 0 ∧ InB data.shape [0, 0] := by
  have hN : hasNaN ⟨[2, 1], fun i => if i = [0, 0] then none else some 1⟩ := ⟨[0, 0], by simp [InB], rfl⟩
  refine ⟨⟨[2, 1], fun i => if i = [0, 0] then none else some 1⟩, fun _ => some 1, ?_, rfl, ?_, by simp [InB]⟩
  · simp [linearRegression, hN]
  · simp [linearRegression, hN, zeroFilled]

end Skyborn.Stats
