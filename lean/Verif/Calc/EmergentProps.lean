/- C48, C49, C62-C64: emergent constraints. -/
import Verif.Calc.EmergentModel
import Mathlib.Probability.Distributions.Gaussian.Real
import Mathlib.Tactic.Ring
import Mathlib.Tactic.Linarith
import Mathlib.Tactic.FieldSimp
import Mathlib.Tactic.NormNum

namespace Skyborn.Calc

/-! ### argmax / argmin -/

/-- `i` is the first index of a largest entry. -/
def Spec.FirstMax (n : ℕ) (p : ℕ → ℝ) (i : ℕ) : Prop := i < n ∧ (∀ j, j < n → p j ≤ p i) ∧ ∀ j, j < i → p j < p i

/-- `i` is the first index of a smallest entry. -/
def Spec.FirstMin (n : ℕ) (p : ℕ → ℝ) (i : ℕ) : Prop := i < n ∧ (∀ j, j < n → p i ≤ p j) ∧ ∀ j, j < i → p i < p j

theorem argmax_aux (p : ℕ → ℝ) : ∀ n, (argmax n p = 0 ∨ argmax n p < n) ∧ (∀ j, j < n → p j ≤ p (argmax n p)) ∧
    ∀ j, j < argmax n p → p j < p (argmax n p) := by
  intro n
  induction n with
  | zero => refine ⟨Or.inl rfl, fun j h => absurd h (by omega), fun j h => absurd h (by simp [argmax])⟩
  | succ n ih =>
    obtain ⟨h0, h1, h2⟩ := ih
    have e : argmax (n + 1) p = if p n > p (argmax n p) then n else argmax n p := by
      unfold argmax
      rw [List.range_succ, List.foldl_append]; rfl
    rw [e]
    split_ifs with h
    · refine ⟨Or.inr (by omega), fun j hj => ?_, fun j hj => lt_of_le_of_lt (h1 j hj) h⟩
      rcases Nat.lt_succ_iff_lt_or_eq.mp hj with hj | rfl
      · exact (h1 j hj).trans h.le
      · exact le_rfl
    · refine ⟨h0.imp id (fun h => by omega), fun j hj => ?_, h2⟩
      rcases Nat.lt_succ_iff_lt_or_eq.mp hj with hj | rfl
      · exact h1 j hj
      · exact not_lt.mp h

theorem argmax_spec {n : ℕ} (hn : 0 < n) (p : ℕ → ℝ) : Spec.FirstMax n p (argmax n p) := by
  obtain ⟨h0, h1, h2⟩ := argmax_aux p n
  exact ⟨by omega, h1, h2⟩

theorem argmin_eq (n : ℕ) (p : ℕ → ℝ) : argmin n p = argmax n fun i => -p i := by
  unfold argmin argmax
  congr 1
  funext b i
  simp only [gt_iff_lt, neg_lt_neg_iff]

theorem argmin_spec {n : ℕ} (hn : 0 < n) (p : ℕ → ℝ) : Spec.FirstMin n p (argmin n p) := by
  obtain ⟨h0, h1, h2⟩ := argmax_spec hn fun i => -p i
  rw [argmin_eq]
  exact ⟨h0, fun j hj => by simpa using h1 j hj, fun j hj => by simpa using h2 j hj⟩

theorem firstMax_unique {n : ℕ} {p : ℕ → ℝ} {i j : ℕ} (hi : Spec.FirstMax n p i) (hj : Spec.FirstMax n p j) : i = j := by
  rcases lt_trichotomy i j with h | h | h
  · exact absurd (hj.2.2 i h) (not_lt.mpr (hi.2.1 j hj.1))
  · exact h
  · exact absurd (hi.2.2 j h) (not_lt.mpr (hj.2.1 i hi.1))

/-! ### C48 -/

/-- Probability accumulated from grid index `i` up to the mode `m`, as a share of the total. -/
noncomputable def Spec.accumulated (n : ℕ) (pdf : ℕ → ℝ) (m i : ℕ) : ℝ := (∑ j ∈ Finset.Icc i m, pdf j) / ∑ j ∈ Finset.range n, pdf j

theorem stdSearch_some {thr S : ℝ} {v p : ℕ → ℝ} {m : ℕ} : ∀ {i : ℕ} {w : ℝ}, stdSearch thr S v p m i = some w →
    ∃ k, k ≤ i ∧ (∑ j ∈ Finset.Icc k m, p j) / S ≥ thr ∧ (∀ k', k < k' → k' ≤ i → (∑ j ∈ Finset.Icc k' m, p j) / S < thr) ∧ w = |v m - v k| := by
  have hI : ∀ a, Finset.Ico a (m + 1) = Finset.Icc a m := fun a => by ext x; simp [Finset.mem_Ico, Finset.mem_Icc, Nat.lt_succ_iff]
  intro i
  induction i with
  | zero =>
    intro w h
    simp only [stdSearch, hI] at h
    split_ifs at h with h1
    cases h
    exact ⟨0, le_rfl, h1, fun k' h2 h3 => absurd h2 (by omega), rfl⟩
  | succ i ih =>
    intro w h
    simp only [stdSearch, hI] at h
    split_ifs at h with h1
    · cases h
      exact ⟨i + 1, le_rfl, h1, fun k' h2 h3 => absurd h2 (by omega), rfl⟩
    · obtain ⟨k, hk, a, b, c⟩ := ih h
      refine ⟨k, by omega, a, fun k' h2 h3 => ?_, c⟩
      rcases Nat.lt_or_ge i k' with h4 | h4
      · have : k' = i + 1 := by omega
        subst this; exact not_le.mp h1
      · exact b k' h2 h4

theorem stdSearch_none {thr S : ℝ} {v p : ℕ → ℝ} {m : ℕ} : ∀ {i : ℕ}, stdSearch thr S v p m i = none →
    ∀ k, k ≤ i → (∑ j ∈ Finset.Icc k m, p j) / S < thr := by
  have hI : ∀ a, Finset.Ico a (m + 1) = Finset.Icc a m := fun a => by ext x; simp [Finset.mem_Ico, Finset.mem_Icc, Nat.lt_succ_iff]
  intro i
  induction i with
  | zero =>
    intro h k hk
    simp only [stdSearch, hI] at h
    split_ifs at h with h1
    have : k = 0 := by omega
    subst this; exact not_le.mp h1
  | succ i ih =>
    intro h k hk
    simp only [stdSearch, hI] at h
    split_ifs at h with h1
    rcases Nat.lt_or_ge i k with h4 | h4
    · have : k = i + 1 := by omega
      subst this; exact not_le.mp h1
    · exact ih h k h4

/-- C48: NaN exactly when the PDF has no positive mass. -/
theorem C48_nan (thr : ℝ) (n : ℕ) (values pdf : ℕ → ℝ) :
    stdFromPdf thr n values pdf = none ↔ ∑ j ∈ Finset.range n, pdf j ≤ 0 := by
  unfold stdFromPdf
  dsimp only
  split_ifs with h
  · simp [h]
  · simp only [h, iff_false]
    cases stdSearch thr _ values pdf (argmax n pdf) (argmax n pdf) <;> simp

/-- C48: with positive mass and `m` the first index of the largest PDF value, the width is the distance from `values m` to `values i` for the largest `i ≤ m`
(the narrowest left window) whose accumulated share reaches the threshold; if no window reaches it, it is the root mean square distance from the mode. -/
theorem C48_width (thr : ℝ) (n : ℕ) (values pdf : ℕ → ℝ) {m : ℕ} (hm : Spec.FirstMax n pdf m) (hpos : 0 < ∑ j ∈ Finset.range n, pdf j) :
    (∀ i, i ≤ m → thr ≤ Spec.accumulated n pdf m i → (∀ k, i < k → k ≤ m → Spec.accumulated n pdf m k < thr) →
      stdFromPdf thr n values pdf = some |values m - values i|) ∧
    ((∀ k, k ≤ m → Spec.accumulated n pdf m k < thr) → ∃ s, stdFromPdf thr n values pdf = some s ∧ 0 ≤ s ∧
      s ^ 2 = max 0 ((∑ j ∈ Finset.range n, pdf j * (values j - values m) ^ 2) / ∑ j ∈ Finset.range n, pdf j)) := by
  have hn : 0 < n := by have := hm.1; omega
  have hmm : argmax n pdf = m := firstMax_unique (argmax_spec hn pdf) hm
  unfold stdFromPdf Spec.accumulated
  dsimp only
  rw [if_neg (not_le.mpr hpos), hmm]
  refine ⟨fun i hi h1 h2 => ?_, fun h => ?_⟩
  · cases hs : stdSearch thr (∑ j ∈ Finset.range n, pdf j) values pdf m m with
    | none => exact absurd (stdSearch_none hs i hi) (not_lt.mpr h1)
    | some w =>
      obtain ⟨k, hk, a, b, c⟩ := stdSearch_some hs
      have : k = i := by
        rcases lt_trichotomy k i with h | h | h
        · exact absurd (b i h hi) (not_lt.mpr h1)
        · exact h
        · exact absurd (h2 k h hk) (not_lt.mpr a)
      rw [c, this]
  · cases hs : stdSearch thr (∑ j ∈ Finset.range n, pdf j) values pdf m m with
    | some w =>
      obtain ⟨k, hk, a, b, c⟩ := stdSearch_some hs
      exact absurd (h k hk) (not_lt.mpr a)
    | none =>
      refine ⟨_, rfl, Real.sqrt_nonneg _, ?_⟩
      rw [Real.sq_sqrt']
      exact max_comm _ _

/-- C48: for a non-negative PDF every wider left window accumulates at least as much, so the window chosen is the narrowest of all those
that reach the threshold. -/
theorem C48_narrowest (thr : ℝ) (n : ℕ) (values pdf : ℕ → ℝ) (h0 : ∀ j, j < n → 0 ≤ pdf j) {m i : ℕ} (hm : Spec.FirstMax n pdf m)
    (hpos : 0 < ∑ j ∈ Finset.range n, pdf j) (hi : i ≤ m) :
    (thr ≤ Spec.accumulated n pdf m i ∧ ∀ k, i < k → k ≤ m → Spec.accumulated n pdf m k < thr) ↔
      (∀ k, k ≤ m → (thr ≤ Spec.accumulated n pdf m k ↔ k ≤ i)) := by
  have mono : ∀ a b, a ≤ b → b ≤ m → Spec.accumulated n pdf m b ≤ Spec.accumulated n pdf m a := by
    intro a b hab hb
    unfold Spec.accumulated
    refine div_le_div_of_nonneg_right ?_ hpos.le
    refine Finset.sum_le_sum_of_subset_of_nonneg (Finset.Icc_subset_Icc hab le_rfl) fun j hj _ => h0 j ?_
    have := (Finset.mem_Icc.mp hj).2
    have := hm.1
    omega
  constructor
  · rintro ⟨h1, h2⟩ k hk
    constructor
    · intro h
      by_contra hc
      exact absurd (h2 k (by omega) hk) (not_lt.mpr h)
    · intro h
      exact h1.trans (mono k i h hi)
  · intro h
    refine ⟨(h i hi).mpr le_rfl, fun k h1 h2 => ?_⟩
    by_contra hc
    have := (h k h2).mp (not_lt.mp hc)
    omega

/-! ### C49 -/

/-- Sum of squared deviations of the pairs from the line `a + b x`. -/
noncomputable def Spec.sse (p : List (ℝ × ℝ)) (a b : ℝ) : ℝ := (p.map fun q => (q.2 - (a + b * q.1)) ^ 2).sum

/-- The pairs with both members finite, in order. -/
def Spec.Valid (xs ys : List (Option ℝ)) (p : List (ℝ × ℝ)) : Prop :=
  p.map (fun q => (some q.1, some q.2)) = (xs.zip ys).filter fun q => q.1.isSome && q.2.isSome

theorem validPairs_valid (xs ys : List (Option ℝ)) : Spec.Valid xs ys (validPairs xs ys) := by
  unfold Spec.Valid validPairs
  generalize xs.zip ys = l
  induction l with
  | nil => rfl
  | cons q l ih =>
    obtain ⟨x, y⟩ := q
    cases x <;> cases y <;> simp [List.filterMap_cons, List.filter_cons] <;> simpa using ih

theorem valid_unique {xs ys : List (Option ℝ)} {p q : List (ℝ × ℝ)} (hp : Spec.Valid xs ys p) (hq : Spec.Valid xs ys q) : p = q := by
  have : Function.Injective fun q : ℝ × ℝ => (some q.1, some q.2) := by
    rintro ⟨a, b⟩ ⟨c, d⟩ h
    simp only [Prod.mk.injEq, Option.some.injEq] at h
    rw [h.1, h.2]
  exact (List.map_injective_iff.mpr this) (hp.trans hq.symm)

theorem sum_lin (p : List (ℝ × ℝ)) (f g : ℝ × ℝ → ℝ) (s t : ℝ) :
    (p.map fun q => s * f q + t * g q).sum = s * (p.map f).sum + t * (p.map g).sum := by
  induction p with
  | nil => simp
  | cons q p ih => simp only [List.map_cons, List.sum_cons, ih]; ring

theorem sum_const (p : List (ℝ × ℝ)) (c : ℝ) : (p.map fun _ => c).sum = p.length * c := by
  induction p with
  | nil => simp
  | cons q p ih => simp only [List.map_cons, List.sum_cons, ih, List.length_cons]; push_cast; ring

theorem sum_nonneg' (p : List (ℝ × ℝ)) (f : ℝ × ℝ → ℝ) (h : ∀ q ∈ p, 0 ≤ f q) : 0 ≤ (p.map f).sum := by
  induction p with
  | nil => simp
  | cons q p ih =>
    simp only [List.map_cons, List.sum_cons]
    exact add_nonneg (h q (by simp)) (ih fun r hr => h r (by simp [hr]))

theorem sum_zero_each (p : List (ℝ × ℝ)) (f : ℝ × ℝ → ℝ) (h : ∀ q ∈ p, 0 ≤ f q) (hz : (p.map f).sum ≤ 0) : ∀ q ∈ p, f q = 0 := by
  induction p with
  | nil => simp
  | cons q p ih =>
    simp only [List.map_cons, List.sum_cons] at hz
    have h1 := h q (by simp)
    have h2 := sum_nonneg' p f fun r hr => h r (by simp [hr])
    intro r hr
    rcases List.mem_cons.mp hr with rfl | hr
    · linarith
    · exact ih (fun r hr => h r (by simp [hr])) (by linarith) r hr

section core
variable (p : List (ℝ × ℝ))

/-- the code's mean of the x values, etc. -/
noncomputable def xM : ℝ := mean (p.map Prod.fst)
noncomputable def yM : ℝ := mean (p.map Prod.snd)
noncomputable def sX : ℝ := (p.map fun q => (q.1 - xM p) ^ 2).sum
noncomputable def slp : ℝ := if sX p > 0 then (p.map fun q => (q.1 - xM p) * (q.2 - yM p)).sum / sX p else 0

theorem resid_sum (hp : p.length ≠ 0) : (p.map fun q => q.2 - (yM p - slp p * xM p + slp p * q.1)).sum = 0 := by
  have hl : (p.length : ℝ) ≠ 0 := by exact_mod_cast hp
  have e : (p.map fun q => q.2 - (yM p - slp p * xM p + slp p * q.1)) =
      p.map fun q => 1 * (1 * q.2 + (-slp p) * q.1) + 1 * (-(yM p - slp p * xM p)) := by
    apply List.map_congr_left; intro q _; ring
  rw [e, sum_lin, sum_lin, sum_const]
  unfold yM xM mean
  simp only [List.length_map]
  field_simp
  ring

theorem resid_x (hp : p.length ≠ 0) : (p.map fun q => (q.2 - (yM p - slp p * xM p + slp p * q.1)) * q.1).sum = 0 := by
  have h0 := resid_sum p hp
  -- reduce to the centred products
  have e : (p.map fun q => (q.2 - (yM p - slp p * xM p + slp p * q.1)) * q.1) =
      p.map fun q => 1 * (1 * ((q.1 - xM p) * (q.2 - yM p)) + (-slp p) * (q.1 - xM p) ^ 2) + xM p * (q.2 - (yM p - slp p * xM p + slp p * q.1)) := by
    apply List.map_congr_left; intro q _; ring
  rw [e, sum_lin, sum_lin, h0]
  change 1 * (1 * _ + -slp p * sX p) + xM p * 0 = 0
  unfold slp
  split_ifs with h
  · field_simp; ring
  · have hz := sum_zero_each p (fun q => (q.1 - xM p) ^ 2) (fun q _ => sq_nonneg _) (not_lt.mp h)
    have : (p.map fun q => (q.1 - xM p) * (q.2 - yM p)).sum = 0 := by
      have e2 : (p.map fun q => (q.1 - xM p) * (q.2 - yM p)) = p.map fun _ => (0 : ℝ) := by
        apply List.map_congr_left
        intro q hq
        rw [pow_eq_zero_iff two_ne_zero |>.mp (hz q hq), zero_mul]
      rw [e2, sum_const, mul_zero]
    rw [this]; ring

theorem sse_min (hp : p.length ≠ 0) (a b : ℝ) : Spec.sse p (yM p - slp p * xM p) (slp p) ≤ Spec.sse p a b := by
  have h0 := resid_sum p hp
  have h1 := resid_x p hp
  generalize hi : yM p - slp p * xM p = i at *
  generalize hs : slp p = s at *
  have e : Spec.sse p a b = Spec.sse p i s + (p.map fun q => ((i - a) + (s - b) * q.1) ^ 2).sum := by
    unfold Spec.sse
    have e2 : (p.map fun q => (q.2 - (a + b * q.1)) ^ 2) = p.map fun q =>
        1 * (1 * (q.2 - (i + s * q.1)) ^ 2 + 1 * ((i - a) + (s - b) * q.1) ^ 2) +
        1 * (2 * (i - a) * (q.2 - (i + s * q.1)) + 2 * (s - b) * ((q.2 - (i + s * q.1)) * q.1)) := by
      apply List.map_congr_left; intro q _; ring
    rw [e2, sum_lin, sum_lin, sum_lin, h0, h1]; ring
  rw [e]
  have := sum_nonneg' p (fun q => ((i - a) + (s - b) * q.1) ^ 2) fun _ _ => sq_nonneg _
  linarith
end core

theorem fit_eq {xs ys : List (Option ℝ)} {f : Fit} (e : fit xs ys = .ok f) :
    xs.length = ys.length ∧ (validPairs xs ys).length ≠ 0 ∧ f.xs = (validPairs xs ys).map Prod.fst ∧ f.ys = (validPairs xs ys).map Prod.snd ∧
      f.slope = slp (validPairs xs ys) ∧ f.intercept = yM (validPairs xs ys) - slp (validPairs xs ys) * xM (validPairs xs ys) ∧
      f.ssX = sX (validPairs xs ys) ∧
      f.predErr = (if (validPairs xs ys).length > 2 then Real.sqrt (Spec.sse (validPairs xs ys) f.intercept f.slope / (((validPairs xs ys).length - 2 : ℕ) : ℝ))
        else Real.sqrt (Spec.sse (validPairs xs ys) f.intercept f.slope / (validPairs xs ys).length)) := by
  unfold fit at e
  by_cases h1 : xs.length ≠ ys.length
  · rw [if_pos h1] at e; exact absurd e (by simp)
  rw [if_neg h1] at e
  dsimp only at e
  by_cases h3 : (validPairs xs ys).length = 0
  · rw [if_pos h3] at e; exact absurd e (by simp)
  rw [if_neg h3] at e
  simp only [Except.ok.injEq] at e
  subst e
  refine ⟨not_not.mp h1, h3, rfl, rfl, rfl, rfl, rfl, ?_⟩
  dsimp only
  have e1 : ∀ i s : ℝ, (List.map (fun r => r ^ 2) (List.map (fun q : ℝ × ℝ => q.2 - (i + s * q.1)) (validPairs xs ys))).sum =
      Spec.sse (validPairs xs ys) i s := by
    intro i s
    unfold Spec.sse
    rw [List.map_map]; rfl
  rw [e1]
  unfold mean
  rw [e1]
  simp only [List.length_map]

/-- C49: the fit fails exactly when the inputs have different lengths or no pair has both members finite. -/
theorem C49_rejected (xs ys : List (Option ℝ)) {p : List (ℝ × ℝ)} (hp : Spec.Valid xs ys p) :
    (∃ f, fit xs ys = .ok f) ↔ xs.length = ys.length ∧ p ≠ [] := by
  rw [valid_unique hp (validPairs_valid xs ys)]
  constructor
  · rintro ⟨f, e⟩
    obtain ⟨h1, h2, -⟩ := fit_eq e
    exact ⟨h1, fun h => h2 (by rw [h]; rfl)⟩
  · rintro ⟨h1, h2⟩
    unfold fit
    rw [if_neg (not_not.mpr h1)]
    dsimp only
    rw [if_neg (by rwa [List.length_eq_zero_iff])]
    exact ⟨_, rfl⟩

/-- C49: the fitted line is a least-squares line of the valid pairs: no line has a smaller sum of squares. -/
theorem C49_least_squares (xs ys : List (Option ℝ)) {p : List (ℝ × ℝ)} (hp : Spec.Valid xs ys p) {f : Fit} (e : fit xs ys = .ok f) (a b : ℝ) :
    Spec.sse p f.intercept f.slope ≤ Spec.sse p a b := by
  rw [valid_unique hp (validPairs_valid xs ys)]
  obtain ⟨-, h2, -, -, h5, h6, -⟩ := fit_eq e
  rw [h5, h6]
  exact sse_min _ h2 a b

/-- C49: the residuals of the valid pairs add up to zero and are orthogonal to the predictor. -/
theorem C49_residuals (xs ys : List (Option ℝ)) {p : List (ℝ × ℝ)} (hp : Spec.Valid xs ys p) {f : Fit} (e : fit xs ys = .ok f) :
    (p.map fun q => q.2 - (f.intercept + f.slope * q.1)).sum = 0 ∧ (p.map fun q => (q.2 - (f.intercept + f.slope * q.1)) * q.1).sum = 0 := by
  rw [valid_unique hp (validPairs_valid xs ys)]
  obtain ⟨-, h2, -, -, h5, h6, -⟩ := fit_eq e
  rw [h5, h6]
  exact ⟨resid_sum _ h2, resid_x _ h2⟩

/-- C49: pairs with a non-finite member have no influence: inputs with the same valid pairs give the same fit. -/
theorem C49_invalid_ignored (xs ys xs' ys' : List (Option ℝ)) {p : List (ℝ × ℝ)} (hp : Spec.Valid xs ys p) (hp' : Spec.Valid xs' ys' p)
    (hl : xs.length = ys.length) (hl' : xs'.length = ys'.length) : fit xs ys = fit xs' ys' := by
  have : validPairs xs ys = validPairs xs' ys' := (valid_unique (validPairs_valid xs ys) hp).trans (valid_unique hp' (validPairs_valid xs' ys'))
  unfold fit
  rw [if_neg (not_not.mpr hl), if_neg (not_not.mpr hl'), this]

/-- C49: the prediction error is the residual standard error, with `n - 2` degrees of freedom from three pairs on and `n` below. -/
theorem C49_prediction_error (xs ys : List (Option ℝ)) {p : List (ℝ × ℝ)} (hp : Spec.Valid xs ys p) {f : Fit} (e : fit xs ys = .ok f) :
    0 ≤ f.predErr ∧ f.predErr ^ 2 * (if 2 < p.length then (p.length : ℝ) - 2 else p.length) = Spec.sse p f.intercept f.slope := by
  rw [valid_unique hp (validPairs_valid xs ys)]
  obtain ⟨-, h2, -, -, -, -, -, h8⟩ := fit_eq e
  generalize validPairs xs ys = l at *
  have hs : 0 ≤ Spec.sse l f.intercept f.slope := sum_nonneg' _ _ fun _ _ => sq_nonneg _
  rw [h8]
  split_ifs with h
  · refine ⟨Real.sqrt_nonneg _, ?_⟩
    have hc : ((l.length - 2 : ℕ) : ℝ) = (l.length : ℝ) - 2 := by rw [Nat.cast_sub (by omega)]; norm_num
    have hp' : (0 : ℝ) < (l.length : ℝ) - 2 := by
      have : (2 : ℝ) < l.length := by exact_mod_cast h
      linarith
    rw [Real.sq_sqrt (by rw [hc]; positivity), hc, div_mul_cancel₀ _ hp'.ne']
  · refine ⟨Real.sqrt_nonneg _, ?_⟩
    have hp' : (0 : ℝ) < l.length := by exact_mod_cast Nat.pos_of_ne_zero h2
    rw [Real.sq_sqrt (by positivity), div_mul_cancel₀ _ hp'.ne']

/-! ### C62: gaussian_pdf -/

theorem gauss_eq {mu sigma : ℝ} (h : 0 < sigma) (x : ℝ) :
    1 / (Real.sqrt (2 * Real.pi) * sigma) * Real.exp (-(1 / 2) * ((x - mu) / sigma) ^ 2) =
      ProbabilityTheory.gaussianPDFReal mu (Real.toNNReal (sigma ^ 2)) x := by
  rw [ProbabilityTheory.gaussianPDFReal_def]
  dsimp only
  rw [Real.coe_toNNReal _ (sq_nonneg sigma), Real.sqrt_mul (show (0 : ℝ) ≤ 2 * Real.pi by have := Real.pi_pos; positivity) (sigma ^ 2), Real.sqrt_sq h.le, one_div]
  congr 2
  field_simp

/-- C62: for a positive standard deviation `gaussian_pdf` is the density of the normal distribution. -/
theorem C62_density (mu sigma : ℝ) (h : 0 < sigma) (x : ℝ) :
    gaussianPdf mu sigma x = .real (ProbabilityTheory.gaussianPDFReal mu (Real.toNNReal (sigma ^ 2)) x) := by
  unfold gaussianPdf
  rw [if_neg (not_lt.mpr h.le), if_neg h.ne']
  dsimp only
  rw [gauss_eq h]

/-- C62: its values are positive, symmetric about the mean, largest at the mean, and integrate to one. -/
theorem C62_shape (mu sigma : ℝ) (h : 0 < sigma) : ∃ g : ℝ → ℝ, (∀ x, gaussianPdf mu sigma x = .real (g x)) ∧ (∀ x, 0 < g x) ∧
    (∀ t, g (mu + t) = g (mu - t)) ∧ (∀ x, x ≠ mu → g x < g mu) ∧ ∫ x, g x = 1 := by
  have hv : Real.toNNReal (sigma ^ 2) ≠ 0 := by
    rw [Ne, Real.toNNReal_eq_zero, not_le]; positivity
  refine ⟨_, C62_density mu sigma h, fun x => ProbabilityTheory.gaussianPDFReal_pos _ _ _ hv, fun t => ?_, fun x hx => ?_,
    ProbabilityTheory.integral_gaussianPDFReal_eq_one mu hv⟩
  · rw [← gauss_eq h, ← gauss_eq h]
    congr 3
    rw [show mu + t - mu = t by ring, show mu - t - mu = -t by ring, neg_div, neg_sq]
  · rw [← gauss_eq h, ← gauss_eq h]
    refine mul_lt_mul_of_pos_left (Real.exp_lt_exp.mpr ?_) (by have := Real.pi_pos; positivity)
    have : 0 < ((x - mu) / sigma) ^ 2 := by
      have : (x - mu) / sigma ≠ 0 := div_ne_zero (sub_ne_zero.mpr hx) h.ne'
      positivity
    rw [sub_self, zero_div]
    linarith

/-- C62: a negative standard deviation gives NaN, a zero one the degenerate limit (infinite at the mean, 0 elsewhere). -/
theorem C62_degenerate (mu sigma x : ℝ) : (sigma < 0 → gaussianPdf mu sigma x = .nan) ∧ gaussianPdf mu 0 mu = .inf ∧
    (x ≠ mu → gaussianPdf mu 0 x = .real 0) := by
  refine ⟨fun h => ?_, ?_, fun h => ?_⟩
  · unfold gaussianPdf; rw [if_pos h]
  · unfold gaussianPdf; rw [if_neg (lt_irrefl _), if_pos rfl, if_pos rfl]
  · unfold gaussianPdf; rw [if_neg (lt_irrefl _), if_pos rfl, if_neg h]

/-! ### C63, C64: prior and posterior -/

theorem likelihood_eq {sigma : ℝ} (h : 0 < sigma) (t reg : ℝ) :
    likelihood t reg sigma = ProbabilityTheory.gaussianPDFReal reg (Real.toNNReal (sigma ^ 2)) t := by
  rw [← gauss_eq h]
  unfold likelihood
  rw [div_eq_mul_one_div, mul_comm]

theorem predictionStd_zero (n : ℕ) (x m s : ℝ) : predictionStd 0 n x m s = 0 := by unfold predictionStd; rw [if_pos rfl]

theorem predictionStd_pos {e : ℝ} (he : 0 < e) (n : ℕ) (x m s : ℝ) : 0 < predictionStd e n x m s := by
  unfold predictionStd
  rw [if_neg he.ne']
  dsimp only
  refine mul_pos he (Real.sqrt_pos.mpr ?_)
  have h1 : (0 : ℝ) ≤ 1 / (n : ℝ) := by positivity
  split_ifs with h
  · have : 0 ≤ (x - m) ^ 2 / s := by positivity
    linarith
  · linarith

/-- C64: the prediction standard deviation at `x` is `e * sqrt(1 + 1/n + (x - xbar)^2 / Sxx)`: its square, its sign, where it is smallest. -/
theorem C64_prediction_std (xs ys : List (Option ℝ)) {p : List (ℝ × ℝ)} (hp : Spec.Valid xs ys p) {nc nt : ℕ} {cg tg : ℕ → ℝ} {pr : ℕ → ℕ → ℝ}
    {sig reg : ℕ → ℝ} (e : prior xs ys nc cg nt tg = .ok (pr, sig, reg)) : ∃ f, fit xs ys = .ok f ∧ (∀ k, reg k = f.intercept + f.slope * cg k) ∧
      ∀ k, 0 ≤ sig k ∧ (0 < sig k ↔ f.predErr ≠ 0) ∧
        ∀ xbar sxx : ℝ, xbar = (p.map Prod.fst).sum / p.length → sxx = (p.map fun q => (q.1 - xbar) ^ 2).sum →
          sig k ^ 2 = f.predErr ^ 2 * (1 + 1 / p.length + if sxx = 0 then 0 else (cg k - xbar) ^ 2 / sxx) := by
  unfold prior at e
  cases hf : fit xs ys with
  | error a => rw [hf] at e; exact absurd e (by simp [bind, Except.bind])
  | ok f =>
    rw [hf] at e
    simp only [bind, Except.bind] at e
    split_ifs at e with h1
    simp only [pure, Except.pure, Except.ok.injEq, Prod.mk.injEq] at e
    obtain ⟨-, rfl, rfl⟩ := e
    have hpe := (C49_prediction_error xs ys hp hf).1
    refine ⟨f, rfl, fun _ => rfl, fun k => ?_⟩
    beta_reduce
    obtain ⟨-, h2, h3, -, -, -, h7, -⟩ := fit_eq hf
    rw [← valid_unique hp (validPairs_valid xs ys)] at h2 h3 h7
    rcases hpe.eq_or_lt with h0 | h0
    · rw [← h0, predictionStd_zero]
      exact ⟨le_rfl, by simp, fun _ _ _ _ => by ring⟩
    · refine ⟨(predictionStd_pos h0 _ _ _ _).le, iff_of_true (predictionStd_pos h0 _ _ _ _) h0.ne', fun xbar sxx hx hsx => ?_⟩
      have hxm : mean f.xs = xbar := by rw [h3, hx]; unfold mean; rw [List.length_map]
      have hss : f.ssX = sxx := by
        rw [h7, hsx]; unfold sX
        have : xM p = xbar := by rw [hx]; unfold xM mean; rw [List.length_map]
        rw [this]
      have hs0 : 0 ≤ sxx := by rw [hsx]; exact sum_nonneg' _ _ fun _ _ => sq_nonneg _
      have hl : f.xs.length = p.length := by rw [h3, List.length_map]
      unfold predictionStd
      rw [if_neg h0.ne', hxm, hss, hl]
      dsimp only
      have h1' : (0 : ℝ) ≤ 1 / (p.length : ℝ) := by positivity
      rw [mul_pow, Real.sq_sqrt (by
        split_ifs with h
        · have : 0 ≤ (cg k - xbar) ^ 2 / sxx := by positivity
          linarith
        · linarith)]
      congr 1
      rcases hs0.eq_or_lt with h | h
      · rw [if_neg (by linarith), if_pos h.symm]; ring
      · rw [if_pos h, if_neg h.ne']

/-- C63: every column of the prior is the normal density in the target with mean on the regression line and the prediction standard deviation;
when that is zero it is 1 at the first target grid point nearest to the line and 0 elsewhere. -/
theorem C63_prior (xs ys : List (Option ℝ)) {nc nt : ℕ} {cg tg : ℕ → ℝ} {pr : ℕ → ℕ → ℝ} {sig reg : ℕ → ℝ}
    (e : prior xs ys nc cg nt tg = .ok (pr, sig, reg)) {k : ℕ} (hk : k < nc) :
    (0 < sig k → ∀ j, gaussianPdf (reg k) (sig k) (tg j) = .real (pr j k)) ∧
    (sig k = 0 → ∃ j0, Spec.FirstMin nt (fun j => |tg j - reg k|) j0 ∧ ∀ j, j < nt → pr j k = if j = j0 then 1 else 0) := by
  unfold prior at e
  cases hf : fit xs ys with
  | error a => rw [hf] at e; exact absurd e (by simp [bind, Except.bind])
  | ok f =>
    rw [hf] at e
    simp only [bind, Except.bind] at e
    split_ifs at e with h1
    simp only [pure, Except.pure, Except.ok.injEq, Prod.mk.injEq] at e
    obtain ⟨e1, e2, e3⟩ := e
    refine ⟨fun h j => ?_, fun h => ?_⟩
    · rw [C62_density _ _ h, ← e1]
      have hs : sig k > 0 := h
      have := congrFun e2 k
      have h3 := congrFun e3 k
      beta_reduce at this h3 ⊢
      rw [this, h3, if_pos hs, likelihood_eq h]
    · have hnt : 0 < nt := by
        by_contra hc
        refine h1 ⟨⟨k, hk, ?_⟩, by omega⟩
        have := congrFun e2 k
        beta_reduce at this
        rw [this, h]; exact lt_irrefl _
      refine ⟨_, argmin_spec hnt _, fun j hj => ?_⟩
      rw [← e1]
      have := congrFun e2 k
      have h3 := congrFun e3 k
      beta_reduce at this h3 ⊢
      rw [this, h3, if_neg (by rw [h]; exact lt_irrefl _)]

/-- C63: the posterior is the prior weighted with the observed density: `sum_k prior(y_j, x_k) * obs_k * dx`. -/
theorem C63_posterior (xs ys : List (Option ℝ)) {nc nt : ℕ} {cg tg obs : ℕ → ℝ} {pr : ℕ → ℕ → ℝ} {sig reg post : ℕ → ℝ} {sd : Option ℝ} {mode : ℝ}
    (e : prior xs ys nc cg nt tg = .ok (pr, sig, reg)) (e' : posterior xs ys nc cg nt tg obs = .ok (post, sd, mode)) {j : ℕ} (hj : j < nt) :
    post j = ∑ k ∈ Finset.range nc, pr j k * obs k * (cg 1 - cg 0) := by
  unfold prior at e
  unfold posterior at e'
  cases hf : fit xs ys with
  | error a => rw [hf] at e; exact absurd e (by simp [bind, Except.bind])
  | ok f =>
    have hpe := (C49_prediction_error xs ys (validPairs_valid xs ys) hf).1
    rw [hf] at e e'
    simp only [bind, Except.bind] at e e'
    by_cases g1 : nc < 2
    · rw [if_pos g1] at e'; exact absurd e' (by simp)
    rw [if_neg g1] at e'
    by_cases g2 : nt = 0
    · omega
    rw [if_neg g2] at e'
    by_cases g3 : (∃ k < nc, ¬ predictionStd f.predErr f.xs.length (cg k) (mean f.xs) f.ssX > 0) ∧ nt = 0
    · exact absurd g3.2 g2
    rw [if_neg g3] at e
    simp only [pure, Except.pure, Except.ok.injEq, Prod.mk.injEq] at e e'
    obtain ⟨e1, -, -⟩ := e
    obtain ⟨e4, -, -⟩ := e'
    rw [← e1, ← e4]
    dsimp only
    rcases hpe.eq_or_lt with h0 | h0
    · rw [if_neg (by rintro ⟨k, -, hk⟩; rw [← h0, predictionStd_zero] at hk; exact lt_irrefl _ hk)]
      refine Finset.sum_congr rfl fun k _ => ?_
      have hz : ¬ predictionStd f.predErr f.xs.length (cg k) (mean f.xs) f.ssX > 0 := by rw [← h0, predictionStd_zero]; exact lt_irrefl _
      rw [if_neg hz]
      by_cases hjk : argmin nt (fun j => |tg j - (f.intercept + f.slope * cg k)|) = j
      · rw [if_pos hjk, if_pos hjk.symm]; ring
      · rw [if_neg hjk, if_neg (Ne.symm hjk)]; ring
    · rw [if_pos ⟨0, by omega, predictionStd_pos h0 _ _ _ _⟩]
      refine Finset.sum_congr rfl fun k _ => ?_
      rw [if_pos (predictionStd_pos h0 _ _ _ _), if_pos (predictionStd_pos h0 _ _ _ _)]; ring

/-- C63: with a non-negative observed density on an increasing constraint grid the posterior is non-negative; the reported mean is the target
value at its first maximum and the reported spread is the width of C48 with threshold 0.341. -/
theorem C63_posterior_summary (xs ys : List (Option ℝ)) {nc nt : ℕ} {cg tg obs : ℕ → ℝ} {post : ℕ → ℝ} {sd : Option ℝ} {mode : ℝ}
    (e : posterior xs ys nc cg nt tg obs = .ok (post, sd, mode)) :
    ((∀ k, k < nc → 0 ≤ obs k) → cg 0 ≤ cg 1 → ∀ j, j < nt → 0 ≤ post j) ∧
    (∃ m, Spec.FirstMax nt post m ∧ mode = tg m) ∧ sd = stdFromPdf (341 / 1000) nt tg post := by
  unfold posterior at e
  cases hf : fit xs ys with
  | error a =>
    rw [hf] at e
    simp only [bind, Except.bind] at e
    split_ifs at e
  | ok f =>
    rw [hf] at e
    simp only [bind, Except.bind] at e
    by_cases g1 : nc < 2
    · rw [if_pos g1] at e; exact absurd e (by simp)
    rw [if_neg g1] at e
    by_cases g2 : nt = 0
    · rw [if_pos g2] at e; exact absurd e (by simp)
    rw [if_neg g2] at e
    simp only [pure, Except.pure, Except.ok.injEq, Prod.mk.injEq] at e
    obtain ⟨e1, e2, e3⟩ := e
    rw [e1] at e2 e3
    refine ⟨fun ho hd j hj => ?_, ⟨_, argmax_spec (by omega) post, e3.symm⟩, e2.symm⟩
    have hd' : 0 ≤ cg 1 - cg 0 := sub_nonneg.mpr hd
    rw [← e1]
    split_ifs with h
    · refine Finset.sum_nonneg fun k hk => ?_
      refine mul_nonneg ?_ (mul_nonneg (ho k (Finset.mem_range.mp hk)) hd')
      split_ifs with h2
      · rw [likelihood_eq h2]; exact ProbabilityTheory.gaussianPDFReal_nonneg _ _ _
      · exact le_rfl
    · refine Finset.sum_nonneg fun k hk => ?_
      split_ifs with h2
      · exact mul_nonneg (ho k (Finset.mem_range.mp hk)) hd'
      · exact le_rfl

/-- C63: when the models lie exactly on a line (zero prediction error) the posterior carries the whole observed mass. -/
theorem C63_mass (xs ys : List (Option ℝ)) {nc nt : ℕ} {cg tg obs : ℕ → ℝ} {post : ℕ → ℝ} {sd : Option ℝ} {mode : ℝ} {f : Fit}
    (hf : fit xs ys = .ok f) (h0 : f.predErr = 0) (e : posterior xs ys nc cg nt tg obs = .ok (post, sd, mode)) :
    ∑ j ∈ Finset.range nt, post j = ∑ k ∈ Finset.range nc, obs k * (cg 1 - cg 0) := by
  unfold posterior at e
  rw [hf] at e
  simp only [bind, Except.bind] at e
  by_cases g1 : nc < 2
  · rw [if_pos g1] at e; exact absurd e (by simp)
  rw [if_neg g1] at e
  by_cases g2 : nt = 0
  · rw [if_pos g2] at e; exact absurd e (by simp)
  rw [if_neg g2] at e
  simp only [pure, Except.pure, Except.ok.injEq, Prod.mk.injEq] at e
  obtain ⟨e1, -, -⟩ := e
  rw [← e1, if_neg (by rintro ⟨k, -, hk⟩; rw [h0, predictionStd_zero] at hk; exact lt_irrefl _ hk), Finset.sum_comm]
  refine Finset.sum_congr rfl fun k _ => ?_
  rw [Finset.sum_ite_eq, if_pos (Finset.mem_range.mpr (argmin_spec (Nat.pos_of_ne_zero g2) _).1)]

/-! The hypotheses are met by non-trivial data. -/

example : Spec.Valid [some 0, none, some 1, some 2] [some 1, some 5, some 2, some 4] [(0, 1), (1, 2), (2, 4)] := by
  simp [Spec.Valid]

example : ∃ f, fit [some 0, none, some 1, some 2] [some 1, some 5, some 2, some 4] = .ok f :=
  (C49_rejected _ _ (p := [(0, 1), (1, 2), (2, 4)]) (by simp [Spec.Valid])).mpr ⟨rfl, by simp⟩

example : Spec.FirstMax 4 (fun i => if i = 2 then 5 else i) 2 ∧ 0 < ∑ j ∈ Finset.range 4, (fun i : ℕ => if i = 2 then (5 : ℝ) else i) j := by
  refine ⟨⟨by norm_num, fun j hj => ?_, fun j hj => ?_⟩, by norm_num [Finset.sum_range_succ]⟩
  · have : j = 0 ∨ j = 1 ∨ j = 2 ∨ j = 3 := by omega
    rcases this with rfl | rfl | rfl | rfl <;> norm_num
  · have : j = 0 ∨ j = 1 := by omega
    rcases this with rfl | rfl <;> norm_num

end Skyborn.Calc
