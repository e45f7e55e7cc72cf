/-
C69-C73: `interp_hybrid_to_pressure`.
-/
import Verif.Interp.HybridPaths
import Mathlib.Tactic.NormNum
import Mathlib.Tactic.IntervalCases

namespace Skyborn.Hybrid

open Spec

namespace Spec

/-- Pressure of model level `k` of the column `(o, i)` with surface pressure `s`: `p = a p0 + b ps`. -/
def levelPressure (r : Req) (s : ℝ) (k : ℕ) : ℝ := r.hyam k * r.p0 + r.hybm k * s

/-- The arguments satisfy the documented requirements of the extrapolation options. -/
def ArgsOk (r : Req) : Prop :=
  (r.extrapolate = true → r.varName ≠ none) ∧
  ((r.varName = some .temperature ∨ r.varName = some .geopotential) → r.tBot ≠ none ∧ r.phiSfc ≠ none)

/-- Every column with a finite surface pressure has strictly monotonic level pressures, in the domain of the method's coordinate. -/
def Columns (r : Req) : Prop :=
  ∀ o < r.nouter, ∀ i < r.ninner, ∀ s, r.ps o i = some s →
    Strict r.nlevi (levelPressure r s) ∧ ∀ k, 1 ≤ k → k ≤ r.nlevi → Dom r.method (levelPressure r s k)

/-- Entry `(o, k, i)` of the result exists. -/
def Entry (r : Req) (o k i : ℕ) : Prop := o < r.nouter ∧ 1 ≤ k ∧ k ≤ r.nlevo ∧ i < r.ninner

end Spec

theorem run_value (al : Bool) (empty : ℕ → ℝ) (r : Req) (hn : 1 ≤ r.nlevi) (hc : Columns r) (ha : ArgsOk r) :
    ∃ out, hybridToPressure al empty r = .ok out ∧ ∀ o k i, Entry r o k i → out o k i = decode (rawValue r o k i) := by
  obtain ⟨out, e, h⟩ := hybrid_value al empty r hn (fun o ho i hi s hs => hc o ho i hi s hs)
    (by
      intro h
      rw [Bool.and_eq_true, Option.isNone_iff_eq_none] at h
      exact ha.1 h.1 h.2)
    (by
      rintro ⟨h1, h2⟩
      have := ha.2 h1
      rw [Option.isNone_iff_eq_none, Option.isNone_iff_eq_none] at h2
      rcases h2 with h2 | h2
      · exact this.1 h2
      · exact this.2 h2)
  exact ⟨out, e, fun o k i ⟨a, b, c, d⟩ => h o k i a b c d⟩

theorem run_value' {al : Bool} {empty : ℕ → ℝ} {r : Req} (hn : 1 ≤ r.nlevi) (hc : Columns r) (ha : ArgsOk r) {out : ℕ → ℕ → ℕ → Option ℝ}
    (hr : hybridToPressure al empty r = .ok out) {o k i : ℕ} (he : Entry r o k i) : out o k i = decode (rawValue r o k i) := by
  obtain ⟨out', e, h⟩ := run_value al empty r hn hc ha
  rw [hr] at e
  cases e
  exact h o k i he

theorem spvl_neg : spvl < 0 := by unfold spvl; norm_num

theorem rawValue_some {r : Req} {o k i : ℕ} {s : ℝ} (hs : r.ps o i = some s) (hpos : 0 < s) :
    rawValue r o k i = levelValue r.below r.method.intyp r.nlevi (fun k => r.data o k i) (fun k => levelPressure r s k * 0.01) spvl
      (r.levels k * 0.01) (s * 0.01) (r.aux r.tBot o i) (r.aux r.phiSfc o i) := by
  have hne : ¬ s = spvl := fun h => by linarith [spvl_neg]
  rw [rawValue, hs]
  simp only [Option.getD_some]
  rw [if_neg hne, build_eq]; rfl

theorem decode_of_ne {v : ℝ} (h : v ≠ spvl) : decode v = some v := by rw [decode, if_neg h]

theorem decode_spvl : decode spvl = none := by rw [decode, if_pos rfl]

theorem decode_some {v w : ℝ} (h : decode v = some w) : v = w := by
  unfold decode at h
  split at h
  · exact absurd h (by simp)
  · exact Option.some.inj h

/-- The direction flag of a strictly monotonic column. -/
theorem strict_flag {n : ℕ} {p : ℕ → ℝ} (hn : 2 ≤ n) (h : Strict n p) :
    ∀ k, 1 ≤ k → k < n → if decide (p 1 ≤ p n) then p k < p (k + 1) else p (k + 1) < p k := by
  rcases h with hs | hs
  · have := strict_lt (asc := true) (n := n) (p := p) (by simpa using hs) 1 n le_rfl (by omega) le_rfl
    simp only [if_true] at this
    rw [decide_eq_true (le_of_lt this)]; simpa using hs
  · have := strict_lt (asc := false) (n := n) (p := p) (by simpa using hs) 1 n le_rfl (by omega) le_rfl
    simp only [Bool.false_eq_true, if_false] at this
    rw [decide_eq_false (not_le.2 this)]; simpa using hs

theorem lowest_max {n : ℕ} {p : ℕ → ℝ} (hn : 1 ≤ n) (h : Strict n p) : ∀ k, 1 ≤ k → k ≤ n → p k ≤ p (lowestIdx n (decide (p 1 ≤ p n))) := by
  intro k h1 h2
  rcases Nat.lt_or_ge n 2 with hn2 | hn2
  · have e1 : n = 1 := by omega
    have e2 : k = 1 := by omega
    subst e1; subst e2
    unfold lowestIdx; split <;> exact le_rfl
  have hf := strict_flag hn2 h
  generalize decide (p 1 ≤ p n) = asc at *
  have := strict_lt hf
  cases asc
  · simp only [lowestIdx, Bool.false_eq_true, if_false] at this ⊢
    rcases Nat.lt_or_ge 1 k with hk | hk
    · exact le_of_lt (this 1 k le_rfl hk h2)
    · have : k = 1 := by omega
      rw [this]
  · simp only [lowestIdx, if_true] at this ⊢
    rcases Nat.lt_or_ge k n with hk | hk
    · exact le_of_lt (this k n h1 hk le_rfl)
    · have : k = n := by omega
      rw [this]

theorem strict_inj {n : ℕ} {p : ℕ → ℝ} (h : Strict n p) {i j : ℕ} (hi : 1 ≤ i) (hin : i ≤ n) (hj : 1 ≤ j) (hjn : j ≤ n) (he : p i = p j) :
    i = j := by
  rcases lt_trichotomy i j with hij | hij | hij
  · exfalso
    have := strict_lt (strict_flag (by omega) h) i j hi hij hjn
    generalize decide (p 1 ≤ p n) = asc at *
    cases asc <;> simp at this <;> linarith
  · exact hij
  · exfalso
    have := strict_lt (strict_flag (by omega) h) j i hj hij hin
    generalize decide (p 1 ≤ p n) = asc at *
    cases asc <;> simp at this <;> linarith

/-- Any acceptable pair gives the value of a level that is not below the lowest model level. -/
theorem levelValue_in (m : Method) {n : ℕ} {x p : ℕ → ℝ} {bel : Below} {spv t psmb tbot phis : ℝ} (hn : 2 ≤ n) (hs : Strict n p)
    (hd : ∀ k, 1 ≤ k → k ≤ n → Dom m (p k)) {j : ℕ} (hv : Valid (decide (p 1 ≤ p n)) n p t j)
    (ht : ¬ p (lowestIdx n (decide (p 1 ≤ p n))) < t) :
    levelValue bel m.intyp n x p spv t psmb tbot phis = interpValue m.intyp (x j) (x (j + 1)) t (p j) (p (j + 1)) spv := by
  obtain ⟨kp, e, b1, b2, b3⟩ := locate_range t p (decide (p 1 ≤ p n)) hn
  have hf := strict_flag hn hs
  have := pairValue_unique m (x := x) (spv := spv) hf hd (b3 (dle_of_strict hf)) hv
  rw [pairValue_ok b1 b2, pairValue_ok hv.1 hv.2.1] at this
  have := Option.some.inj this
  rw [levelValue, if_neg ht, e, ← this]
  simp only []
  rw [if_neg (by omega)]

theorem levelValue_below {intyp n : ℕ} {x p : ℕ → ℝ} {bel : Below} {spv t psmb tbot phis : ℝ}
    (ht : p (lowestIdx n (decide (p 1 ≤ p n))) < t) :
    levelValue bel intyp n x p spv t psmb tbot phis = (belowValue bel intyp n x p spv t psmb tbot phis (decide (p 1 ≤ p n))).getD spv := by
  rw [levelValue, if_pos ht]

/-- A level between two adjacent model levels is acceptably bracketed by them. -/
theorem valid_of_between {n : ℕ} {p : ℕ → ℝ} {t : ℝ} (hn : 2 ≤ n) (hs : Strict n p) {j : ℕ} (hj : 1 ≤ j) (hjn : j < n)
    (hb : Between (p j) (p (j + 1)) t) : Valid (decide (p 1 ≤ p n)) n p t j := by
  have hf := strict_flag hn hs j hj hjn
  generalize decide (p 1 ≤ p n) = asc at *
  obtain ⟨b1, b2⟩ := hb
  refine ⟨hj, hjn, Or.inr ?_, Or.inr ?_⟩
  · cases asc
    · simp only [dle, Bool.false_eq_true, if_false] at hf ⊢; rw [max_eq_left (le_of_lt hf)] at b2; exact b2
    · simp only [dle, if_true] at hf ⊢; rw [min_eq_left (le_of_lt hf)] at b1; exact b1
  · cases asc
    · simp only [dle, Bool.false_eq_true, if_false] at hf ⊢; rw [min_eq_right (le_of_lt hf)] at b1; exact b1
    · simp only [dle, if_true] at hf ⊢; rw [max_eq_right (le_of_lt hf)] at b2; exact b2

theorem kcoord_sub (m : Method) {p q : ℝ} (hp : Dom m p) (hq : Dom m q) :
    ∃ c : ℝ, c ≠ 0 ∧ (∀ a b, Dom m a → Dom m b → kcoord m (a * 0.01) - kcoord m (b * 0.01) = c * (coord m a - coord m b)) := by
  cases m
  · exact ⟨0.01, by norm_num, fun a b _ _ => by simp only [kcoord, coord]; ring⟩
  · refine ⟨1, by norm_num, fun a b ha hb => ?_⟩
    have h1 : a ≠ 0 := ne_of_gt ha
    have h2 : b ≠ 0 := ne_of_gt hb
    simp only [kcoord, coord]
    rw [Real.log_mul h1 (by norm_num), Real.log_mul h2 (by norm_num)]; ring
  · refine ⟨1, by norm_num, fun a b _ _ => ?_⟩
    simp only [kcoord, coord, doubleLog]
    rw [show a * 0.01 = a / 100 by ring, show b * 0.01 = b / 100 by ring]; ring

theorem dom_of_between {m : Method} {a b t : ℝ} (ha : Dom m a) (hb : Dom m b) (h : Between a b t) : Dom m t := by
  have h1 := h.1
  cases m
  · exact trivial
  · exact lt_of_lt_of_le (lt_min ha hb) h1
  · exact le_trans (le_min ha hb) h1

theorem onLine_value (m : Method) {xl xu t pl pu spv : ℝ} (hl : Dom m pl) (hu : Dom m pu) (ht : Dom m t) (hne : pl ≠ pu) :
    OnLine (coord m pl) xl (coord m pu) xu (coord m t) (interpValue m.intyp xl xu (t * 0.01) (pl * 0.01) (pu * 0.01) spv) := by
  obtain ⟨c, hc, h⟩ := kcoord_sub m hl hu
  rw [interpValue_eq m (dom_scale hl) (dom_scale hu) (dom_scale ht), h t pl ht hl, h pu pl hu hl]
  have hd : coord m pu - coord m pl ≠ 0 := by
    intro h0
    have h1 := h pu pl hu hl
    rw [h0, mul_zero] at h1
    have h2 : pl * 0.01 ≠ pu * 0.01 := fun hh => hne (mul_right_cancel₀ (by norm_num) hh)
    exact kcoord_ne (dom_scale hl) (dom_scale hu) h2 (by linarith)
  unfold OnLine
  field_simp
  ring

theorem between_value (m : Method) {xl xu t pl pu spv : ℝ} (hl : Dom m pl) (hu : Dom m pu) (hne : pl ≠ pu) (hb : Between pl pu t) :
    Between xl xu (interpValue m.intyp xl xu t pl pu spv) := by
  have ht := dom_of_between hl hu hb
  rw [interpValue_eq m hl hu ht]
  obtain ⟨b1, b2⟩ := hb
  have kle : ∀ {a b : ℝ}, Dom m a → a ≤ b → kcoord m a ≤ kcoord m b := by
    intro a b ha hab
    rcases eq_or_lt_of_le hab with h | h
    · rw [h]
    · exact le_of_lt (kcoord_lt ha h)
  have hw : ∃ w : ℝ, 0 ≤ w ∧ w ≤ 1 ∧ (kcoord m t - kcoord m pl) / (kcoord m pu - kcoord m pl) = w := by
    refine ⟨_, ?_, ?_, rfl⟩
    · rcases lt_or_gt_of_ne hne with h | h
      · rw [min_eq_left (le_of_lt h)] at b1
        exact div_nonneg (by linarith [kle hl b1]) (by linarith [kcoord_lt hl h])
      · rw [max_eq_left (le_of_lt h)] at b2
        exact div_nonneg_of_nonpos (by linarith [kle ht b2]) (by linarith [kcoord_lt hu h])
    · rcases lt_or_gt_of_ne hne with h | h
      · rw [max_eq_right (le_of_lt h)] at b2
        rw [div_le_one (by linarith [kcoord_lt hl h])]
        linarith [kle ht b2]
      · rw [min_eq_right (le_of_lt h)] at b1
        rw [div_le_one_of_neg (by linarith [kcoord_lt hu h])]
        linarith [kle hu b1]
  obtain ⟨w, w0, w1, e⟩ := hw
  rw [mul_div_assoc, e]
  constructor
  · rcases le_total xl xu with h | h
    · rw [min_eq_left h]; nlinarith
    · rw [min_eq_right h]; nlinarith
  · rcases le_total xl xu with h | h
    · rw [max_eq_right h]; nlinarith
    · rw [max_eq_left h]; nlinarith

theorem between_scale {a b t : ℝ} (h : Between a b t) : Between (a * 0.01) (b * 0.01) (t * 0.01) := by
  obtain ⟨h1, h2⟩ := h
  rw [min_le_iff] at h1
  rw [le_max_iff] at h2
  constructor
  · rw [min_le_iff]
    rcases h1 with h | h
    · left; linarith
    · right; linarith
  · rw [le_max_iff]
    rcases h2 with h | h
    · left; linarith
    · right; linarith

/-! ### C69 -/

/-- C69. A requested pressure between two adjacent model levels gets the value on the straight line through these two levels, in the
coordinate of the method, and between their two values. -/
theorem C69_on_line {al : Bool} {empty : ℕ → ℝ} {r : Req} {out : ℕ → ℕ → ℕ → Option ℝ} (hn : 2 ≤ r.nlevi) (hc : Columns r) (ha : ArgsOk r)
    (hr : hybridToPressure al empty r = .ok out) {o k i : ℕ} (he : Entry r o k i) {s : ℝ} (hs : r.ps o i = some s) (hpos : 0 < s)
    {j : ℕ} (hj : 1 ≤ j) (hjn : j < r.nlevi) (hb : Between (levelPressure r s j) (levelPressure r s (j + 1)) (r.levels k))
    (hx : spvl < r.data o j i) (hx' : spvl < r.data o (j + 1) i) :
    ∃ v, out o k i = some v ∧
      OnLine (coord r.method (levelPressure r s j)) (r.data o j i) (coord r.method (levelPressure r s (j + 1))) (r.data o (j + 1) i)
        (coord r.method (r.levels k)) v ∧
      Between (r.data o j i) (r.data o (j + 1) i) v := by
  obtain ⟨g1, g2⟩ := hc o he.1 i he.2.2.2 s hs
  have hs2 := strict_scale g1
  have hd2 : ∀ k, 1 ≤ k → k ≤ r.nlevi → Dom r.method (levelPressure r s k * 0.01) := fun k h1 h2 => dom_scale (g2 k h1 h2)
  have hv := valid_of_between hn hs2 hj hjn (between_scale hb)
  have hnb : ¬ (fun k => levelPressure r s k * 0.01) (lowestIdx r.nlevi (decide ((fun k => levelPressure r s k * 0.01) 1 ≤
      (fun k => levelPressure r s k * 0.01) r.nlevi))) < r.levels k * 0.01 := by
    have m1 := lowest_max (by omega) hs2 j hj (by omega)
    have m2 := lowest_max (by omega) hs2 (j + 1) (by omega) (by omega)
    have := (between_scale hb).2
    rw [not_lt]
    exact le_trans this (max_le m1 m2)
  have hne : levelPressure r s j ≠ levelPressure r s (j + 1) := by
    intro h
    have := strict_inj g1 hj (by omega) (by omega) (by omega) h
    omega
  have hne2 : levelPressure r s j * 0.01 ≠ levelPressure r s (j + 1) * 0.01 := fun h => hne (mul_right_cancel₀ (by norm_num) h)
  have hbt : Between (r.data o j i) (r.data o (j + 1) i) (rawValue r o k i) := by
    rw [rawValue_some hs hpos, levelValue_in r.method hn hs2 hd2 hv hnb]
    exact between_value r.method (hd2 j hj (by omega)) (hd2 (j + 1) (by omega) (by omega)) hne2 (between_scale hb)
  refine ⟨rawValue r o k i, ?_, ?_, hbt⟩
  · rw [run_value' (by omega) hc ha hr he, decode_of_ne]
    have := hbt.1
    have h2 : spvl < min (r.data o j i) (r.data o (j + 1) i) := lt_min hx hx'
    exact ne_of_gt (by linarith)
  · rw [rawValue_some hs hpos, levelValue_in r.method hn hs2 hd2 hv hnb]
    exact onLine_value r.method (g2 j hj (by omega)) (g2 (j + 1) (by omega) (by omega))
      (dom_of_between (g2 j hj (by omega)) (g2 (j + 1) (by omega) (by omega)) hb) hne

/-- C69. A column with a non-finite surface pressure is missing at every level; the call succeeds on every valid input. -/
theorem C69_total (al : Bool) (empty : ℕ → ℝ) (r : Req) (hn : 1 ≤ r.nlevi) (hc : Columns r) (ha : ArgsOk r) :
    ∃ out, hybridToPressure al empty r = .ok out ∧ ∀ o k i, Entry r o k i → r.ps o i = none → out o k i = none := by
  obtain ⟨out, e, h⟩ := run_value al empty r hn hc ha
  refine ⟨out, e, fun o k i he hp => ?_⟩
  rw [h o k i he, rawValue, hp]
  simp only [Option.getD_none, if_true]
  exact decode_spvl

/-- C69. `extrapolate=True` without `variable`, and a temperature or geopotential request without `t_bot` and `phi_sfc`, raise. -/
theorem C69_errors (al : Bool) (empty : ℕ → ℝ) (r : Req) :
    (r.extrapolate = true → r.varName = none → hybridToPressure al empty r = .error .variableRequired) ∧
    ((r.varName = some .temperature ∨ r.varName = some .geopotential) → (r.tBot = none ∨ r.phiSfc = none) →
      hybridToPressure al empty r = .error .fieldsRequired) := by
  constructor
  · intro h1 h2
    rw [hybridToPressure, if_pos (by rw [h1, h2]; rfl)]
  · intro h1 h2
    have h3 : ¬ (r.extrapolate && r.varName.isNone) = true := by
      rcases h1 with h1 | h1 <;> rw [h1] <;> simp
    rw [hybridToPressure, if_neg h3, if_pos ⟨h1, by simpa [Option.isNone_iff_eq_none] using h2⟩]

/-! ### C70: no extrapolation -/

/-- C70 (partial). With `extrapolate=False` a level below the lowest model level is missing. -/
theorem C70_below_partial {al : Bool} {empty : ℕ → ℝ} {r : Req} {out : ℕ → ℕ → ℕ → Option ℝ} (hn : 1 ≤ r.nlevi) (hc : Columns r)
    (ha : ArgsOk r) (hex : r.extrapolate = false) (hr : hybridToPressure al empty r = .ok out) {o k i : ℕ} (he : Entry r o k i) {s : ℝ}
    (hs : r.ps o i = some s) (hpos : 0 < s) (hb : ∀ j, 1 ≤ j → j ≤ r.nlevi → levelPressure r s j < r.levels k) : out o k i = none := by
  rw [run_value' hn hc ha hr he, rawValue_some hs hpos, levelValue_below]
  · have : r.below = .missing := by rw [Req.below, hex]; rfl
    rw [this]
    exact decode_spvl
  · obtain ⟨h1, h2⟩ := lowestIdx_range hn (decide (levelPressure r s 1 * 0.01 ≤ levelPressure r s r.nlevi * 0.01))
    have := hb _ h1 h2
    beta_reduce
    linarith

/-- C70 (partial). Above the model top (a pressure lower than every level) the value is not missing but continues the line through the top
two levels, whatever `extrapolate` is. -/
theorem C70_above_partial {al : Bool} {empty : ℕ → ℝ} {r : Req} {out : ℕ → ℕ → ℕ → Option ℝ} (hn : 2 ≤ r.nlevi) (hc : Columns r)
    (ha : ArgsOk r) (hr : hybridToPressure al empty r = .ok out) {o k i : ℕ} (he : Entry r o k i) {s : ℝ} (hs : r.ps o i = some s)
    (hpos : 0 < s) (ht : Dom r.method (r.levels k)) {j : ℕ}
    (hj : j = 1 ∧ levelPressure r s 1 < levelPressure r s 2 ∨ j + 1 = r.nlevi ∧ levelPressure r s 2 < levelPressure r s 1)
    (hb : ∀ j, 1 ≤ j → j ≤ r.nlevi → r.levels k < levelPressure r s j) :
    ∃ v, (v ≠ spvl → out o k i = some v) ∧
      OnLine (coord r.method (levelPressure r s j)) (r.data o j i) (coord r.method (levelPressure r s (j + 1))) (r.data o (j + 1) i)
        (coord r.method (r.levels k)) v := by
  obtain ⟨g1, g2⟩ := hc o he.1 i he.2.2.2 s hs
  have hs2 := strict_scale g1
  have hd2 : ∀ k, 1 ≤ k → k ≤ r.nlevi → Dom r.method (levelPressure r s k * 0.01) := fun k h1 h2 => dom_scale (g2 k h1 h2)
  have hjr : 1 ≤ j ∧ j < r.nlevi := by omega
  have hv : Valid (decide ((fun k => levelPressure r s k * 0.01) 1 ≤ (fun k => levelPressure r s k * 0.01) r.nlevi)) r.nlevi
      (fun k => levelPressure r s k * 0.01) (r.levels k * 0.01) j := by
    have hf := strict_flag hn hs2 1 le_rfl (by omega)
    generalize decide ((fun k => levelPressure r s k * 0.01) 1 ≤ (fun k => levelPressure r s k * 0.01) r.nlevi) = asc at *
    have hlo := hb (j + 1) (by omega) (by omega)
    have hlo' := hb j (by omega) (by omega)
    rcases hj with ⟨h1, h2⟩ | ⟨h1, h2⟩
    · have : asc = true := by
        cases asc
        · exfalso; simp only [Bool.false_eq_true, if_false, Nat.reduceAdd] at hf; linarith
        · rfl
      rw [this]
      exact ⟨hjr.1, hjr.2, Or.inl h1, Or.inr (by simp only [dle, if_true]; linarith)⟩
    · have : asc = false := by
        cases asc
        · rfl
        · exfalso; simp only [if_true, Nat.reduceAdd] at hf; linarith
      rw [this]
      exact ⟨hjr.1, hjr.2, Or.inr (by simp only [dle, Bool.false_eq_true, if_false]; linarith), Or.inl (by omega)⟩
  have hnb : ¬ (fun k => levelPressure r s k * 0.01) (lowestIdx r.nlevi (decide ((fun k => levelPressure r s k * 0.01) 1 ≤
      (fun k => levelPressure r s k * 0.01) r.nlevi))) < r.levels k * 0.01 := by
    have m1 := lowest_max (by omega) hs2 j hjr.1 (by omega)
    have := hb j hjr.1 (by omega)
    rw [not_lt]
    refine le_trans ?_ m1
    beta_reduce
    linarith
  have hne : levelPressure r s j ≠ levelPressure r s (j + 1) := by
    intro h
    have := strict_inj g1 hjr.1 (by omega) (by omega) (by omega) h
    omega
  refine ⟨rawValue r o k i, fun h => ?_, ?_⟩
  · rw [run_value' (by omega) hc ha hr he, decode_of_ne h]
  · rw [rawValue_some hs hpos, levelValue_in r.method hn hs2 hd2 hv hnb]
    exact onLine_value r.method (g2 j hjr.1 (by omega)) (g2 (j + 1) (by omega) (by omega)) ht hne

/-- A two-level column with pressures 1 and 2 and values 1 and 2, one requested pressure. -/
noncomputable def topReq (t : ℝ) : Req where
  nouter := 1
  nlevi := 2
  ninner := 1
  nlevo := 1
  data := fun _ k _ => (k : ℝ)
  ps := fun _ _ => some 1
  hyam := fun _ => 0
  hybm := fun k => (k : ℝ)
  p0 := 100000
  levels := fun _ => t
  method := .linear
  extrapolate := false
  varName := none
  tBot := none
  phiSfc := none

theorem topReq_columns (t : ℝ) : Columns (topReq t) := by
  intro o _ i _ s hs
  have : s = 1 := (Option.some.inj hs).symm
  subst this
  refine ⟨Or.inl ?_, fun _ _ _ => trivial⟩
  intro k _ _
  simp [levelPressure, topReq]

theorem topReq_args (t : ℝ) : ArgsOk (topReq t) := ⟨fun h => by simp [topReq] at h, fun h => by simp [topReq] at h⟩

/-- C70 is false as stated: with `extrapolate=False` a pressure above the model top gets an extrapolated value, outside the range of the
column's data. -/
theorem C70_false : ∃ (r : Req) (out : ℕ → ℕ → ℕ → Option ℝ) (v : ℝ), r.extrapolate = false ∧ Columns r ∧ ArgsOk r ∧
    hybridToPressure true (fun _ => 0) r = .ok out ∧ (∀ j, 1 ≤ j → j ≤ r.nlevi → r.levels 1 < levelPressure r 1 j) ∧ r.ps 0 0 = some 1 ∧
    out 0 1 0 = some v ∧ ∀ j, 1 ≤ j → j ≤ r.nlevi → v < r.data 0 j 0 := by
  obtain ⟨out, e, -⟩ := run_value true (fun _ => 0) (topReq 0.5) (by simp [topReq]) (topReq_columns _) (topReq_args _)
  have hlt : ∀ j, 1 ≤ j → j ≤ (topReq 0.5).nlevi → (topReq 0.5).levels 1 < levelPressure (topReq 0.5) 1 j := by
    intro j h1 h2
    have : (1 : ℝ) ≤ j := by exact_mod_cast h1
    simp only [levelPressure, topReq]
    norm_num
    linarith
  have h := C70_above_partial (r := topReq 0.5) (out := out) (o := 0) (k := 1) (i := 0) (s := 1) (j := 1) (by simp [topReq])
    (topReq_columns _) (topReq_args _) e ⟨by simp [topReq], le_rfl, by simp [topReq], by simp [topReq]⟩ rfl (by norm_num) trivial
    (Or.inl ⟨rfl, by simp [levelPressure, topReq]⟩) hlt
  obtain ⟨v, hv, hl⟩ := h
  have : v = 0.5 := by
    simp [OnLine, coord, levelPressure, topReq] at hl
    norm_num at hl
    linarith
  subst this
  refine ⟨topReq 0.5, out, 0.5, rfl, topReq_columns _, topReq_args _, e, hlt, rfl, hv (by unfold spvl; norm_num), ?_⟩
  intro j h1 _
  have : (1 : ℝ) ≤ j := by exact_mod_cast h1
  simp only [topReq]
  norm_num
  linarith

/-- Non-vacuity of C69: a column and a level between its two levels. -/
example : ∃ out v, hybridToPressure true (fun _ => 0) (topReq 1.5) = .ok out ∧ out 0 1 0 = some v ∧ v = 1.5 := by
  obtain ⟨out, e, -⟩ := run_value true (fun _ => 0) (topReq 1.5) (by simp [topReq]) (topReq_columns _) (topReq_args _)
  obtain ⟨v, hv, hl, -⟩ := C69_on_line (r := topReq 1.5) (out := out) (o := 0) (k := 1) (i := 0) (s := 1) (j := 1) (by simp [topReq])
    (topReq_columns _) (topReq_args _) e ⟨by simp [topReq], le_rfl, by simp [topReq], by simp [topReq]⟩ rfl (by norm_num) le_rfl
    (by simp [topReq]) (by simp [Between, levelPressure, topReq]; norm_num) (by simp [topReq]; linarith [spvl_neg])
    (by simp [topReq]; linarith [spvl_neg])
  refine ⟨out, v, e, hv, ?_⟩
  simp [OnLine, coord, levelPressure, topReq] at hl
  norm_num at hl
  linarith

/-! ### C71: an entry depends only on its own column and level -/

/-- C71. The value of an entry depends only on its own column (data, surface pressure, auxiliary fields), on the coefficients and on its own
requested pressure: not on the memory layout or path, the number or order of the columns and of the requested levels, or the initial
contents of the output buffer. -/
theorem C71_local {al al' : Bool} {empty empty' : ℕ → ℝ} {r r' : Req} {out out' : ℕ → ℕ → ℕ → Option ℝ} (hn : 1 ≤ r.nlevi)
    (hc : Columns r) (ha : ArgsOk r) (hc' : Columns r') (ha' : ArgsOk r')
    (hr : hybridToPressure al empty r = .ok out) (hr' : hybridToPressure al' empty' r' = .ok out')
    {o k i o' k' i' : ℕ} (he : Entry r o k i) (he' : Entry r' o' k' i')
    (hnl : r'.nlevi = r.nlevi) (ha1 : r'.hyam = r.hyam) (hb1 : r'.hybm = r.hybm) (hp0 : r'.p0 = r.p0) (hm : r'.method = r.method)
    (hex : r'.extrapolate = r.extrapolate) (hv : r'.varName = r.varName)
    (hps : r'.ps o' i' = r.ps o i) (hlev : r'.levels k' = r.levels k) (hdat : ∀ j, r'.data o' j i' = r.data o j i)
    (ht : r'.tBot.map (fun f => f o' i') = r.tBot.map (fun f => f o i))
    (hph : r'.phiSfc.map (fun f => f o' i') = r.phiSfc.map (fun f => f o i)) : out' o' k' i' = out o k i := by
  rw [run_value' hn hc ha hr he, run_value' (by omega) hc' ha' hr' he']
  congr 1
  have hbel : r'.below = r.below := by unfold Req.below; rw [hex, hv]
  have haux : ∀ f f' : Option (ℕ → ℕ → ℝ), f'.map (fun f => f o' i') = f.map (fun f => f o i) → r'.aux f' o' i' = r.aux f o i := by
    intro f f' h
    unfold Req.aux
    rw [hbel]
    cases f with
    | none =>
      cases f' with
      | none => cases r.below <;> rfl
      | some g' => simp at h
    | some g =>
      cases f' with
      | none => simp at h
      | some g' =>
        simp at h
        cases r.below <;> simp [h]
  have hdat' : (fun k => r'.data o' k i') = fun k => r.data o k i := by funext j; exact hdat j
  unfold rawValue
  rw [hps, hbel, hm, hnl, hdat', ha1, hb1, hp0, hlev, haux _ _ ht, haux _ _ hph]

/-- C71. The contiguous fast path and the generic path return the same entries. -/
theorem C71_paths {empty empty' : ℕ → ℝ} {r : Req} {out out' : ℕ → ℕ → ℕ → Option ℝ} (hn : 1 ≤ r.nlevi) (hc : Columns r) (ha : ArgsOk r)
    (hr : hybridToPressure true empty r = .ok out) (hr' : hybridToPressure false empty' r = .ok out') {o k i : ℕ} (he : Entry r o k i) :
    out' o k i = out o k i :=
  C71_local hn hc ha hc ha hr hr' he he rfl rfl rfl rfl rfl rfl rfl rfl rfl (fun _ => rfl) rfl rfl

/-! ### C72: extrapolation only changes levels below the lowest model level -/

/-- C72. Switching extrapolation on changes no entry at or above the lowest model level. -/
theorem C72_only_below {al al' : Bool} {empty empty' : ℕ → ℝ} {r : Req} {out out' : ℕ → ℕ → ℕ → Option ℝ} (hn : 1 ≤ r.nlevi)
    (hc : Columns r) (ha : ArgsOk { r with extrapolate := true })
    (hr : hybridToPressure al empty { r with extrapolate := true } = .ok out)
    (hr' : hybridToPressure al' empty' { r with extrapolate := false } = .ok out') {o k i : ℕ} (he : Entry r o k i)
    (hin : ∀ s, r.ps o i = some s → 0 < s ∧ ∃ j, 1 ≤ j ∧ j ≤ r.nlevi ∧ r.levels k ≤ levelPressure r s j) : out o k i = out' o k i := by
  have ha' : ArgsOk { r with extrapolate := false } := ⟨fun h => by simp at h, ha.2⟩
  have e1 := run_value' (r := { r with extrapolate := true }) hn hc ha hr he
  have e2 := run_value' (r := { r with extrapolate := false }) hn hc ha' hr' he
  rw [e1, e2]
  congr 1
  cases hs : r.ps o i with
  | none => simp [rawValue, hs]
  | some s =>
    obtain ⟨hpos, j, hj1, hj2, hle⟩ := hin s hs
    rw [rawValue_some (r := { r with extrapolate := true }) hs hpos, rawValue_some (r := { r with extrapolate := false }) hs hpos]
    obtain ⟨g1, -⟩ := hc o he.1 i he.2.2.2 s hs
    have hs2 := strict_scale g1
    have m1 := lowest_max hn hs2 j hj1 hj2
    have hnb : ¬ (fun k => levelPressure r s k * 0.01) (lowestIdx r.nlevi (decide ((fun k => levelPressure r s k * 0.01) 1 ≤
        (fun k => levelPressure r s k * 0.01) r.nlevi))) < r.levels k * 0.01 := by
      rw [not_lt]
      refine le_trans ?_ m1
      beta_reduce
      linarith
    unfold levelValue
    simp only []
    change (if (fun k => levelPressure r s k * 0.01) (lowestIdx r.nlevi (decide ((fun k => levelPressure r s k * 0.01) 1 ≤
        (fun k => levelPressure r s k * 0.01) r.nlevi))) < r.levels k * 0.01 then _ else _) =
      (if (fun k => levelPressure r s k * 0.01) (lowestIdx r.nlevi (decide ((fun k => levelPressure r s k * 0.01) 1 ≤
        (fun k => levelPressure r s k * 0.01) r.nlevi))) < r.levels k * 0.01 then _ else _)
    rw [if_neg hnb, if_neg hnb]
    rfl

end Skyborn.Hybrid
