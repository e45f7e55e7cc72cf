/-
Concrete columns: one with a positive wind, one that is refused, one in which the iteration of CAPE fails.
-/
import Verif.Gpi.Call
import Mathlib.Analysis.Complex.ExponentialBounds

namespace Skyborn.Gpi

open Classical

theorem moist_dry (e : Env) (sig r lcl s : ℝ) (left : ℕ) : ∀ (level : ℕ) (d : ℕ → ℝ), (∀ l, level ≤ l → l < level + left → lcl ≤ e.p l) →
    moistLoop e sig r lcl s left level d = some d := by
  induction left with
  | zero => exact fun level d _ => rfl
  | succ left ih =>
    intro level d h
    rw [moistLoop]
    by_cases c : e.p level < 50
    · rw [if_pos c]
    · rw [if_neg c, if_neg (not_lt.mpr (h level le_rfl (by omega)))]
      exact ih _ _ fun l a b => h l (by omega) (by omega)

theorem cape_dry {e : Env} {sig t r p : ℝ} (hr : 1.0e-6 ≤ r) (ht : 200 ≤ t) (ht' : t ≤ 1500) (hp : 0 < p) (hl : ∀ l, 1 ≤ l → l ≤ e.n → condensation t r p ≤ e.p l) :
    cape e sig t r p = integrate e p (dryDiff e t r p (condensation t r p)) := by
  unfold cape
  rw [if_neg (by push Not; exact ⟨hr, ht⟩), if_neg]
  · rw [moist_dry _ _ _ _ _ _ _ _ fun l a b => hl l a (by omega)]
  · push Not
    refine ⟨hp, ?_⟩
    have : humidity t r p ≤ 1 := min_le_right _ _
    linarith

theorem humidity_range {t r p : ℝ} (hr : 0 ≤ r) (hp : 0 < p) : 0 ≤ humidity t r p ∧ humidity t r p ≤ 1 := by
  refine ⟨le_min (div_nonneg ?_ (satPressure_nonneg _)) zero_le_one, min_le_right _ _⟩
  unfold vapour
  have := eps_pos
  positivity

/-- A parcel condenses at or above its own level. -/
theorem condensation_le {t r p : ℝ} (hr : 0 ≤ r) (hp : 0 < p) (ht : 0 < t) (ht' : t ≤ 1500) : condensation t r p ≤ p := by
  obtain ⟨a, b⟩ := humidity_range (t := t) hr hp
  unfold condensation
  have h1 : 0 ≤ t / (1669 - 122 * humidity t r p - t) := div_nonneg ht.le (by linarith)
  have := Real.rpow_le_one a b h1
  nlinarith

/-- With one level there is no CAPE. -/
theorem integrate_one {e : Env} {p : ℝ} {d : ℕ → ℝ} (h : ∀ l, 1 < l → l ≤ e.n → d l ≤ 0) : integrate e p d = some ⟨0, e.t 1, 0, 1⟩ := by
  unfold integrate
  dsimp only
  rcases neutral_spec d e.n with ⟨a, _⟩ | ⟨a, b⟩
  · rw [if_pos a]
  · have := h _ (by omega) b.2.1
    have := b.2.2.1
    linarith

theorem es_bounds {t : ℝ} (h0 : 0 ≤ t) (h1 : 17.67 * t ≤ 2 * (243.5 + t)) : 6.112 ≤ satPressure t ∧ satPressure t ≤ 45.24 := by
  unfold satPressure
  have hp : 0 < 243.5 + t := by linarith
  rw [if_neg hp.ne']
  constructor
  · have : 1 ≤ Real.exp (17.67 * t / (243.5 + t)) := Real.one_le_exp (by positivity)
    linarith
  · have h2 : Real.exp (17.67 * t / (243.5 + t)) ≤ Real.exp 2 := by
      rw [Real.exp_le_exp, div_le_iff₀ hp]
      exact h1
    have h3 : Real.exp 2 = Real.exp 1 * Real.exp 1 := by rw [← Real.exp_add]; norm_num
    have h4 := Real.exp_one_lt_d9
    have h5 := Real.exp_pos 1
    have : Real.exp 2 ≤ 7.4 := by rw [h3]; nlinarith
    linarith

theorem eps_range : 0.62 < eps ∧ eps < 0.63 := by
  unfold eps rd rv
  constructor <;> norm_num

/-! ### A column with a positive wind -/

/-- Pressures 971, 970 and 50 mb, temperatures 300, 301 and 200 K, one g/kg at the lowest level; a sea of 303 K under 970 mb. -/
noncomputable def windy (source : ℕ) (ckcd : ℝ) : Column :=
  ⟨3, fun k => if k = 1 then 300 else if k = 2 then 301 else 200, fun k => if k = 1 then 971 else if k = 2 then 970 else 50,
    fun k => if k = 1 then 0.001 else 0, 303, 97000 * 0.01, source, ckcd⟩

theorem windy_env (source : ℕ) (ckcd : ℝ) : (windy source ckcd).env = ⟨2, (windy source ckcd).t, (windy source ckcd).p, fun i => if i = 1 then 0.001 else 0⟩ := by
  have h2 : nearest (windy source ckcd).p 3 = 3 := by
    rw [nearest, nearest, nearest]
    have e1 : (windy source ckcd).p 1 = 971 := rfl
    have e2 : (windy source ckcd).p 2 = 970 := rfl
    have e3 : (windy source ckcd).p 3 = 50 := rfl
    show (if |(windy source ckcd).p 3 - 50| < |(windy source ckcd).p (if |(windy source ckcd).p 2 - 50| < |(windy source ckcd).p 1 - 50| then 2 else 1) - 50| then 3 else _) = 3
    have h : |(windy source ckcd).p 2 - 50| < |(windy source ckcd).p 1 - 50| := by
      rw [e1, e2]; norm_num
    rw [if_pos h, if_pos]
    rw [e2, e3]; norm_num
  unfold Column.env
  have : (windy source ckcd).n = 3 := rfl
  rw [this, h2]
  congr 1
  funext i
  show max (if i = 1 then (0.001 : ℝ) else 0) 0 = _
  split_ifs
  · exact max_eq_left (by norm_num)
  · exact max_self 0

/-- The environment of `windy`. -/
noncomputable def windyEnv : Env :=
  ⟨2, fun k => if k = 1 then 300 else if k = 2 then 301 else 200, fun k => if k = 1 then 971 else if k = 2 then 970 else 50, fun i => if i = 1 then 0.001 else 0⟩

/-- The buoyancy of saturated sea air at the second level. -/
noncomputable def windyExcess : ℝ := virtualTemp 303 (satMixing (satPressure 29.85) 970) - 301

theorem virtual_ge {t r : ℝ} (ht : 0 ≤ t) (hr : 0 ≤ r) : t ≤ virtualTemp t r ∧ virtualTemp t r ≤ t * (1 + r / eps) := by
  unfold virtualTemp
  have he := eps_pos
  have h1 : r ≤ r * (1 / eps) := by
    rw [mul_one_div, le_div_iff₀ he]
    nlinarith [eps_range.2]
  constructor
  · rw [le_div_iff₀ (by linarith)]
    nlinarith
  · rw [mul_one_div]
    refine div_le_self (by positivity) (by linarith)

theorem low_air (p : ℝ) (hp : p = 971 ∨ p = 970) : condensation 300 0.001 p ≤ 970 ∧ cape windyEnv 0 300 0.001 p = some ⟨0, 300, 0, 1⟩ := by
  have hp0 : 0 < p := by rcases hp with h | h <;> rw [h] <;> norm_num
  have hp1 : p ≤ 971 := by rcases hp with h | h <;> rw [h]; norm_num
  have hp2 : 970 ≤ p := by rcases hp with h | h <;> rw [h]; norm_num
  have hl : condensation 300 0.001 p ≤ 970 := by
    rcases hp with rfl | rfl
    · obtain ⟨a, b⟩ := humidity_range (t := 300) (r := 0.001) (by norm_num) hp0
      have hh : humidity 300 0.001 971 ≤ 1 / 2 := by
        refine (min_le_left _ _).trans ?_
        have he := (es_bounds (t := 300 - 273.15) (by norm_num) (by norm_num)).1
        rw [div_le_iff₀ (by linarith)]
        have h1 : vapour 0.001 971 ≤ 2 := by
          unfold vapour
          rw [div_le_iff₀ (by linarith [eps_range.1])]
          linarith [eps_range.1]
        linarith
      unfold condensation
      generalize humidity 300 0.001 971 = x at a b hh
      have hx : (0.2 : ℝ) ≤ 300 / (1669 - 122 * x - 300) := by
        rw [le_div_iff₀ (by linarith)]
        linarith
      have h2 : x ^ (300 / (1669 - 122 * x - 300)) ≤ (1 / 2 : ℝ) ^ (0.2 : ℝ) := by
        rcases a.eq_or_lt with g | g
        · rw [← g, Real.zero_rpow (by norm_num)]
          positivity
        · exact (Real.rpow_le_rpow_of_exponent_ge g b hx).trans (Real.rpow_le_rpow a hh (by norm_num))
      have h3 : (1 / 2 : ℝ) ^ (0.2 : ℝ) ≤ 0.9 := by
        have : (1 / 2 : ℝ) ^ (0.2 : ℝ) ≤ ((0.9 : ℝ) ^ (5 : ℕ)) ^ (0.2 : ℝ) := Real.rpow_le_rpow (by norm_num) (by norm_num) (by norm_num)
        rw [← Real.rpow_natCast, ← Real.rpow_mul (by norm_num)] at this
        norm_num at this
        norm_num
        exact this
      linarith
    · exact condensation_le (by norm_num) hp0 (by norm_num) (by norm_num)
  refine ⟨hl, ?_⟩
  have hlev : ∀ l, 1 ≤ l → l ≤ windyEnv.n → (970 : ℝ) ≤ windyEnv.p l := by
    intro l a b
    change l ≤ 2 at b
    show (970 : ℝ) ≤ if l = 1 then 971 else if l = 2 then 970 else 50
    rcases (show l = 1 ∨ l = 2 by omega) with rfl | rfl
    · norm_num
    · norm_num
  rw [cape_dry (by norm_num) (by norm_num) (by norm_num) hp0 fun l a b => hl.trans (hlev l a b), integrate_one]
  · rfl
  · intro l a b
    change l ≤ 2 at b
    obtain rfl : l = 2 := by omega
    unfold dryDiff
    rw [if_pos]
    · show dryTemp 300 0.001 p 970 - virtualTemp 301 0 ≤ 0
      have h1 : ((970 : ℝ) / p) ^ (rd / cpd) ≤ 1 := Real.rpow_le_one (by positivity) (by rw [div_le_one hp0]; exact hp2) (by unfold rd cpd; norm_num)
      have h0 : 0 ≤ ((970 : ℝ) / p) ^ (rd / cpd) := by positivity
      have h2 := (virtual_ge (t := 300 * (970 / p) ^ (rd / cpd)) (r := 0.001) (by positivity) (by norm_num)).2
      have h3 := (virtual_ge (t := 301) (r := 0) (by norm_num) le_rfl).1
      unfold dryTemp
      have h4 : (0.001 : ℝ) / eps ≤ 0.002 := by
        rw [div_le_iff₀ eps_pos]
        linarith [eps_range.1]
      have h5 : (0 : ℝ) ≤ 0.001 / eps := div_nonneg (by norm_num) eps_pos.le
      nlinarith
    · show (970 : ℝ) ≥ 50 ∧ (970 : ℝ) ≥ _
      exact ⟨by norm_num, hl⟩

theorem sea_air : 6.112 ≤ satPressure 29.85 ∧ satPressure 29.85 ≤ 45.24 ∧ 0.001 ≤ satMixing (satPressure 29.85) 970 ∧ 2 ≤ windyExcess ∧ windyExcess ≤ 24 ∧
    cape windyEnv 0 303 (satMixing (satPressure 29.85) 970) 970 = some ⟨rd / 1941 * windyExcess, 301, 970, 1⟩ := by
  obtain ⟨e1, e2⟩ := es_bounds (t := 29.85) (by norm_num) (by norm_num)
  have ee := eps_range
  have hpos : 0 < 970 - satPressure 29.85 := by linarith
  have h1 : 0.001 ≤ satMixing (satPressure 29.85) 970 := by
    unfold satMixing
    rw [le_div_iff₀ hpos]
    nlinarith
  have h1' : satMixing (satPressure 29.85) 970 / eps ≤ 0.06 := by
    unfold satMixing
    rw [div_le_iff₀ (by linarith), div_le_iff₀ hpos]
    nlinarith
  have h2 : 2 ≤ windyExcess := by
    unfold windyExcess
    have := (virtual_ge (t := 303) (r := satMixing (satPressure 29.85) 970) (by norm_num) (by linarith)).1
    linarith
  have h3 : windyExcess ≤ 24 := by
    unfold windyExcess
    have := (virtual_ge (t := 303) (r := satMixing (satPressure 29.85) 970) (by norm_num) (by linarith)).2
    linarith
  refine ⟨e1, e2, h1, h2, h3, ?_⟩
  have hl := condensation_le (t := 303) (r := satMixing (satPressure 29.85) 970) (p := 970) (by linarith) (by norm_num) (by norm_num) (by norm_num)
  have hlev : ∀ l, 1 ≤ l → l ≤ windyEnv.n → (970 : ℝ) ≤ windyEnv.p l := by
    intro l a b
    change l ≤ 2 at b
    show (970 : ℝ) ≤ if l = 1 then 971 else if l = 2 then 970 else 50
    rcases (show l = 1 ∨ l = 2 by omega) with rfl | rfl
    · norm_num
    · norm_num
  rw [cape_dry (by linarith) (by norm_num) (by norm_num) (by norm_num) fun l a b => hl.trans (hlev l a b)]
  have hd : dryDiff windyEnv 303 (satMixing (satPressure 29.85) 970) 970 (condensation 303 (satMixing (satPressure 29.85) 970) 970) 2 = windyExcess := by
    unfold dryDiff
    rw [if_pos]
    · show dryTemp 303 (satMixing (satPressure 29.85) 970) 970 970 - virtualTemp 301 0 = _
      unfold dryTemp windyExcess
      rw [div_self (by norm_num), Real.one_rpow, mul_one]
      congr 1
      unfold virtualTemp
      norm_num
    · show (970 : ℝ) ≥ 50 ∧ (970 : ℝ) ≥ _
      exact ⟨by norm_num, hl⟩
  generalize dryDiff windyEnv 303 (satMixing (satPressure 29.85) 970) 970 (condensation 303 (satMixing (satPressure 29.85) 970) 970) = d at hd
  unfold integrate
  dsimp only
  have hn : neutral d windyEnv.n = 2 := by
    show neutral d 2 = 2
    rw [neutral, if_pos (by rw [hd]; linarith)]
  rw [hn, if_neg (by norm_num), if_neg (show ¬ 2 < windyEnv.n from lt_irrefl 2)]
  rw [add_zero, areas_eq]
  have he : Spec.energy windyEnv 970 d 2 = rd / 1941 * windyExcess := by
    unfold Spec.energy
    rw [Finset.sum_Ico_succ_top (by norm_num)]
    simp only [Finset.Ico_self, Finset.sum_empty, zero_add]
    show rd * (d 1 + d 2) * (971 - 970) / (971 + 970) + rd * (970 - 971) / (970 + 971) * d 1 = _
    rw [hd]
    ring
  rw [he, max_eq_left (mul_nonneg (by unfold rd; norm_num) (by linarith))]
  rfl

/-- The outflow temperature of `windy`. -/
noncomputable def windyOut (source : ℕ) : ℝ × ℝ := if source = 1 then (300, 0) else (301, 970)

theorem windy_pass (source : ℕ) (ckcd : ℝ) : (windy source ckcd).pass 970 =
    some (.ok ⟨0, rd / 1941 * windyExcess, windyOut source, satMixing (satPressure 29.85) 970⟩) := by
  obtain ⟨e1, e2, h1, _, _, hs⟩ := sea_air
  have he : (windy source ckcd).env = windyEnv := windy_env source ckcd
  have hp : (windy source ckcd).psl = 970 := by show (97000 : ℝ) * 0.01 = 970; norm_num
  have hsst : (windy source ckcd).sst - 273.15 = 29.85 := by show (303 : ℝ) - 273.15 = 29.85; norm_num
  have hr : windyEnv.r 1 = 0.001 := rfl
  have hm : min (970 : ℝ) 1000 = 970 := by norm_num
  unfold Column.pass
  dsimp only
  rw [he, hp, hsst, hr, hm]
  have hden : (970 : ℝ) * (eps + 0.001) - 0.001 * 970 = 970 * eps := by ring
  rw [hden, if_neg (by have := eps_pos; positivity)]
  have hq : eps * 0.001 * 970 / (970 * eps) = 0.001 := by
    have := eps_pos.ne'
    field_simp
  rw [hq]
  show (cape windyEnv 0 300 0.001 970 >>= _) = _
  rw [(low_air 970 (Or.inr rfl)).2]
  simp only [Option.bind_eq_bind, Option.bind_some]
  rw [if_neg (by norm_num), if_neg (by linarith)]
  show ((cape windyEnv 0 303 (satMixing (satPressure 29.85) 970) 970).bind _) = _
  rw [hs]
  rfl

theorem windy_mean (source : ℕ) (ckcd : ℝ) (q : Pass) (hq : q.rs = satMixing (satPressure 29.85) 970) : 300 ≤ (windy source ckcd).meanTemp q := by
  obtain ⟨_, _, h1, _⟩ := sea_air
  have he : (windy source ckcd).env = windyEnv := windy_env source ckcd
  unfold Column.meanTemp
  rw [he, hq]
  show 300 ≤ 0.5 * (virtualTemp 300 0.001 + virtualTemp 303 _)
  have a := (virtual_ge (t := 300) (r := 0.001) (by norm_num) (by norm_num)).1
  have b := (virtual_ge (t := 303) (r := satMixing (satPressure 29.85) 970) (by norm_num) (by linarith)).1
  linarith

/-- `windy` has a solution with a positive wind: `V² = 0.576 · 303 / T0 · CAPE*`. -/
theorem windy_core (source : ℕ) (ckcd : ℝ) : ∃ res, core (windy source ckcd) = some res ∧ res.flag = 1 ∧ 0 < res.vmax ∧
    res.vmax ^ 2 = 0.64 * 0.9 * (303 / (windyOut source).1) * (rd / 1941 * windyExcess) ∧ res.tout = (windyOut source).1 ∧ res.lout = (windyOut source).2 := by
  obtain ⟨_, _, h1, hx1, hx2, _⟩ := sea_air
  have he : (windy source ckcd).env = windyEnv := windy_env source ckcd
  have hp : (windy source ckcd).psl = 970 := by show (97000 : ℝ) * 0.01 = 970; norm_num
  have hrd : 0 < rd := by unfold rd; norm_num
  have ho : (300 : ℝ) ≤ (windyOut source).1 ∧ (windyOut source).1 ≤ 301 := by
    unfold windyOut
    split_ifs <;> norm_num
  have hc : 0 < rd / 1941 * windyExcess := by positivity
  set q : Pass := ⟨0, rd / 1941 * windyExcess, windyOut source, satMixing (satPressure 29.85) 970⟩ with hq
  have hmean := windy_mean source ckcd q rfl
  have hpn : 969.5 ≤ (windy source ckcd).pressure 0 (0.5 * 0.9) q ∧ (windy source ckcd).pressure 0 (0.5 * 0.9) q ≤ 970 := by
    unfold Column.pressure
    rw [hp]
    show 969.5 ≤ 970 * Real.exp (-max (0 - 0 + 0.5 * 0.9 * (303 / (windyOut source).1) * (rd / 1941 * windyExcess - 0)) 0 * (1 / rd) / _) ∧ _
    have h2 : 303 / (windyOut source).1 ≤ 1.01 := by rw [div_le_iff₀ (by linarith)]; linarith
    have h2' : 0 ≤ 303 / (windyOut source).1 := div_nonneg (by norm_num) (by linarith)
    have hm : max (0 - 0 + 0.5 * 0.9 * (303 / (windyOut source).1) * (rd / 1941 * windyExcess - 0)) 0 = rd * (0.45 / 1941 * (303 / (windyOut source).1) * windyExcess) := by
      rw [max_eq_left (by rw [sub_zero, sub_zero, zero_add]; positivity)]
      ring
    have h3 : 0 ≤ 0.45 / 1941 * (303 / (windyOut source).1) * windyExcess := by positivity
    have h4 : 0.45 / 1941 * (303 / (windyOut source).1) * windyExcess ≤ 0.01 := by
      have : (303 / (windyOut source).1) * windyExcess ≤ 1.01 * 24 := mul_le_mul h2 hx2 (by linarith) (by norm_num)
      linarith
    have hy : -max (0 - 0 + 0.5 * 0.9 * (303 / (windyOut source).1) * (rd / 1941 * windyExcess - 0)) 0 * (1 / rd) / (windy source ckcd).meanTemp q =
        -(0.45 / 1941 * (303 / (windyOut source).1) * windyExcess / (windy source ckcd).meanTemp q) := by
      rw [hm]
      field_simp
    have h5 : 0.45 / 1941 * (303 / (windyOut source).1) * windyExcess / (windy source ckcd).meanTemp q ≤ 0.0005 := by
      rw [div_le_iff₀ (by linarith)]
      linarith
    have h6 : 0 ≤ 0.45 / 1941 * (303 / (windyOut source).1) * windyExcess / (windy source ckcd).meanTemp q := div_nonneg h3 (by linarith)
    show 969.5 ≤ 970 * Real.exp (-max (0 - 0 + 0.5 * 0.9 * (303 / (windyOut source).1) * (rd / 1941 * windyExcess - 0)) 0 * (1 / rd) / (windy source ckcd).meanTemp q) ∧
      970 * Real.exp (-max (0 - 0 + 0.5 * 0.9 * (303 / (windyOut source).1) * (rd / 1941 * windyExcess - 0)) 0 * (1 / rd) / (windy source ckcd).meanTemp q) ≤ 970
    rw [hy]
    generalize 0.45 / 1941 * (303 / (windyOut source).1) * windyExcess / (windy source ckcd).meanTemp q = y at h5 h6
    have h7 := Real.add_one_le_exp (-y)
    have h8 : Real.exp (-y) ≤ 1 := Real.exp_le_one_iff.mpr (by linarith)
    constructor
    · linarith
    · linarith
  unfold core
  rw [if_neg]
  · rw [he]
    show ∃ res, (cape windyEnv 0 300 0.001 971 >>= _) = some res ∧ _
    rw [(low_air 971 (Or.inl rfl)).2]
    simp only [Option.bind_eq_bind, Option.bind_some]
    rw [if_neg (by norm_num)]
    show ∃ res, (windy source ckcd).iterate 0 200 970 (undef, undef) = some res ∧ _
    rw [Column.iterate, windy_pass]
    simp only [Option.bind_eq_bind, Option.bind_some]
    rw [← hq, if_neg (show ¬ q.out.1 = 0 by show ¬ (windyOut source).1 = 0; linarith), if_neg (by push Not; exact ⟨by norm_num, by linarith⟩), if_neg]
    · have hnn : ¬ 0.9 * ((windy source ckcd).sst / q.out.1) * max 0 (q.capes - q.capem) < 0 := by
        push Not
        show 0 ≤ 0.9 * (303 / (windyOut source).1) * max 0 (rd / 1941 * windyExcess - 0)
        have : 0 ≤ 303 / (windyOut source).1 := div_nonneg (by norm_num) (by linarith)
        positivity
      have hfin : ∃ res, (windy source ckcd).finish 0 q = some res := by
        unfold Column.finish
        dsimp only
        rw [if_neg hnn]
        exact ⟨_, rfl⟩
      obtain ⟨res, hres⟩ := hfin
      obtain ⟨⟨a1, a2, _, a3, a4⟩, a5, _⟩ := finish_inv hres
      have a6 : res.vmax ^ 2 = 0.64 * 0.9 * (303 / (windyOut source).1) * (rd / 1941 * windyExcess) := by
        rw [a4]
        show 0.64 * 0.9 * (303 / (windyOut source).1) * max 0 (rd / 1941 * windyExcess - 0) = _
        rw [sub_zero, max_eq_right hc.le]
      refine ⟨res, hres, a5, ?_, a6, a1, a2⟩
      rcases a3.eq_or_lt with g | g
      · rw [← g] at a6
        have : 0 < 303 / (windyOut source).1 := div_pos (by norm_num) (by linarith)
        have : 0 < 0.64 * 0.9 * (303 / (windyOut source).1) * (rd / 1941 * windyExcess) := by positivity
        rw [← a6] at this
        norm_num at this
      · exact g
    · push Not
      rw [abs_le]
      constructor <;> linarith
  · push Not
    refine ⟨by show (3 : ℕ) ≠ 0; norm_num, fun i _ _ => ?_⟩
    show 0 < if i = 1 then (971 : ℝ) else if i = 2 then 970 else 50
    split_ifs <;> norm_num

/-! ### Columns without a solution -/

/-- Dry air at the lowest level: flag 0, the sea level pressure and no wind. -/
theorem core_dry {c : Column} (hn : c.n ≠ 0) (hp : ∀ i, 1 ≤ i → i ≤ c.n → 0 < c.p i) (h : c.r 1 < 1.0e-6 ∨ c.t 1 < 200) : core c = some (c.early (undef, undef) 0) := by
  unfold core
  rw [if_neg (by push Not; exact ⟨hn, hp⟩)]
  have : cape c.env 0 (c.t 1) (c.env.r 1) (c.p 1) = some ⟨0, c.t 1, c.p 1, 0⟩ := by
    unfold cape
    rw [if_pos]
    · rfl
    · rcases h with h | h
      · left
        show max (c.r 1) 0 < 1.0e-6
        exact max_lt h (by norm_num)
      · exact Or.inr h
  rw [this]
  rfl

/-- Saturated air under a level whose temperature is not positive: flag 2, the sea level pressure and no wind. -/
theorem core_broken {c : Column} (hn : 2 ≤ c.env.n) (hp : ∀ i, 1 ≤ i → i ≤ c.n → 0 < c.p i) (ht : c.t 1 = 300) (hr : c.r 1 = 0.03) (hp1 : c.p 1 = 1000)
    (hp2 : 50 ≤ c.p 2 ∧ c.p 2 < 1000) (ht2 : c.t 2 ≤ 0) : core c = some (c.early (undef, undef) 2) := by
  have hcn : c.n ≠ 0 := by
    intro h
    have : c.env.n = max 1 (nearest c.p c.n - 1) := rfl
    rw [h] at this
    change c.env.n = max 1 (1 - 1) at this
    omega
  unfold core
  rw [if_neg (by push Not; exact ⟨hcn, hp⟩)]
  have hr' : c.env.r 1 = 0.03 := by
    show max (c.r 1) 0 = 0.03
    rw [hr]
    norm_num
  have hh : humidity 300 0.03 1000 = 1 := by
    refine min_eq_right ?_
    obtain ⟨e1, e2⟩ := es_bounds (t := 300 - 273.15) (by norm_num) (by norm_num)
    rw [le_div_iff₀ (by linarith), one_mul]
    refine e2.trans ?_
    unfold vapour
    rw [le_div_iff₀ (by linarith [eps_range.1])]
    unfold eps rd rv
    norm_num
  have hl : condensation 300 0.03 1000 = 1000 := by
    unfold condensation
    rw [hh, Real.one_rpow, mul_one]
  have hm : ∀ d s, moistLoop c.env 0 0.03 1000 s c.env.n 1 d = none := by
    intro d s
    obtain ⟨m, hm⟩ : ∃ m, c.env.n = m + 2 := ⟨c.env.n - 2, by omega⟩
    rw [hm, moistLoop, if_neg (by show ¬ c.p 1 < 50; rw [hp1]; norm_num), if_neg (by show ¬ c.p 1 < 1000; rw [hp1]; norm_num), moistLoop,
      if_neg (by show ¬ c.p 2 < 50; linarith [hp2.1]), if_pos (show c.env.p (1 + 1) < 1000 from hp2.2)]
    have : newton 0.03 (c.env.p (1 + 1)) s 500 0 (c.env.t (1 + 1)) (satPressure (c.env.t (1 + 1) - 273.15)) = none := by
      rw [newton, if_pos (Or.inl (show c.env.t (1 + 1) ≤ 0 from ht2))]
    rw [this]
  have : cape c.env 0 (c.t 1) (c.env.r 1) (c.p 1) = some ⟨0, c.t 1, c.p 1, 2⟩ := by
    unfold cape
    rw [hr', ht, hp1, hl, hh, hm, if_neg (by norm_num), if_neg (by norm_num)]
    show some (Cape.mk 0 (c.t 1) (c.p 1) 2) = _
    rw [ht, hp1]
  rw [this]
  rfl

end Skyborn.Gpi
