/-
Property theorems about the Python layer of the Mann-Kendall tests (1-D and gridded).
-/
import Verif.MK.PyGrid
import Mathlib.Data.List.Sort

namespace Skyborn.MK.Py

open Skyborn Skyborn.MK Finset Spec

variable (E : Env)

/-! ## C02 (result level), C08, C54 -/

theorem mkTest_original (cfg : Cfg) (ht : cfg.test = .original) (vals : List (Option ℝ)) (W : ℕ → ℝ)
    (hn : 3 ≤ vals.reduceOption.length) :
    mkTest E cfg vals W = some (toRes E cfg vals.reduceOption.length (elems vals.reduceOption)
      (sc vals.reduceOption.length (elems vals.reduceOption), some (tv vals.reduceOption.length (elems vals.reduceOption)),
        vals.reduceOption.length)) := by
  rw [mkPlain_eq E cfg (by rw [ht]; simp) vals W hn]
  simp [colStats, ht]

theorem reduceOption_map (f : ℝ → ℝ) (vals : List (Option ℝ)) :
    (vals.map (Option.map f)).reduceOption = vals.reduceOption.map f := by
  induction vals with
  | nil => rfl
  | cons a l ih =>
    cases a with
    | none => simp only [List.map_cons, Option.map_none, List.reduceOption_cons_of_none, ih]
    | some a => simp only [List.map_cons, Option.map_some, List.reduceOption_cons_of_some, ih]

theorem elems_map (f : ℝ → ℝ) (l : List ℝ) {i : ℕ} (hi : i < l.length) : elems (l.map f) i = f (elems l i) := by
  unfold elems
  rw [List.getD_eq_getElem _ _ (by simpa using hi), List.getD_eq_getElem _ _ hi, List.getElem_map]

theorem sc_strictMono {f : ℝ → ℝ} (hf : StrictMono f) (n : ℕ) (y : ℕ → ℝ) : sc n (fun i => f (y i)) = sc n y := by
  have := (C02_rank_invariant hf n (buf y)).1
  rw [sValue_eq_score, sValue_eq_score] at this
  exact this

theorem tv_injective {f : ℝ → ℝ} (hf : Function.Injective f) (n : ℕ) (y : ℕ → ℝ) : tv n (fun i => f (y i)) = tv n y := by
  unfold tv
  have : values n (buf fun i => f (y i)) = (values n (buf y)).map f := by
    unfold values buf; rw [Multiset.map_map]; rfl
  rw [this, tieVariance_map hf]

/-- C02: the whole verdict of the original test (z, p, h and tau) is unchanged by any strictly increasing transformation of
the data, whatever is missing. -/
theorem C02_result_invariant (cfg : Cfg) (ht : cfg.test = .original) {f : ℝ → ℝ} (hf : StrictMono f)
    (vals : List (Option ℝ)) (W W' : ℕ → ℝ) :
    ∃ r r', mkTest E cfg vals W = some r ∧ mkTest E cfg (vals.map (Option.map f)) W' = some r' ∧
      r'.z = r.z ∧ r'.p = r.p ∧ r'.h = r.h ∧ r'.tau = r.tau := by
  by_cases hn : 3 ≤ vals.reduceOption.length
  · refine ⟨_, _, mkTest_original E cfg ht vals W hn,
      mkTest_original E cfg ht _ W' (by rw [reduceOption_map, List.length_map]; exact hn), ?_⟩
    rw [reduceOption_map, List.length_map]
    have h1 : sc vals.reduceOption.length (elems (vals.reduceOption.map f)) =
        sc vals.reduceOption.length (elems vals.reduceOption) := by
      rw [sc_congr fun i hi => elems_map f _ hi, sc_strictMono hf]
    have h2 : tv vals.reduceOption.length (elems (vals.reduceOption.map f)) =
        tv vals.reduceOption.length (elems vals.reduceOption) := by
      rw [tv_congr fun i hi => elems_map f _ hi, tv_injective hf.injective]
    simp only [toRes, h1, h2]
    exact ⟨trivial, trivial, trivial, trivial⟩
  · exact ⟨Res.nan, Res.nan, mkPlain_short E cfg vals W (by omega),
      mkPlain_short E cfg _ W' (by rw [reduceOption_map, List.length_map]; omega), rfl, rfl, rfl, rfl⟩

/-- opposite of a float -/
noncomputable def Flt.neg : Flt → Flt
  | .nan => .nan
  | .inf s => .inf (!s)
  | .fin x => .fin (-x)

theorem divSqrt_neg (a : ℝ) (v : Option ℝ) : divSqrt (-a) v = (divSqrt a v).neg := by
  unfold divSqrt
  cases v with
  | none => rfl
  | some v =>
    simp only
    split_ifs with h1 h2 h3 h4 h5
    · rfl
    · rfl
    · exact absurd (neg_eq_zero.mp h3) h4
    · exact absurd h5 (fun h => h3 (by simp [h]))
    · have : decide (-a < 0) = !decide (a < 0) := by
        rcases lt_trichotomy a 0 with h | h | h
        · simp [h, h.le]
        · exact absurd h h5
        · simp [h, h.le]
      rw [this]; rfl
    · simp [Flt.neg, neg_div]

theorem zContinuity_neg (s : ℝ) (v : Option ℝ) : zContinuity (-s) v = (zContinuity s v).neg := by
  unfold zContinuity
  rcases lt_trichotomy s 0 with h | h | h
  · rw [if_pos (by linarith), if_neg (by linarith), if_neg h.ne, ← divSqrt_neg]
    congr 1; ring
  · subst h; simp [Flt.neg]
  · rw [if_neg (by linarith), if_neg (by linarith), if_pos h, ← divSqrt_neg]
    congr 1; ring

theorem pValue_neg (z : Flt) : pValue E z.neg = pValue E z := by cases z <;> simp [pValue, Flt.neg]

theorem hypothesis_neg (alpha : ℝ) (z : Flt) : hypothesis E alpha z.neg = hypothesis E alpha z := by
  cases z <;> simp [hypothesis, Flt.neg]

/-- C02: changing the sign of the data changes the signs of z, tau and the Theil-Sen trend, and nothing in the verdict. -/
theorem C02_result_negate (cfg : Cfg) (ht : cfg.test = .original) (vals : List (Option ℝ)) (W W' : ℕ → ℝ) :
    ∃ r r', mkTest E cfg vals W = some r ∧ mkTest E cfg (vals.map (Option.map fun x => -x)) W' = some r' ∧
      r'.z = r.z.neg ∧ r'.p = r.p ∧ r'.h = r.h ∧ r'.tau = r.tau.map (fun t => -t) := by
  by_cases hn : 3 ≤ vals.reduceOption.length
  · refine ⟨_, _, mkTest_original E cfg ht vals W hn,
      mkTest_original E cfg ht _ W' (by rw [reduceOption_map, List.length_map]; exact hn), ?_⟩
    rw [reduceOption_map, List.length_map]
    have h1 : sc vals.reduceOption.length (elems (vals.reduceOption.map fun x => -x)) =
        - sc vals.reduceOption.length (elems vals.reduceOption) := by
      rw [sc_congr fun i hi => elems_map (fun x => -x) _ hi]
      exact score_neg _ _
    have h2 : tv vals.reduceOption.length (elems (vals.reduceOption.map fun x => -x)) =
        tv vals.reduceOption.length (elems vals.reduceOption) := by
      rw [tv_congr fun i hi => elems_map (fun x => -x) _ hi, tv_injective neg_injective]
    simp only [toRes, h1, h2, zContinuity_neg, pValue_neg, hypothesis_neg, Option.map_some, neg_div]
    exact ⟨trivial, trivial, trivial, trivial⟩
  · exact ⟨Res.nan, Res.nan, mkPlain_short E cfg vals W (by omega),
      mkPlain_short E cfg _ W' (by rw [reduceOption_map, List.length_map]; omega), rfl, rfl, rfl, rfl⟩

theorem tv_zero_sc {n : ℕ} {y : ℕ → ℝ} (h : tv n y = 0) : sc n y = 0 := by
  unfold tv at h
  rw [tieVariance_eq_zero_iff] at h
  unfold sc score
  refine Finset.sum_eq_zero fun p hp => ?_
  rw [mem_pairs] at hp
  rw [h p.1 p.2 (by omega) (by omega) (by omega) (by omega), sub_self, sgn_zero]

/-- C54: for every series with at least three finite samples the original test returns a finite z (no division by zero, no
square root of a negative number) and non-NaN trend, p, tau and std_error; z has the sign of the score. -/
theorem C54_original_defined (cfg : Cfg) (ht : cfg.test = .original) (vals : List (Option ℝ)) (W : ℕ → ℝ)
    (hn : 3 ≤ vals.reduceOption.length) :
    ∃ r x t, mkTest E cfg vals W = some r ∧ r.z = .fin x ∧ r.tau = some t ∧ r.trend.isSome ∧ r.p.isSome ∧ r.stdError.isSome ∧
      (0 < x → 0 < t) ∧ (x < 0 → t < 0) := by
  set n := vals.reduceOption.length with hnn
  set y := elems vals.reduceOption
  have hv : 0 ≤ tv n y := tieVariance_nonneg _ _
  have hD : (0 : ℝ) < (1 / 2 : ℝ) * (n : ℝ) * ((n : ℝ) - 1) := by
    have : (3 : ℝ) ≤ (n : ℝ) := by exact_mod_cast hn
    have : (0 : ℝ) < (n : ℝ) - 1 := by linarith
    positivity
  obtain ⟨k, hk⟩ := score_int n (buf y)
  have hk : sc n y = (k : ℝ) := hk
  have hz : ∃ x, zContinuity (sc n y) (some (tv n y)) = .fin x ∧ (0 < x → 0 < sc n y) ∧ (x < 0 → sc n y < 0) := by
    unfold zContinuity
    rcases lt_trichotomy (sc n y) 0 with h | h | h
    · have hne : tv n y ≠ 0 := fun h' => h.ne (tv_zero_sc h')
      have hk1 : sc n y + 1 ≤ 0 := by
        rw [hk] at h ⊢
        have : k < 0 := by exact_mod_cast h
        have : k + 1 ≤ 0 := by omega
        exact_mod_cast this
      rw [if_neg (by linarith), if_neg h.ne]
      refine ⟨_, by unfold divSqrt; simp only; rw [if_neg (by linarith), if_neg hne], ?_, fun _ => h⟩
      intro hx
      exact absurd hx (not_lt.mpr (div_nonpos_of_nonpos_of_nonneg hk1 (Real.sqrt_nonneg _)))
    · refine ⟨0, by simp [h], fun hh => absurd hh (lt_irrefl _), fun hh => absurd hh (lt_irrefl _)⟩
    · have hne : tv n y ≠ 0 := fun h' => h.ne' (tv_zero_sc h')
      have hk1 : 0 ≤ sc n y - 1 := by
        rw [hk] at h ⊢
        have : 0 < k := by exact_mod_cast h
        have : 0 ≤ k - 1 := by omega
        exact_mod_cast this
      rw [if_pos h]
      refine ⟨_, by unfold divSqrt; simp only; rw [if_neg (by linarith), if_neg hne], fun _ => h, ?_⟩
      intro hx
      exact absurd hx (not_lt.mpr (div_nonneg hk1 (Real.sqrt_nonneg _)))
  obtain ⟨x, hx, hp, hm⟩ := hz
  refine ⟨_, x, sc n y / ((1 / 2 : ℝ) * (n : ℝ) * ((n : ℝ) - 1)), mkTest_original E cfg ht vals W hn, ?_, ?_, ?_, ?_, ?_, ?_, ?_⟩
  · simp only [toRes]; exact hx
  · rfl
  · rfl
  · simp only [toRes]
    rw [show zContinuity _ _ = Flt.fin x from hx]; rfl
  · rfl
  · intro h; exact div_pos (hp h) hD
  · intro h; exact div_neg_of_neg_of_pos (hm h) hD

/-- C08 at result level: the reported tau is a number in `[-1, 1]`. -/
theorem C08_result_tau (cfg : Cfg) (ht : cfg.test = .original) (vals : List (Option ℝ)) (W : ℕ → ℝ)
    (hn : 3 ≤ vals.reduceOption.length) :
    ∃ r t, mkTest E cfg vals W = some r ∧ r.tau = some t ∧ -1 ≤ t ∧ t ≤ 1 ∧
      (t = 1 ↔ vals.reduceOption.Pairwise (· < ·)) ∧ (t = -1 ↔ vals.reduceOption.Pairwise (· > ·)) := by
  refine ⟨_, _, mkTest_original E cfg ht vals W hn, rfl, ?_⟩
  have h := C08_tau vals.reduceOption.length (by omega) (buf (elems vals.reduceOption))
  rw [sValue_eq_score] at h
  refine ⟨h.1, h.2.1, h.2.2.1.trans ?_, h.2.2.2.trans ?_⟩
  · rw [List.pairwise_iff_getElem]
    constructor
    · intro hi a b ha hb hab
      have := hi (a + 1) (b + 1) (by omega) (by omega) (by omega)
      simpa [buf, elems, List.getD_eq_getElem, ha, hb] using this
    · intro hi a b ha hab hb
      have := hi (a - 1) (b - 1) (by omega) (by omega) (by omega)
      simp only [buf, elems]
      rwa [List.getD_eq_getElem _ _ (by omega), List.getD_eq_getElem _ _ (by omega)]
  · rw [List.pairwise_iff_getElem]
    constructor
    · intro hi a b ha hb hab
      have := hi (a + 1) (b + 1) (by omega) (by omega) (by omega)
      simpa [buf, elems, List.getD_eq_getElem, ha, hb] using this
    · intro hi a b ha hab hb
      have := hi (a - 1) (b - 1) (by omega) (by omega) (by omega)
      simp only [buf, elems]
      rwa [List.getD_eq_getElem _ _ (by omega), List.getD_eq_getElem _ _ (by omega)]

/-- C05 at result level: the reported Theil-Sen trend of every non-seasonal family is the median of the pairwise slopes of the
finite samples against their position. -/
theorem C05_result_trend (cfg : Cfg) (hm : cfg.method = .theilslopes)
    (hs : cfg.test ≠ .seasonal ∧ cfg.test ≠ .correlatedSeasonal) (vals : List (Option ℝ)) (W : ℕ → ℝ)
    (hn : 3 ≤ vals.reduceOption.length) (r : Res) (hr : mkTest E cfg vals W = some r) :
    r.trend = some (median (pairSlopes vals.reduceOption.length (buf (elems vals.reduceOption)))) := by
  rw [mkPlain_eq E cfg hs vals W hn] at hr
  cases h : colStats E cfg vals.reduceOption.length (elems vals.reduceOption) with
  | none => rw [h] at hr; simp at hr
  | some c =>
    rw [h] at hr
    simp only [Option.map_some, Option.some.injEq] at hr
    rw [← hr]
    simp [toRes, slopeOf, hm, sen]

/-! ## C09 -/

/-- C09: for the non-seasonal families a missing sample can be inserted or removed anywhere without any effect. -/
theorem C09_insert_missing (cfg : Cfg) (hs : cfg.test ≠ .seasonal ∧ cfg.test ≠ .correlatedSeasonal)
    (before after : List (Option ℝ)) (W : ℕ → ℝ) :
    mkTest E cfg (before ++ none :: after) W = mkTest E cfg (before ++ after) W := by
  rw [← mkTest_plain_squeeze E cfg hs, ← mkTest_plain_squeeze E cfg hs (before ++ after)]
  congr 2
  rw [List.reduceOption_append, List.reduceOption_append, List.reduceOption_cons_of_none]

/-- C09: fewer than three finite samples give the NaN result, for every family and whatever the other arguments. -/
theorem C09_short (cfg : Cfg) (vals : List (Option ℝ)) (W : ℕ → ℝ) (hn : vals.reduceOption.length < 3) :
    mkTest E cfg vals W = some Res.nan := mkPlain_short E cfg vals W hn

/-- The insertion theorem is not vacuous: a series with gaps that is really tested. -/
example (cfg : Cfg) (hs : cfg.test = .original) (W : ℕ → ℝ) :
    mkTest E cfg [some 3, none, some 1, some 2] W = mkTest E cfg [some 3, some 1, some 2] W ∧
      (mkTest E cfg [some 3, some 1, some 2] W).isSome :=
  ⟨C09_insert_missing E cfg (by rw [hs]; simp) [some 3] [some 1, some 2] W, by
    rw [mkTest_original E cfg hs]
    · rfl
    · simp [List.reduceOption]⟩

/-! ## C51, C53 -/

/-- Any result of the 1-D test has `p` and `h` computed from its `z`. -/
theorem mkTest_verdict (cfg : Cfg) (vals : List (Option ℝ)) (W : ℕ → ℝ) (r : Res) (hr : mkTest E cfg vals W = some r) :
    r.p = pValue E r.z ∧ r.h = hypothesis E cfg.alpha r.z := by
  by_cases hn : vals.reduceOption.length < 3
  · rw [mkPlain_short E cfg vals W hn] at hr
    simp only [Option.some.injEq] at hr
    subst hr
    exact ⟨rfl, rfl⟩
  · by_cases hs : cfg.test = .seasonal ∨ cfg.test = .correlatedSeasonal
    · unfold mkTest at hr
      rw [if_pos hs] at hr
      unfold mkSeasonal at hr
      simp only at hr
      rw [if_neg hn] at hr
      simp only [Option.bind_eq_bind, Option.bind_eq_some_iff] at hr
      obtain ⟨si, -, st, -, h⟩ := hr
      simp only [Option.pure_def, Option.some.injEq] at h
      rw [← h]
      exact ⟨rfl, rfl⟩
    · push Not at hs
      rw [mkPlain_eq E cfg hs vals W (by omega)] at hr
      cases h : colStats E cfg vals.reduceOption.length (elems vals.reduceOption) with
      | none => rw [h] at hr; simp at hr
      | some c =>
        rw [h] at hr
        simp only [Option.map_some, Option.some.injEq] at hr
        rw [← hr]
        exact ⟨rfl, rfl⟩

/-- What is assumed of scipy's normal distribution functions. -/
structure NormalLike : Prop where
  mono : StrictMono E.cdf
  inverse : ∀ q, 0 < q → q < 1 → E.cdf (E.ppf q) = q
  symm : ∀ x, E.cdf (-x) = 1 - E.cdf x
  le_one : ∀ x, E.cdf x ≤ 1

/-- C51: for every family, method and series, `h` is True exactly when the reported p-value is a number below alpha. -/
theorem C51_h_iff_p (hE : NormalLike E) (cfg : Cfg) (ha0 : 0 < cfg.alpha) (ha1 : cfg.alpha < 2) (vals : List (Option ℝ))
    (W : ℕ → ℝ) (r : Res) (hr : mkTest E cfg vals W = some r) :
    r.h = true ↔ ∃ p, r.p = some p ∧ p < cfg.alpha := by
  obtain ⟨h1, h2⟩ := mkTest_verdict E cfg vals W r hr
  rw [h1, h2]
  cases r.z with
  | nan => simp [hypothesis, pValue]
  | inf s => simp [hypothesis, pValue, ha0]
  | fin x =>
    simp only [hypothesis, pValue, decide_eq_true_eq, Option.some.injEq, exists_eq_left']
    rw [gt_iff_lt, ← hE.mono.lt_iff_lt, hE.inverse _ (by linarith) (by linarith)]
    constructor <;> intro h <;> linarith

/-- C53: every reported p-value is NaN or lies in `[0, 1]`. -/
theorem C53_p_range (hE : NormalLike E) (cfg : Cfg) (vals : List (Option ℝ)) (W : ℕ → ℝ) (r : Res)
    (hr : mkTest E cfg vals W = some r) (p : ℝ) (hp : r.p = some p) : 0 ≤ p ∧ p ≤ 1 := by
  rw [(mkTest_verdict E cfg vals W r hr).1] at hp
  cases hz : r.z with
  | nan => rw [hz] at hp; simp [pValue] at hp
  | inf s => rw [hz] at hp; simp [pValue] at hp; subst hp; simp
  | fin x =>
    rw [hz] at hp
    simp only [pValue, Option.some.injEq] at hp
    have h0 : E.cdf 0 = 1 / 2 := by
      have := hE.symm 0
      rw [neg_zero] at this; linarith
    have h1 : E.cdf 0 ≤ E.cdf |x| := hE.mono.monotone (abs_nonneg x)
    have h2 := hE.le_one |x|
    constructor <;> linarith

/-- The assumptions can be met: a distribution function built from `x / (1 + |x|)`. -/
noncomputable def exampleEnv : Env where
  cdf x := (1 + x / (1 + |x|)) / 2
  ppf q := (2 * q - 1) / (1 - |2 * q - 1|)

theorem exampleEnv_normalLike : NormalLike exampleEnv where
  mono := by
    intro a b hab
    simp only [exampleEnv]
    have ha : 0 < 1 + |a| := by positivity
    have hb : 0 < 1 + |b| := by positivity
    have : a / (1 + |a|) < b / (1 + |b|) := by
      rw [div_lt_div_iff₀ ha hb]
      rcases abs_cases a with ⟨h1, h2⟩ | ⟨h1, h2⟩ <;> rcases abs_cases b with ⟨h3, h4⟩ | ⟨h3, h4⟩ <;> rw [h1, h3] <;> nlinarith
    linarith
  inverse := by
    intro q h0 h1
    simp only [exampleEnv]
    set t := 2 * q - 1 with ht
    have hlt : |t| < 1 := abs_lt.mpr ⟨by linarith, by linarith⟩
    have hpos : 0 < 1 - |t| := by linarith
    rw [abs_div, abs_of_pos hpos]
    have : t / (1 - |t|) / (1 + |t| / (1 - |t|)) = t := by
      have : 1 + |t| / (1 - |t|) = 1 / (1 - |t|) := by field_simp; ring
      rw [this]; field_simp
    rw [this]; linarith
  symm := by intro x; simp only [exampleEnv, abs_neg, neg_div]; ring
  le_one := by
    intro x
    simp only [exampleEnv]
    have ha : 0 < 1 + |x| := by positivity
    have : x / (1 + |x|) ≤ 1 := by
      rw [div_le_one ha]; linarith [le_abs_self x]
    linarith

/-! ## C17, C18, C19, C20 -/

/-- C17: the number of lags used is below the series length; `None` means all, a negative lag none, and a lag of `n` or more
is rejected. -/
theorem C17_lag_limit (n : ℕ) (hn : 2 ≤ n) (lag : Option ℤ) :
    (∀ L, autocorrLagLimit n lag = some L → L < n) ∧
    (lag = none → autocorrLagLimit n lag = some (n - 1)) ∧
    (∀ l : ℤ, lag = some l → l < 0 → autocorrLagLimit n lag = some 0) ∧
    (∀ l : ℕ, lag = some (l : ℤ) → l < n → autocorrLagLimit n lag = some l) ∧
    (∀ l : ℤ, lag = some l → (n : ℤ) ≤ l → autocorrLagLimit n lag = none) := by
  have h1 : ¬ n ≤ 1 := by omega
  refine ⟨fun L h => autocorrLagLimit_lt (by omega) h, ?_, ?_, ?_, ?_⟩
  · rintro rfl; exact autocorrLagLimit_none hn
  · rintro l rfl hl; simp [autocorrLagLimit, h1, hl]
  · rintro l rfl hl
    simp only [autocorrLagLimit, h1, if_false]
    rw [if_neg (by omega), if_neg (by omega), Int.toNat_natCast]
  · rintro l rfl hl
    simp only [autocorrLagLimit, h1, if_false]
    rw [if_neg (by omega), if_pos (by omega)]

/-- C17 with fewer than two samples: no lag at all. -/
theorem C17_lag_limit_short (n : ℕ) (hn : n ≤ 1) (lag : Option ℤ) : autocorrLagLimit n lag = some 0 := by
  simp [autocorrLagLimit, hn]

/-- C18: Hamed-Rao. The Python batch helper (fed with the base variance) and the compiled kernel return the same variance
(or both NaN) for every series, slope and accepted lag. -/
theorem C18_hamed_rao (alpha : ℝ) (n : ℕ) (hn : 3 ≤ n) (y : ℕ → ℝ) (base slope : ℝ) (lag : Option ℤ) (L : ℕ) (W : ℕ → ℝ)
    (hb : baseVariance n (buf y) = some base) (hL : autocorrLagLimit n lag = some L) :
    hamedRaoBatch E alpha n y base slope lag =
      hamedRaoVariance n (buf y) slope (E.ppf (1 - alpha / 2) / Real.sqrt n) L W := by
  rw [baseVar_buf, Option.some.injEq] at hb
  subst hb
  rw [show tieVariance (values n (buf y)) = tv n y from rfl, hamedRaoBatch_eq E alpha hn, hL,
    hamedRaoVariance_eq n hn y slope _ L (autocorrLagLimit_lt (by omega) hL)]
  rfl

/-- C18: Yue-Wang. The batch helper on any number of columns gives every column the value of the compiled kernel. -/
theorem C18_yue_wang (n m : ℕ) (hn : 3 ≤ n) (y : ℕ → ℕ → ℝ) (base slope : ℕ → ℝ) (lag : Option ℤ) (L : ℕ)
    (hb : ∀ j, j < m → baseVariance n (buf (y j)) = some (base j)) (hL : autocorrLagLimit n lag = some L) :
    ∃ out, yueWangBatch n m y base slope lag = some out ∧
      ∀ j, j < m → yueWangVariance n (buf (y j)) (slope j) L = some (out j) := by
  obtain ⟨out, e, h⟩ := yueWangBatch_eq hn y base slope lag (m := m)
    (fun j hj => by have := hb j hj; rw [baseVar_buf, Option.some.injEq] at this; exact this.symm) hL
  exact ⟨out, e, fun j hj => by rw [h j hj, yueWangVariance_eq]⟩

/-- C18: both reject exactly the same lags. -/
theorem C18_reject (alpha : ℝ) (n m : ℕ) (y : ℕ → ℝ) (ys : ℕ → ℕ → ℝ) (base slope : ℝ) (bases slopes : ℕ → ℝ)
    (lag : Option ℤ) (hL : autocorrLagLimit n lag = none) :
    hamedRaoBatch E alpha n y base slope lag = none ∧ yueWangBatch n m ys bases slopes lag = none :=
  ⟨by unfold hamedRaoBatch; rw [hL]; rfl, yueWangBatch_none _ _ _ _ hL⟩

/-- C19: the standard error does not depend on the intercept; the scalar formula with any intercept and the two batch formulas
coincide. -/
theorem C19_std_error (n : ℕ) (hn : 0 < n) (x y : ℕ → ℝ) (slope intercept : ℝ) :
    stdErrorScalar n x y (some slope) (some intercept) = some (theilStdErrorBatch n x y slope) ∧
    theilStdErrorBatch n x y slope = linregressStdErrorBatch n x y slope := by
  rw [stdErrorScalar_eq hn, theilStdErrorBatch_eq hn, linregressStdErrorBatch_eq hn]
  exact ⟨rfl, rfl⟩

/-- sum of squared residuals about the line `a + b x` -/
noncomputable def Spec.sse (n : ℕ) (x y : ℕ → ℝ) (a b : ℝ) : ℝ := ∑ i ∈ range n, (y i - (a + b * x i)) ^ 2

theorem sse_decomp {n : ℕ} (hn : 0 < n) (x y : ℕ → ℝ) (hx : ∑ i ∈ range n, (x i - mean n x) ^ 2 ≠ 0) (a b : ℝ) :
    Spec.sse n x y a b = Spec.sse n x y (linregress n x y).2 (linregress n x y).1
      + (b - (linregress n x y).1) ^ 2 * ∑ i ∈ range n, (x i - mean n x) ^ 2
      + n * (a + b * mean n x - mean n y) ^ 2 := by
  set b0 := (linregress n x y).1 with hb0
  have ha0 : (linregress n x y).2 = mean n y - b0 * mean n x := rfl
  set Sxx := ∑ i ∈ range n, (x i - mean n x) ^ 2 with hSxx
  have hcx := mean_arange_center hn x
  have hcy := mean_arange_center hn y
  have hsxy : ∑ i ∈ range n, (x i - mean n x) * (y i - mean n y) = b0 * Sxx := by
    have : b0 = (∑ i ∈ range n, (x i - mean n x) * (y i - mean n y)) / Sxx := rfl
    rw [this]; field_simp
  rw [ha0]
  have expand : ∀ a b : ℝ, Spec.sse n x y a b = ∑ i ∈ range n, (y i - mean n y) ^ 2
      - 2 * b * (b0 * Sxx) + b ^ 2 * Sxx + n * (a + b * mean n x - mean n y) ^ 2 := by
    intro a b
    unfold Spec.sse
    have : ∀ i, (y i - (a + b * x i)) ^ 2 = (y i - mean n y) ^ 2 - 2 * b * ((x i - mean n x) * (y i - mean n y))
        + b ^ 2 * (x i - mean n x) ^ 2 - 2 * (a + b * mean n x - mean n y) * (y i - mean n y)
        + 2 * b * (a + b * mean n x - mean n y) * (x i - mean n x) + (a + b * mean n x - mean n y) ^ 2 := by
      intro i; ring
    simp only [this, Finset.sum_add_distrib, Finset.sum_sub_distrib, ← Finset.mul_sum, hcx, hcy, hsxy, Finset.sum_const,
      card_range, nsmul_eq_mul]
    ring
  rw [expand a b, expand (mean n y - b0 * mean n x) b0]
  ring

/-- C20: with at least two distinct abscissae the batch slope, with the intercept `mean y - slope * mean x`, is the unique
minimiser of the sum of squared residuals. -/
theorem C20_least_squares (n : ℕ) (x y : ℕ → ℝ) (hx : ∃ i j, i < n ∧ j < n ∧ x i ≠ x j) (a b : ℝ) :
    let b0 := linregressSlopeBatch n x y
    let a0 := mean n y - b0 * mean n x
    Spec.sse n x y a0 b0 ≤ Spec.sse n x y a b ∧ (Spec.sse n x y a b = Spec.sse n x y a0 b0 → a = a0 ∧ b = b0) := by
  obtain ⟨i, j, hi, hj, hij⟩ := hx
  have hn : 0 < n := by omega
  have hnn : (0 : ℝ) < n := by exact_mod_cast hn
  have hpos : 0 < ∑ i ∈ range n, (x i - mean n x) ^ 2 := by
    by_contra h
    have h0 : ∑ i ∈ range n, (x i - mean n x) ^ 2 = 0 :=
      le_antisymm (not_lt.mp h) (Finset.sum_nonneg fun _ _ => sq_nonneg _)
    rw [Finset.sum_eq_zero_iff_of_nonneg fun _ _ => sq_nonneg _] at h0
    have e1 := h0 i (by simpa using hi)
    have e2 := h0 j (by simpa using hj)
    have e1 := pow_eq_zero_iff (two_ne_zero) |>.mp e1
    have e2 := pow_eq_zero_iff (two_ne_zero) |>.mp e2
    exact hij (by linarith)
  have hd := sse_decomp hn x y hpos.ne' a b
  rw [linregress_slope hn] at hd
  have ha0 : (linregress n x y).2 = mean n y - linregressSlopeBatch n x y * mean n x := by
    rw [← linregress_slope hn]; rfl
  rw [ha0] at hd
  intro b0 a0
  refine ⟨?_, fun h => ?_⟩
  · rw [hd]
    have h1 := mul_nonneg (sq_nonneg (b - linregressSlopeBatch n x y)) hpos.le
    have h2 := mul_nonneg hnn.le (sq_nonneg (a + b * mean n x - mean n y))
    show Spec.sse n x y a0 b0 ≤ _
    linarith
  · have h1 := mul_nonneg (sq_nonneg (b - linregressSlopeBatch n x y)) hpos.le
    have h2 := mul_nonneg hnn.le (sq_nonneg (a + b * mean n x - mean n y))
    have hz : (b - b0) ^ 2 * (∑ i ∈ range n, (x i - mean n x) ^ 2) = 0 := by
      have : Spec.sse n x y a b = Spec.sse n x y a0 b0 := h
      show (b - linregressSlopeBatch n x y) ^ 2 * _ = 0
      have hd' : Spec.sse n x y a b = Spec.sse n x y a0 b0 + _ + _ := hd
      linarith
    have hz2 : (n : ℝ) * (a + b * mean n x - mean n y) ^ 2 = 0 := by
      have : Spec.sse n x y a b = Spec.sse n x y a0 b0 := h
      have hd' : Spec.sse n x y a b = Spec.sse n x y a0 b0 + _ + _ := hd
      linarith
    have hb : b = b0 := by
      rcases mul_eq_zero.mp hz with h | h
      · have := pow_eq_zero_iff (two_ne_zero) |>.mp h
        linarith
      · exact absurd h hpos.ne'
    have ha : a + b * mean n x - mean n y = 0 := by
      rcases mul_eq_zero.mp hz2 with h | h
      · exact absurd h hnn.ne'
      · exact pow_eq_zero_iff (two_ne_zero) |>.mp h
    refine ⟨?_, hb⟩
    show a = mean n y - b0 * mean n x
    rw [← hb]; linarith

/-- C20: exact on linear data, for the time axis the code uses. -/
theorem C20_linear_exact (n : ℕ) (hn : 2 ≤ n) (a b : ℝ) : linregressSlopeBatch n arange (fun i => a + b * arange i) = b := by
  have h := (C20_least_squares n arange (fun i => a + b * arange i) ⟨0, 1, by omega, by omega, by simp [arange]⟩ a b)
  have h0 : Spec.sse n arange (fun i => a + b * arange i) a b = 0 := by simp [Spec.sse]
  refine (h.2 (le_antisymm ?_ h.1)).2.symm
  rw [h0]
  exact Finset.sum_nonneg fun _ _ => sq_nonneg _

/-! ## C13 -/

/-- the finite samples of season `s` (positions `s, s+p, s+2p, ...`, 0-based), in time order -/
def Spec.seasonValues (vals : List (Option ℝ)) (p s : ℕ) : List ℝ :=
  ((List.range vals.length).filter fun i => i % p = s).filterMap fun i => vals.getD i none

theorem filter_mod_eq {n p s : ℕ} (hp : 0 < p) (hs : s < p) :
    (List.range n).filter (fun i => i % p = s) = (List.range (seasonLen n p s)).map fun c => s + c * p := by
  apply List.Perm.eq_of_pairwise (le := (· < ·)) (fun a b _ _ h1 h2 => absurd h1 (lt_asymm h2))
  · exact List.Pairwise.filter _ List.pairwise_lt_range
  · rw [List.pairwise_map]
    refine List.pairwise_lt_range.imp fun {a b} hab => ?_
    have := Nat.mul_lt_mul_of_pos_right hab hp
    omega
  · rw [List.perm_ext_iff_of_nodup (List.Nodup.filter _ List.nodup_range)
      (List.Nodup.map (fun a b hab => by
        have : a * p = b * p := by have hab : s + a * p = s + b * p := hab; omega
        exact Nat.eq_of_mul_eq_mul_right hp this) List.nodup_range)]
    intro i
    simp only [List.mem_filter, List.mem_range, decide_eq_true_eq, List.mem_map]
    constructor
    · rintro ⟨h1, h2⟩
      refine ⟨i / p, ?_, ?_⟩
      · rw [lt_seasonLen hp]
        have := Nat.div_add_mod' i p
        omega
      · have := Nat.div_add_mod' i p
        omega
    · rintro ⟨c, h1, rfl⟩
      rw [lt_seasonLen hp] at h1
      exact ⟨h1, by rw [Nat.add_mul_mod_self_right, Nat.mod_eq_of_lt hs]⟩

theorem reduceOption_map_eq_filterMap {α : Type} (l : List α) (f : α → Option ℝ) : (l.map f).reduceOption = l.filterMap f := by
  unfold List.reduceOption
  rw [List.filterMap_map]; rfl

theorem finiteColumn_season {vals : List (Option ℝ)} {p s : ℕ} (hp : 0 < p) (hs : s < p) :
    finiteColumn (seasonRows vals.length p) (fun c => vals.getD (c * p + s) none) = Spec.seasonValues vals p s := by
  unfold finiteColumn Spec.seasonValues
  rw [filter_mod_eq hp hs, reduceOption_map_eq_filterMap, List.filterMap_map]
  have hle : seasonLen vals.length p s ≤ seasonRows vals.length p := by
    by_contra h
    push Not at h
    have := (lt_seasonLen hp).mp h
    have := (seasonRows_le (n := vals.length) (c := seasonRows vals.length p) hp).mp le_rfl
    omega
  obtain ⟨d, hd⟩ := Nat.exists_eq_add_of_le hle
  rw [hd, List.range_add, List.filterMap_append]
  have e2 : (List.map (fun x => seasonLen vals.length p s + x) (List.range d)).filterMap
      (fun c => vals.getD (c * p + s) none) = [] := by
    rw [List.filterMap_eq_nil_iff]
    intro c hc
    obtain ⟨x, -, rfl⟩ := List.mem_map.mp hc
    have : ¬ (seasonLen vals.length p s + x < seasonLen vals.length p s) := by omega
    rw [lt_seasonLen hp] at this
    rw [List.getD_eq_default]; omega
  rw [e2, List.append_nil]
  apply List.filterMap_congr
  intro c _
  simp only [Function.comp]
  rw [show s + c * p = c * p + s by omega]

/-- C13: the seasonal statistics are the sums over the seasons of the ordinary score, tie-corrected variance and number of
pairs of each season's finite samples. -/
theorem C13_scalar (vals : List (Option ℝ)) (p : ℕ) (hp : 0 < p) (W : ℕ → ℝ) :
    seasonalScoreVarScalar vals (p : ℤ) W =
      some (∑ s ∈ range p, score (Spec.seasonValues vals p s).length (buf (elems (Spec.seasonValues vals p s))),
        ∑ s ∈ range p, tieVariance (values (Spec.seasonValues vals p s).length (buf (elems (Spec.seasonValues vals p s)))),
        ∑ s ∈ range p, ((Spec.seasonValues vals p s).length : ℝ) * (((Spec.seasonValues vals p s).length : ℝ) - 1) / 2) := by
  unfold seasonalScoreVarScalar
  obtain ⟨M, e, hM⟩ := reshapeSeasonal_eq vals hp
  rw [e]
  simp only [Option.bind_eq_bind, Option.bind_some, Int.toNat_natCast, groupSums_eq, hM]
  refine congrArg some ?_
  congr 1
  · exact Finset.sum_congr rfl fun s hs => by rw [finiteColumn_season hp (by simpa using hs)]; rfl
  · congr 1
    · exact Finset.sum_congr rfl fun s hs => by rw [finiteColumn_season hp (by simpa using hs)]; rfl
    · exact Finset.sum_congr rfl fun s hs => by rw [finiteColumn_season hp (by simpa using hs)]; ring

/-- C13: every finite sample is counted in exactly one season. -/
theorem C13_partition (vals : List (Option ℝ)) (p : ℕ) (hp : 0 < p) :
    ∑ s ∈ range p, (Spec.seasonValues vals p s).length = vals.reduceOption.length := by
  have h1 : vals = (List.range vals.length).map fun i => vals.getD i none := by
    apply List.ext_getElem (by simp)
    intro i h1 h2
    rw [List.getElem_map, List.getElem_range, List.getD_eq_getElem _ _ h1]
  have h2 : vals.reduceOption = (List.range vals.length).filterMap fun i => vals.getD i none := by
    conv_lhs => rw [h1]
    rw [reduceOption_map_eq_filterMap]
  rw [h2]
  unfold Spec.seasonValues
  generalize (List.range vals.length) = l
  induction l with
  | nil => simp
  | cons a l ih =>
    have hcons : ∀ s, (((a :: l).filter fun i => i % p = s).filterMap fun i => vals.getD i none).length =
        ((l.filter fun i => i % p = s).filterMap fun i => vals.getD i none).length
          + if a % p = s then (if (vals.getD a none).isSome then 1 else 0) else 0 := by
      intro s
      by_cases h : a % p = s
      · rw [List.filter_cons_of_pos (by simpa using h), List.filterMap_cons, if_pos h]
        cases vals.getD a none <;> simp
      · rw [List.filter_cons_of_neg (by simpa using h), if_neg h, add_zero]
    simp only [hcons]
    rw [Finset.sum_add_distrib, ih, Finset.sum_ite_eq, if_pos (by simpa using Nat.mod_lt a hp), List.filterMap_cons]
    cases vals.getD a none <;> simp

/-- C13: with nothing missing, the strided batch path and the padded-matrix path give the same sums for every column. -/
theorem C13_batch_eq_scalar (n m p : ℕ) (hp : 0 < p) (l : ℕ → List ℝ) (hl : ∀ j, j < m → (l j).length = n) (W : ℕ → ℝ) :
    ∃ st, seasonalScoreVarBatch n m (fun j => elems (l j)) (p : ℤ) W = some st ∧
      ∀ j, j < m → seasonalScoreVarScalar ((l j).map some) (p : ℤ) W = some (st.1 j, st.2.1 j, st.2.2) := by
  obtain ⟨st, e, h1, h2, h3⟩ := seasonalScoreVarBatch_eq (n := n) (m := m) (fun j => elems (l j)) hp W
  refine ⟨st, e, fun j hj => ?_⟩
  rw [seasonalScoreVarScalar_clean _ hp, hl j hj, h1 j hj, h2 j hj, h3]

/-- C13: the seasonal Theil-Sen trend is the median of all slopes (per cycle) between finite samples of equal season; NaN
exactly when there is no such pair. -/
theorem C13_slope (vals : List (Option ℝ)) (p : ℕ) (hp : 0 < p) :
    seasonalSlopeScalar vals (p : ℤ) = some (if Spec.seasonSlopesGaps vals p = 0 then none
      else some (median (Spec.seasonSlopesGaps vals p))) := seasonalSlopeScalar_eq vals hp

/-- C13: a non-positive period is rejected. -/
theorem C13_period_rejected (vals : List (Option ℝ)) (period : ℤ) (hp : period ≤ 0) (W : ℕ → ℝ) :
    seasonalScoreVarScalar vals period W = none ∧ seasonalSlopeScalar vals period = none := by
  simp [seasonalScoreVarScalar, seasonalSlopeScalar, reshapeSeasonal, hp]

example : Spec.seasonValues [some 5, some 1, none, some 2, some 7] 2 0 = [5, 7] ∧
    Spec.seasonValues [some 5, some 1, none, some 2, some 7] 2 1 = [1, 2] := by
  simp [Spec.seasonValues, List.range_succ]

/-! ## C10, C11, C52 -/

/-- series of a grid point: the values along the time axis -/
def Spec.series (data : NDArr (Option ℝ)) (ax : ℕ) (idx : List ℕ) : List (Option ℝ) :=
  (List.range (data.shape.getD ax 0)).map fun t => data.get (idx.insertIdx ax t)

/-- `axis` denotes the `ax`-th dimension (non-negative, or negative counted from the end) -/
def Spec.Denotes (rank : ℕ) (axis : ℤ) (ax : ℕ) : Prop := ax < rank ∧ (axis = ax ∨ axis = (ax : ℤ) - rank)

theorem prod_pos_of_InB {s is : List ℕ} (h : InB s is) : 0 < s.prod := lt_of_le_of_lt (Nat.zero_le _) (ravel_lt h)

theorem multidim_ok (cfg : Cfg) (hc : Covered cfg) (data : NDArr (Option ℝ)) (axis : ℤ) (ax : ℕ)
    (hax : Spec.Denotes data.shape.length axis ax) (chunk : Option ℕ) (hck : chunk ≠ some 0)
    (hdef : chunk = none → data.shape.getD ax 0 ≠ 0) (W : ℕ → ℝ) :
    (mkMultidim E cfg data axis chunk W = none ∧ ∃ idx, InB (data.shape.eraseIdx ax) idx ∧
      Complete (Spec.series data ax idx) ∧ mkTest E cfg (Spec.series data ax idx) W = none) ∨
    (∃ out, mkMultidim E cfg data axis chunk W = some out ∧ out.shape = data.shape.eraseIdx ax ∧
      ∀ idx, InB (data.shape.eraseIdx ax) idx → out.get idx = point E cfg W (Spec.series data ax idx) ∧
        (Complete (Spec.series data ax idx) → (mkTest E cfg (Spec.series data ax idx) W).isSome)) := by
  obtain ⟨h1, h2⟩ := hax
  have hres : (if 0 ≤ axis ∧ axis < (data.shape.length : ℤ) then some axis.toNat
      else if axis < 0 ∧ 0 ≤ axis + data.shape.length then some (axis + data.shape.length).toNat else none) = some ax := by
    rcases h2 with rfl | rfl
    · rw [if_pos (by omega)]; simp
    · rw [if_neg (by omega), if_pos (by omega)]; simp
  set n := data.shape.getD ax 0 with hn
  set sp := data.shape.eraseIdx ax with hsp
  obtain ⟨c, hcpos, hceq⟩ : ∃ c, 0 < c ∧ resolveChunk chunk n sp.prod = some c := by
    cases chunk with
    | none =>
      refine ⟨_, ?_, by simp only [resolveChunk, defaultChunk]; rw [if_neg (hdef rfl)]⟩
      exact lt_of_lt_of_le (by norm_num) (le_max_right _ 100)
    | some c => exact ⟨c, by by_contra h; exact hck (by simp; omega), rfl⟩
  unfold mkMultidim
  simp only [hres, Option.bind_eq_bind, Option.bind_some]
  have hreshape : (data.moveToFront ax).reshape [n, sp.prod] = some ⟨[n, sp.prod], fun idx =>
      (data.moveToFront ax).get (unravel (n :: sp) (ravel [n, sp.prod] idx))⟩ := by
    unfold NDArr.reshape
    rw [if_pos (by simp [NDArr.moveToFront, hn, hsp])]
    rfl
  have hhead : (data.moveToFront ax).shape.headD 0 = n := rfl
  have htail : (data.moveToFront ax).shape.tail = sp := rfl
  rw [hhead, htail, hreshape]
  simp only [Option.bind_some]
  rw [hceq]
  simp only [Option.bind_some]
  have hcol : ∀ j, j < sp.prod → ((List.range n).map fun t =>
      (data.moveToFront ax).get (unravel (n :: sp) (ravel [n, sp.prod] [t, j]))) = Spec.series data ax (unravel sp j) := by
    intro j hj
    unfold Spec.series
    refine List.map_congr_left fun t ht => ?_
    have ht' : t < n := List.mem_range.mp ht
    have : unravel (n :: sp) (ravel [n, sp.prod] [t, j]) = t :: unravel sp j := by
      simp only [ravel, unravel, List.prod_cons, List.prod_nil, mul_one, add_zero]
      have hp : 0 < sp.prod := by omega
      rw [Nat.mul_comm t, Nat.mul_add_div hp, Nat.div_eq_of_lt hj, add_zero, Nat.mul_add_mod, Nat.mod_eq_of_lt hj]
    rw [this]
    rfl
  rcases chunkLoop_ok E cfg hc (n := n) (nPoints := sp.prod) hcpos (fun j => (List.range n).map fun t =>
      (data.moveToFront ax).get (unravel (n :: sp) (ravel [n, sp.prod] [t, j]))) (fun j _ => by simp) W with
    ⟨e, j, hj, hcp, hno⟩ | ⟨r, e, hr⟩
  · left
    rw [e]
    refine ⟨rfl, unravel sp j, unravel_inB hj, ?_⟩
    rw [hcol j hj] at hcp hno
    exact ⟨hcp, hno⟩
  · right
    rw [e]
    refine ⟨_, rfl, rfl, fun idx hidx => ?_⟩
    have hlt := ravel_lt hidx
    have := hr _ hlt
    rw [hcol _ hlt, unravel_ravel hidx] at this
    exact this

/-- C10: for every rank, time axis, chunk size and pattern of missing data, the gridded test either raises because some
complete series makes the 1-D test raise, or returns at every grid point the result of the 1-D test of that point's own
series (the NaN result if the 1-D test raises on an incomplete series). The result has the spatial shape.
(All families with Theil-Sen slopes and a positive period, except `correlated_seasonal` — see C11; non-seasonal families with
either method.) -/
theorem C10_grid_point (cfg : Cfg) (hc : Covered cfg) (hcs : cfg.test ≠ .correlatedSeasonal) (data : NDArr (Option ℝ))
    (axis : ℤ) (ax : ℕ) (hax : Spec.Denotes data.shape.length axis ax) (chunk : Option ℕ) (hck : chunk ≠ some 0)
    (hdef : chunk = none → data.shape.getD ax 0 ≠ 0) (W : ℕ → ℝ) :
    (mkMultidim E cfg data axis chunk W = none ∧ ∃ idx, InB (data.shape.eraseIdx ax) idx ∧
      Complete (Spec.series data ax idx) ∧ mkTest E cfg (Spec.series data ax idx) W = none) ∨
    (∃ out, mkMultidim E cfg data axis chunk W = some out ∧ out.shape = data.shape.eraseIdx ax ∧
      ∀ idx, InB (data.shape.eraseIdx ax) idx →
        out.get idx = (mkTest E cfg (Spec.series data ax idx) W).getD Res.nan ∧
        (Complete (Spec.series data ax idx) → (mkTest E cfg (Spec.series data ax idx) W).isSome)) := by
  have := multidim_ok E cfg hc data axis ax hax chunk hck hdef W
  simpa only [point, seen, if_neg hcs] using this

/-- C10: the chunk size never changes the outcome. -/
theorem C10_chunk_invariant (cfg : Cfg) (hc : Covered cfg) (data : NDArr (Option ℝ)) (axis : ℤ) (ax : ℕ)
    (hax : Spec.Denotes data.shape.length axis ax) (c c' : ℕ) (h0 : 0 < c) (h0' : 0 < c') (W : ℕ → ℝ) :
    (mkMultidim E cfg data axis (some c) W = none ∧ mkMultidim E cfg data axis (some c') W = none) ∨
    ∃ out out', mkMultidim E cfg data axis (some c) W = some out ∧ mkMultidim E cfg data axis (some c') W = some out' ∧
      out.Eqv out' := by
  have h := multidim_ok E cfg hc data axis ax hax (some c) (by simp; omega) (by simp) W
  have h' := multidim_ok E cfg hc data axis ax hax (some c') (by simp; omega) (by simp) W
  rcases h with ⟨e, i, hi, hci, hni⟩ | ⟨o, e, s, p⟩ <;> rcases h' with ⟨e', i', hi', hci', hni'⟩ | ⟨o', e', s', p'⟩
  · exact Or.inl ⟨e, e'⟩
  · have := (p' i hi).2 hci; rw [hni] at this; simp at this
  · have := (p i' hi').2 hci'; rw [hni'] at this; simp at this
  · refine Or.inr ⟨o, o', e, e', s.trans s'.symm, fun idx hidx => ?_⟩
    rw [s] at hidx
    rw [(p idx hidx).1, (p' idx hidx).1]

/-- C11, partial: for `correlated_seasonal` the gridded result agrees with the 1-D test at every grid point whose series is
complete; at a point with gaps it is the 1-D result of the gap-closed series instead (missing: agreement at points with gaps,
which is false, see `C11_false`). -/
theorem C11_partial (cfg : Cfg) (hc : Covered cfg) (hcs : cfg.test = .correlatedSeasonal) (data : NDArr (Option ℝ))
    (axis : ℤ) (ax : ℕ) (hax : Spec.Denotes data.shape.length axis ax) (chunk : Option ℕ) (hck : chunk ≠ some 0)
    (hdef : chunk = none → data.shape.getD ax 0 ≠ 0) (W : ℕ → ℝ) (out : NDArr Res)
    (hout : mkMultidim E cfg data axis chunk W = some out) (idx : List ℕ) (hidx : InB (data.shape.eraseIdx ax) idx) :
    out.get idx = (mkTest E cfg ((Spec.series data ax idx).reduceOption.map some) W).getD Res.nan ∧
    (Complete (Spec.series data ax idx) → some (out.get idx) = mkTest E cfg (Spec.series data ax idx) W) := by
  rcases multidim_ok E cfg hc data axis ax hax chunk hck hdef W with ⟨e, -⟩ | ⟨o, e, -, p⟩
  · rw [e] at hout; simp at hout
  · rw [e] at hout
    simp only [Option.some.injEq] at hout
    subst hout
    obtain ⟨h1, h2⟩ := p idx hidx
    have h1' : o.get idx = (mkTest E cfg ((Spec.series data ax idx).reduceOption.map some) W).getD Res.nan := by
      rw [h1]; simp [point, seen, hcs]
    refine ⟨h1', fun hcp => ?_⟩
    rw [h1', map_some_reduceOption hcp.2]
    have := h2 hcp
    revert this
    cases mkTest E cfg (Spec.series data ax idx) W <;> simp

end Skyborn.MK.Py
