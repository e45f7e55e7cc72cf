import Verif.Dcape.Spec
import Mathlib.Analysis.Complex.ExponentialBounds
import Mathlib.Tactic.Positivity

/-! Facts about the thermodynamic functions: where they are numbers, monotonicity, and the warming of a sinking parcel. -/

namespace Skyborn.Dcape

theorem fdiv_some {x y : ℝ} (h : y ≠ 0) : fdiv x y = some (x / y) := if_neg h
theorem flog_some {x : ℝ} (h : 0 < x) : flog x = some (Real.log x) := if_pos h
theorem fpow_some {x y : ℝ} (h : 0 < x) : fpow x y = some (x ^ y) := if_pos h

/-- Saturation vapour pressure (hPa) over water. -/
noncomputable def svp (tc : ℝ) : ℝ := 6.112 * Real.exp (17.67 * tc / (tc + 243.5))

theorem svp_pos (tc : ℝ) : 0 < svp tc := by unfold svp; positivity

theorem svpHpa_some {tc : ℝ} (h : tc ≠ -243.5) : svpHpa tc = some (svp tc) := by
  unfold svpHpa
  rw [fdiv_some (fun h0 => h (by linarith))]
  rfl

theorem svp_mono {a b : ℝ} (ha : -243.5 < a) (hab : a ≤ b) : svp a ≤ svp b := by
  unfold svp
  have h1 : 0 < a + 243.5 := by linarith
  have h2 : 0 < b + 243.5 := by linarith
  have : 17.67 * a / (a + 243.5) ≤ 17.67 * b / (b + 243.5) := by
    rw [div_le_div_iff₀ h1 h2]
    nlinarith
  have := Real.exp_le_exp.mpr this
  linarith

/-- The vapour pressure used in the mixing ratio. -/
noncomputable def clampE (p e : ℝ) : ℝ := min (max e 0.00000001) (0.99 * p)

theorem clampE_pos {p : ℝ} (hp : 0 < p) (e : ℝ) : 0 < clampE p e := by
  unfold clampE
  exact lt_min (lt_of_lt_of_le (by norm_num) (le_max_right _ _)) (by positivity)

theorem clampE_lt {p : ℝ} (hp : 0 < p) (e : ℝ) : clampE p e < p := by
  unfold clampE
  exact lt_of_le_of_lt (min_le_right _ _) (by linarith)

theorem clampE_mono (p : ℝ) {e e' : ℝ} (h : e ≤ e') : clampE p e ≤ clampE p e' := by
  unfold clampE
  exact min_le_min_right _ (max_le_max_right _ h)

/-- Mixing ratio. -/
noncomputable def mr (p e : ℝ) : ℝ := eps * clampE p e / (p - clampE p e)

theorem mixingRatio_some {p : ℝ} (hp : 0 < p) (e : ℝ) : mixingRatio p e = some (mr p e) := by
  have := clampE_lt hp e
  have h0 : p - clampE p e ≠ 0 := by linarith
  exact fdiv_some h0

theorem mr_pos {p : ℝ} (hp : 0 < p) (e : ℝ) : 0 < mr p e := by
  have h1 := clampE_lt hp e
  have h2 := clampE_pos hp e
  unfold mr eps
  exact div_pos (by positivity) (by linarith)

theorem mr_mono {p : ℝ} (hp : 0 < p) {e e' : ℝ} (h : e ≤ e') : mr p e ≤ mr p e' := by
  have h1 := clampE_lt hp e
  have h2 := clampE_lt hp e'
  have h3 := clampE_pos hp e
  have h4 := clampE_mono p h
  unfold mr eps
  rw [div_le_div_iff₀ (by linarith) (by linarith)]
  nlinarith

/-- Virtual temperature. -/
noncomputable def tv (t r : ℝ) : ℝ := t * (r + eps) / (eps * (1 + r))

theorem virtualTemp_some (t : ℝ) {r : ℝ} (hr : 0 < r) : virtualTemp t r = some (tv t r) := by
  have : eps * (1 + r) ≠ 0 := by unfold eps; positivity
  exact fdiv_some this

theorem tv_mono {t t' r r' : ℝ} (ht : 0 ≤ t) (htt : t ≤ t') (hr : 0 < r) (hrr : r ≤ r') : tv t r ≤ tv t' r' := by
  unfold tv eps
  have h1 : t * (r + 0.622) / (0.622 * (1 + r)) ≤ t * (r' + 0.622) / (0.622 * (1 + r')) := by
    rw [div_le_div_iff₀ (by positivity) (by linarith)]
    nlinarith [mul_nonneg ht (sub_nonneg.mpr hrr)]
  have h2 : t * (r' + 0.622) / (0.622 * (1 + r')) ≤ t' * (r' + 0.622) / (0.622 * (1 + r')) := by
    have hr' : 0 < r' := lt_of_lt_of_le hr hrr
    gcongr
  linarith

/-- The moist adiabatic rate is a positive number for positive pressure and temperatures above 29.65 K. -/
theorem dtdp_pos {p t : ℝ} (hp : 0 < p) (ht : 29.65 < t) : ∃ k, dtdp p t = some k ∧ 0 < k := by
  have ht0 : 0 < t := by linarith
  have hs : svpPa t = some (svp (t - 273.15) * 100) := by
    unfold svpPa
    rw [svpHpa_some (by intro h; linarith)]
    rfl
  have hr := mr_pos hp (svp (t - 273.15) * 100)
  set rs := mr p (svp (t - 273.15) * 100) with hrs
  have h1 : rdAir * t * t ≠ 0 := by unfold rdAir; positivity
  have h2 : 0 < lv * lv * rs * eps / (rdAir * t * t) := by unfold lv eps rdAir; positivity
  have h3 : cp + lv * lv * rs * eps / (rdAir * t * t) ≠ 0 := by
    have : 0 < cp := by unfold cp; norm_num
    positivity
  refine ⟨(rdAir * t + lv * rs) / (cp + lv * lv * rs * eps / (rdAir * t * t)) / p, ?_, ?_⟩
  · unfold dtdp
    rw [hs]
    simp only [Option.bind_eq_bind, Option.bind_some]
    rw [mixingRatio_some hp]
    simp only [Option.bind_some]
    rw [← hrs, fdiv_some h1]
    simp only [Option.bind_some]
    rw [fdiv_some h3]
    simp only [Option.bind_some]
    exact fdiv_some hp.ne'
  · unfold rdAir lv cp eps at *
    positivity

theorem rk4Step_up {h p t : ℝ} (hh : 0 < h) (hp : 0 < p) (ht : 29.65 < t) : ∃ t', rk4Step h (p, t) = some (p + h, t') ∧ t < t' := by
  obtain ⟨k1, e1, p1⟩ := dtdp_pos hp ht
  obtain ⟨k2, e2, p2⟩ := dtdp_pos (p := p + 0.5 * h) (t := t + 0.5 * h * k1) (by positivity) (lt_add_of_lt_of_pos ht (by positivity))
  obtain ⟨k3, e3, p3⟩ := dtdp_pos (p := p + 0.5 * h) (t := t + 0.5 * h * k2) (by positivity) (lt_add_of_lt_of_pos ht (by positivity))
  obtain ⟨k4, e4, p4⟩ := dtdp_pos (p := p + h) (t := t + h * k3) (by positivity) (lt_add_of_lt_of_pos ht (by positivity))
  refine ⟨t + (h / 6) * (k1 + 2 * k2 + 2 * k3 + k4), ?_, ?_⟩
  · unfold rk4Step
    dsimp only
    rw [e1]
    simp only [Option.bind_eq_bind, Option.bind_some]
    rw [e2]
    simp only [Option.bind_some]
    rw [e3]
    simp only [Option.bind_some]
    rw [e4]
    rfl
  · have : 0 < (h / 6) * (k1 + 2 * k2 + 2 * k3 + k4) := by positivity
    linarith

/-- **A sinking saturated parcel warms**: the integration down to a higher pressure succeeds and does not cool the parcel. -/
theorem rk4_down {p t p' : ℝ} (hp : 0 < p) (ht : 29.65 < t) (hpp : p ≤ p') : ∃ t', rk4 p t p' = some t' ∧ t ≤ t' := by
  unfold rk4
  dsimp only
  by_cases hz : |p' - p| < 0.000000001
  · rw [if_pos hz]
    exact ⟨t, rfl, le_rfl⟩
  · rw [if_neg hz]
    have hdp : 0 < p' - p := by
      rcases hpp.eq_or_lt with h | h
      · exfalso; apply hz; rw [h]; norm_num
      · linarith
    have hn : 0 < (nstep (p' - p) : ℝ) := by unfold nstep; positivity
    set h := (p' - p) / (nstep (p' - p) : ℝ) with hh
    have hhp : 0 < h := div_pos hdp hn
    obtain ⟨s, e, hs⟩ := doLoopM_inv (lo := 1) (hi := nstep (p' - p)) (s := (p, t)) (f := fun _ s => rk4Step h s) (by omega)
      (fun _ s => 0 < s.1 ∧ t ≤ s.2) ⟨hp, le_rfl⟩ (fun i s _ _ hs => by
        obtain ⟨t', e, ht'⟩ := rk4Step_up hhp hs.1 (lt_of_lt_of_le ht hs.2)
        exact ⟨_, e, by have := hs.1; dsimp only; linarith, hs.2.trans ht'.le⟩)
    rw [e]
    exact ⟨s.2, rfl, hs.2⟩

/-- The integration ends at the target pressure, in equal steps shorter than 200 Pa. -/
theorem rk4_steps (dp : ℝ) : (nstep dp : ℝ) * (dp / nstep dp) = dp ∧ |dp / nstep dp| < 200 := by
  have hn : 0 < (nstep dp : ℝ) := by unfold nstep; positivity
  refine ⟨by field_simp, ?_⟩
  rw [abs_div, abs_of_pos hn, div_lt_iff₀ hn]
  have := Nat.lt_floor_add_one (|dp| / 200)
  rw [div_lt_iff₀ (by norm_num)] at this
  unfold nstep
  push_cast
  linarith

/-- Temperature at the condensation level. -/
theorem tLcl_some {t td : ℝ} (htd : 56 < td) (h : td ≤ t) : ∃ tl, tLcl t td = some tl ∧ 56 < tl ∧ tl ≤ td := by
  have h0 : 0 < td := by linarith
  have h1 : 0 < td - 56 := by linarith
  have hq : 1 ≤ t / td := by rwa [one_le_div h0]
  have hl : 0 ≤ Real.log (t / td) := Real.log_nonneg hq
  have ha : 0 < 1 / (td - 56) := by positivity
  have hb : 0 < 1 / (td - 56) + Real.log (t / td) / 800 := by positivity
  refine ⟨56 + 1 / (1 / (td - 56) + Real.log (t / td) / 800), ?_, ?_, ?_⟩
  · unfold tLcl
    rw [fdiv_some h1.ne']
    simp only [Option.bind_eq_bind, Option.bind_some]
    rw [fdiv_some h0.ne']
    simp only [Option.bind_some]
    rw [flog_some (by linarith)]
    simp only [Option.bind_some]
    rw [fdiv_some hb.ne']
    rfl
  · have : 0 < 1 / (1 / (td - 56) + Real.log (t / td) / 800) := by positivity
    linarith
  · have : 1 / (1 / (td - 56) + Real.log (t / td) / 800) ≤ td - 56 := by
      rw [div_le_iff₀ hb, mul_add, mul_one_div_cancel h1.ne']
      have := mul_nonneg h1.le (div_nonneg hl (by norm_num : (0 : ℝ) ≤ 800))
      linarith
    linarith

/-- At saturation the parcel condenses where it is. -/
theorem tLcl_saturated {t : ℝ} (ht : 56 < t) : tLcl t t = some t := by
  have h0 : t ≠ 0 := by linarith
  have h1 : t - 56 ≠ 0 := by linarith
  unfold tLcl
  rw [fdiv_some h1]
  simp only [Option.bind_eq_bind, Option.bind_some]
  rw [fdiv_some h0]
  simp only [Option.bind_some]
  rw [div_self h0, flog_some one_pos]
  simp only [Option.bind_some, Real.log_one, zero_div, add_zero]
  rw [fdiv_some (one_div_ne_zero h1)]
  simp only [Option.bind_some, one_div_one_div]
  congr 1
  ring

end Skyborn.Dcape
