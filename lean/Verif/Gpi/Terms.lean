/-
The terms of the logarithmic decomposition.
-/
import Verif.Gpi.Diagnostics

namespace Skyborn.Gpi

open Classical

/-! ### Specification -/

/-- The four logarithms of a wind `v`, a sea surface temperature `s`, an outflow temperature `τ` and a ratio `k`, and their sum. -/
structure Spec.Terms (s k v τ lnpi lneff lndiseq lnratio : ℝ) : Prop where
  wind : 0 < v
  cold : 0 < τ ∧ τ < s
  ratio : 0 < k
  pi : lnpi = Real.log (v ^ 2)
  eff : lneff = Real.log ((s - τ) / τ)
  coeff : lnratio = Real.log k
  sum : lnpi = lneff + lndiseq + lnratio

/-! ### Proofs -/

theorem outcome_terms {c : Column} {res : Res} (h : Outcome c res) {a b x y : ℝ} (h1 : post res.lnpi = some a) (h2 : post res.lneff = some b) (h3 : post res.lndiseq = some x)
    (h4 : post (lnRatio c.ckcd) = some y) : ∃ v τ, post res.vmax = some v ∧ post res.tout = some τ ∧ Spec.Terms c.sst c.ckcd v τ a b x y := by
  have e1 := post_some h1
  have e2 := post_some h2
  have e3 := post_some h3
  have e4 := post_some h4
  cases h with
  | diverged h =>
    rw [h, post_undef] at h1
    cases h1
  | failed _ _ h _ _ =>
    rw [h.1, post_undef] at h1
    cases h1
  | solved _ _ _ _ hsol l hf =>
    have g : 0 < res.vmax ∧ (0 < res.tout ∧ res.tout < c.sst) ∧ 0 < c.ckcd := by
      by_contra g
      rw [l.diseq, if_neg g, post_undef] at h3
      cases h3
    refine ⟨res.vmax, res.tout, post_of_pos g.1.le, post_of_pos g.2.1.1.le, g.1, g.2.1, g.2.2, ?_, ?_, ?_, ?_⟩
    · rw [e1, l.pi, if_pos g.1]
    · rw [e2, l.eff, if_pos g.2.1]
    · rw [e4]
      exact if_pos g.2.2
    · have : y = res.lnckcd := by
        rw [e4, l.ratio]
        rfl
      rw [e1, e2, e3, this, l.diseq, if_pos g]
      ring

/-- C200: where all terms of a profile are numbers they are the logarithms of V², of the efficiency and of the ratio, and the rest of the sum. -/
theorem C200_terms_profile {sst psl p t r : NDArr (Option ℝ)} {ckcd : ℝ} {source : String} {order : List (List ℕ)} {d : Decomposition} (hd : t.shape.length = 1)
    (h : piLogDecomposition sst psl p t r ckcd source order = .ok d) {s : ℝ} (hs : scalar sst = .ok s) {a b x y : ℝ} (h1 : d.lnpi [] = some a) (h2 : d.lneff [] = some b)
    (h3 : d.lndiseq [] = some x) (h4 : d.lnckcd = some y) : ∃ v τ, d.vmax [] = some v ∧ d.t0 [] = some τ ∧ Spec.Terms s ckcd v τ a b x y := by
  cases hsrc : sourceFlag source with
  | error e =>
    exfalso
    unfold piLogDecomposition at h
    rw [if_pos hd] at h
    obtain ⟨_, _, h⟩ := ebind h
    obtain ⟨_, _, h⟩ := ebind h
    obtain ⟨_, _, h⟩ := ebind h
    rw [hsrc] at h
    cases h
  | ok src =>
    rw [log_profile hd hsrc] at h
    cases hc : profileCall sst psl p t r none src ckcd with
    | error e => rw [hc] at h; cases h
    | ok res =>
      rw [hc] at h
      cases h
      obtain ⟨s', q, k1, _, k3⟩ := profile_inv hc
      rw [hs] at k1
      cases k1
      rcases k3 with ⟨_, k3⟩ | ⟨_, c, k3, _, k5, _, k7⟩
      · exfalso
        change post res.lnpi = some a at h1
        rw [k3] at h1
        change post undef = some a at h1
        rw [post_undef] at h1
        cases h1
      · have ho := core_outcome k3
        have hr : res.lnckcd = lnRatio c.ckcd := by
          cases ho with
          | diverged h => rw [h]
          | failed _ _ h _ _ =>
            exfalso
            change post res.lnpi = some a at h1
            rw [h.1, post_undef] at h1
            cases h1
          | solved _ _ _ _ _ l _ =>
            rw [l.ratio]
            rfl
        obtain ⟨v, τ, m1, m2, m3⟩ := outcome_terms ho h1 h2 h3 (by rw [← hr]; exact h4)
        rw [k5, k7] at m3
        exact ⟨v, τ, m1, m2, m3⟩

/-- C200: the same at every point of a grid; a ratio that is not positive is replaced by 0.9 in three dimensions without missing values. -/
theorem C200_terms_grid {sst psl p t r : NDArr (Option ℝ)} {ckcd : ℝ} {source : String} {order : List (List ℕ)} {d : Decomposition} (hd : t.shape.length ≠ 1)
    (hs : Spec.Schedule (surface t.shape) order) (h : piLogDecomposition sst psl p t r ckcd source order = .ok d) {idx : List ℕ} (hi : InB d.shape idx) {s : ℝ} (hsst : sst.get idx = some s)
    {a b x y : ℝ} (h1 : d.lnpi idx = some a) (h2 : d.lneff idx = some b) (h3 : d.lndiseq idx = some x) (h4 : d.lnckcd = some y) :
    ∃ v τ, d.vmax idx = some v ∧ d.t0 idx = some τ ∧ Spec.Terms s (if 0 < ckcd then ckcd else 0.9) v τ a b x y := by
  obtain ⟨g, src, hg, _, e1, _, e2, e3, _⟩ := log_inv hd hs h
  rw [e1] at hi
  obtain ⟨res, f, hp, k1, k2, k3, k4, k5, k6, k7⟩ := e3 idx hi
  rw [k5] at h1
  rw [k6] at h2
  rw [k7] at h3
  rw [e2] at h4
  have hk : ratioUsed t.shape.length g.missing ckcd = if 0 < ckcd then ckcd else 0.9 := by
    by_cases c : 0 < ckcd
    · rw [if_pos c]
      unfold ratioUsed
      rw [if_neg (fun h => h.2.2 c)]
    · rw [if_neg c]
      unfold ratioUsed
      by_cases e : t.shape.length = 3 ∧ g.missing = false
      · rw [if_pos ⟨e.1, e.2, c⟩]
      · exfalso
        unfold ratioUsed at h4
        rw [if_neg (fun h => e ⟨h.1, h.2.1⟩)] at h4
        unfold lnRatio at h4
        rw [if_neg c, post_undef] at h4
        cases h4
  rw [hk] at hp h4
  rcases point_inv hp with ⟨m, _⟩ | ⟨c, m1, _, _, m2, _, m3, _⟩
  · exfalso
    rw [m] at h1
    change post undef = some a at h1
    rw [post_undef] at h1
    cases h1
  · rw [← m3] at h4
    obtain ⟨v, τ, n1, n2, n3⟩ := outcome_terms (core_outcome m1) h1 h2 h3 h4
    have : c.sst = s := by
      obtain ⟨n, _, _, _, _, _, rfl⟩ := grid_fields hg
      rw [m2]
      show (sst.get idx).getD undef = s
      rw [hsst]
      rfl
    rw [this, m3] at n3
    exact ⟨v, τ, by rw [k2]; exact n1, by rw [k3]; exact n2, n3⟩

/-- C200: `log_decompose_pi` of the wind, the sea surface temperature and the outflow temperature gives the same terms. -/
theorem C200_recomputed {s k v τ a b x y : ℝ} (h : Spec.Terms s k v τ a b x y) :
    logDecompose (some v) (some s) (some τ) k "K" = .ok (some a, some b, some x, y) := by
  obtain ⟨h1, h2, h3, h4, h5, h6, h7⟩ := h
  unfold logDecompose sstKelvin
  rw [if_pos (Or.inl rfl)]
  show (if k ≤ 0 ∨ some τ = some 0 then _ else _) = _
  have e : ¬ (k ≤ 0 ∨ some τ = some 0) := by
    rintro (g | g)
    · linarith
    · cases g
      linarith [h2.1]
  rw [if_neg e]
  have d1 : (s - τ) / τ > 0 := div_pos (by linarith [h2.2]) h2.1
  dsimp only
  rw [if_pos d1, if_pos h1]
  have g1 : 2 * Real.log v = a := by
    rw [h4, Real.log_pow]
    norm_num
  have g2 : Real.log ((s - τ) / τ) = b := h5.symm
  dsimp only
  rw [g1, g2, ← h6, show a - b - y = x by linarith]

/-- C200: a temperature in degrees Celsius is taken as the one in Kelvin that is 273.15 higher. -/
theorem C200_units (pi t0 : Option ℝ) (s k : ℝ) : logDecompose pi (some s) t0 k "C" = logDecompose pi (some (s + 273.15)) t0 k "K" := by
  unfold logDecompose sstKelvin
  rw [if_neg (by simp), if_pos (Or.inl rfl), if_pos (Or.inl rfl)]
  rfl

/-- C200: units other than K and C (in either case) are refused. -/
theorem C200_units_refused (pi sst t0 : Option ℝ) (k : ℝ) {u : String} (h : u ∉ ["K", "k", "C", "c"]) : logDecompose pi sst t0 k u = .error .value := by
  simp only [List.mem_cons, List.not_mem_nil, or_false, not_or] at h
  unfold logDecompose sstKelvin
  rw [if_neg (by tauto), if_neg (by tauto)]
  rfl

/-! ### Witnesses -/

/-- The decomposition for `windy`. -/
theorem windy_log (env : Bool) (k : ℝ) : ∃ d v, piLogDecomposition (num 303) (num 97000) (prof 3 (windy 0 0.9).p) (prof 3 (windy 0 0.9).t) (prof 3 (windy 0 0.9).r) k
      (if env then "cape_env" else "cape_star") [] = .ok d ∧ d.vmax [] = some v ∧ 0 < v ∧
      v ^ 2 = 0.64 * 0.9 * (303 / (if env then 300 else 301)) * (rd / 1941 * windyExcess) ∧ d.t0 [] = some (if env then 300 else 301) := by
  obtain ⟨res, h1, h2, h3, h4, h5, _⟩ := windy_core (if env then 1 else 0) k
  have hp := profile_of (c := windy (if env then 1 else 0) k) (q := 97000) (by show 1 ≤ 3; omega) (by show (50 : ℝ) ≤ 971; norm_num) (by show (278.15 : ℝ) < 303; norm_num) rfl h1
  have ho : (windyOut (if env then 1 else 0)).1 = if env then 300 else 301 := by
    unfold windyOut
    cases env <;> simp
  rw [ho] at h4 h5
  refine ⟨ofRes res, res.vmax, ?_, post_of_pos h3.le, h3, h4, ?_⟩
  · rw [log_profile rfl (src := if env then 1 else 0) (by cases env <;> rfl)]
    have : profileCall (num 303) (num 97000) (prof 3 (windy 0 0.9).p) (prof 3 (windy 0 0.9).t) (prof 3 (windy 0 0.9).r) none (if env then 1 else 0) k = .ok res := hp
    rw [this]
    rfl
  · show post res.tout = _
    rw [h5]
    apply post_of_pos
    cases env <;> norm_num

/-- C200, full statement: `outflow_source` selects the branch for the diagnostics, and leaves the wind as it is. False: it enters the wind through the outflow
temperature. -/
theorem C200_source_false : ¬ ∀ (sst psl p t r : NDArr (Option ℝ)) (k : ℝ) (order : List (List ℕ)) (d d' : Decomposition), t.shape.length = 1 →
    piLogDecomposition sst psl p t r k "cape_star" order = .ok d → piLogDecomposition sst psl p t r k "cape_env" order = .ok d' → d.vmax [] = d'.vmax [] := by
  intro H
  obtain ⟨d, v, a1, a2, a3, a4, _⟩ := windy_log false 0.9
  obtain ⟨d', v', b1, b2, b3, b4, _⟩ := windy_log true 0.9
  have := H _ _ _ _ _ _ _ d d' rfl a1 b1
  rw [a2, b2] at this
  cases this
  rw [a4] at b4
  simp only [Bool.false_eq_true, if_false, if_true] at b4
  have hx : 0 < rd / 1941 * windyExcess := by
    by_contra hx
    push Not at hx
    have : v ^ 2 ≤ 0 := by
      rw [a4]
      simp only [Bool.false_eq_true, if_false]
      exact mul_nonpos_of_nonneg_of_nonpos (by norm_num) hx
    have : 0 < v ^ 2 := by positivity
    linarith
  nlinarith

/-- C200, full statement: V² is proportional to the ratio of the exchange coefficients. False: the ratio given does not enter the wind, which always uses 0.9. -/
theorem C200_ratio_false : ¬ ∀ (sst psl p t r : NDArr (Option ℝ)) (k k' : ℝ) (order : List (List ℕ)) (d d' : Decomposition) (v v' : ℝ), t.shape.length = 1 → 0 < k → 0 < k' →
    piLogDecomposition sst psl p t r k "cape_star" order = .ok d → piLogDecomposition sst psl p t r k' "cape_star" order = .ok d' → d.vmax [] = some v → d'.vmax [] = some v' →
    v ^ 2 * k' = v' ^ 2 * k := by
  intro H
  obtain ⟨d, v, a1, a2, a3, a4, _⟩ := windy_log false 0.9
  obtain ⟨d', v', b1, b2, b3, b4, _⟩ := windy_log false 1
  have := H _ _ _ _ _ 0.9 1 _ d d' v v' rfl (by norm_num) (by norm_num) a1 b1 a2 b2
  rw [b4, ← a4] at this
  have h : 0 < v ^ 2 := by positivity
  linarith

/-- C200: a ratio that is not positive has no logarithm: NaN for a profile. -/
theorem C200_negative {sst psl p t r : NDArr (Option ℝ)} {ckcd : ℝ} {order : List (List ℕ)} {d : Decomposition} (hd : t.shape.length = 1) (hk : ckcd ≤ 0)
    (h : piLogDecomposition sst psl p t r ckcd "cape_star" order = .ok d) : d.lnckcd = none ∧ d.lndiseq [] = none := by
  rw [log_profile hd (src := 0) rfl] at h
  cases hc : profileCall sst psl p t r none 0 ckcd with
  | error e => rw [hc] at h; cases h
  | ok res =>
    rw [hc] at h
    cases h
    obtain ⟨s', q, _, _, k3⟩ := profile_inv hc
    have hl : lnRatio ckcd = undef := if_neg (not_lt.mpr hk)
    show post res.lnckcd = none ∧ post res.lndiseq = none
    rcases k3 with ⟨_, k3⟩ | ⟨_, c, k3, _, k5, _, k7⟩
    · rw [k3]
      refine ⟨?_, post_undef⟩
      show post (lnRatio ckcd) = none
      rw [hl, post_undef]
    · have hn : res.lnckcd = lnRatio c.ckcd := by
        cases core_outcome k3 with
        | diverged h => rw [h]
        | failed _ _ _ _ h => exact h
        | solved _ _ _ _ _ l _ => exact l.ratio
      rw [hn, k7, hl]
      refine ⟨post_undef, ?_⟩
      cases core_outcome k3 with
      | diverged h => rw [h]; exact post_undef
      | failed _ _ h _ _ => rw [h.2.2]; exact post_undef
      | solved _ _ _ _ _ l _ =>
        rw [l.diseq, if_neg (fun h => absurd h.2.2 (by rw [k7]; exact not_lt.mpr hk))]
        exact post_undef

end Skyborn.Gpi
