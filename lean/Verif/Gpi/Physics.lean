/-
C190 and C192 restated with the thermodynamics written out, without any definition of the model of the Fortran routines.
-/
import Verif.Gpi.Results
import Verif.Gpi.Levels

namespace Skyborn.Gpi

open Classical

/-! ### Specification: moist thermodynamics (temperature in K, pressure in mb, mixing ratio in kg/kg) -/

namespace Spec

/-- Saturation vapour pressure over water at temperature `T` (Bolton), zero at the pole of the formula. -/
noncomputable def esat (T : ℝ) : ℝ := if T = 29.65 then 0 else 6.112 * Real.exp (17.67 * (T - 273.15) / (T - 29.65))

/-- Vapour pressure of air of mixing ratio `r` at pressure `p`. -/
noncomputable def vapourPressure (r p : ℝ) : ℝ := r * p / (287.04 / 461.5 + r)

/-- Mixing ratio of saturated air. -/
noncomputable def saturated (T p : ℝ) : ℝ := 287.04 / 461.5 * esat T / (p - esat T)

/-- Virtual temperature of air with vapour `r` and total water `w`. -/
noncomputable def virtual (T r w : ℝ) : ℝ := T * (1 + r * 461.5 / 287.04) / (1 + w)

/-- Latent heat of vaporisation. -/
noncomputable def latent (T : ℝ) : ℝ := 2.501e6 - 630 * (T - 273.15)

/-- Relative humidity, at most one. -/
noncomputable def relHumidity (T r p : ℝ) : ℝ := min (vapourPressure r p / esat T) 1

/-- Entropy of a parcel with vapour `r` and total water `w`, dry air at pressure `pd` and relative humidity `h`. -/
noncomputable def entropy (T r w pd h : ℝ) : ℝ :=
  (1005.7 + w * 2500) * Real.log T - 287.04 * Real.log pd + latent T * r / T - r * 461.5 * Real.log h

/-- Pressure at the lifted condensation level. -/
noncomputable def lcl (T r p : ℝ) : ℝ := p * relHumidity T r p ^ (T / (1669 - 122 * relHumidity T r p - T))

/-- Derivative of the entropy of saturated air with respect to temperature (water content and pressure fixed). -/
noncomputable def entropyRate (T w p : ℝ) : ℝ := (1005.7 + w * 2500 + latent T ^ 2 * saturated T p / (461.5 * T ^ 2)) / T

/-- `d l` is the buoyancy at level `l` (excess of virtual temperature over the environment `et, ep, er`) of a parcel lifted from temperature `t`, mixing ratio `r`
and pressure `p`: on the dry adiabat up to its condensation level, above it saturated with the entropy it started with (up to 0.001/0.3 K); condensate stays in
the parcel in the proportion `1 - sig`. Levels above 50 mb do not count. -/
structure Parcel (n : ℕ) (et ep er : ℕ → ℝ) (sig t r p : ℝ) (d : ℕ → ℝ) : Prop where
  high : ∀ l, 1 ≤ l → l ≤ n → ep l < 50 → d l = 0
  dry : ∀ l, 1 ≤ l → l ≤ n → 50 ≤ ep l → lcl t r p ≤ ep l →
    d l = virtual (t * (ep l / p) ^ ((287.04 : ℝ) / 1005.7)) r r - virtual (et l) (er l) (er l)
  moist : ∀ l, 1 ≤ l → l ≤ n → 50 ≤ ep l → ep l < lcl t r p → ∃ T : ℝ, 0 < T ∧ esat T < ep l ∧
    |entropy t r r (p - vapourPressure r p) (relHumidity t r p) - entropy T (saturated T (ep l)) r (ep l - esat T) 1| ≤
      0.001 / 0.3 * entropyRate T r (ep l) ∧
    d l = virtual T (saturated T (ep l)) (sig * saturated T (ep l) + (1 - sig) * r) - virtual (et l) (er l) (er l)

/-- `value`, `tout`, `lout` are the convective available potential energy of the parcel and temperature and pressure of its level of neutral buoyancy: the layers
up to the last level `k` of positive buoyancy count with their mean buoyancy and `R Δp / p̄`, and above `k` buoyancy, pressure and temperature are taken as
linear up to the point where the buoyancy vanishes. -/
def IsCape (n : ℕ) (et ep er : ℕ → ℝ) (sig t r p value tout lout : ℝ) : Prop :=
  ∃ d, Parcel n et ep er sig t r p d ∧
    (((∀ l, 1 < l → l ≤ n → d l ≤ 0) ∧ value = 0 ∧ tout = et 1 ∧ lout = 0) ∨
    ∃ k x, 2 ≤ k ∧ k ≤ n ∧ 0 < d k ∧ (∀ l, k < l → l ≤ n → d l ≤ 0) ∧
      (k = n → lout = ep k ∧ tout = et k) ∧
      (k < n → 0 < x ∧ x ≤ 1 ∧ (1 - x) * d k + x * d (k + 1) = 0 ∧ lout = (1 - x) * ep k + x * ep (k + 1) ∧ tout = (1 - x) * et k + x * et (k + 1)) ∧
      value = max (287.04 * (p - ep 1) / (p + ep 1) * d 1 +
        (∑ l ∈ Finset.Ico 1 k, 287.04 * ((d l + d (l + 1)) / 2) * (ep l - ep (l + 1)) / ((ep l + ep (l + 1)) / 2)) +
        287.04 * (d k / 2) * (ep k - lout) / ((ep k + lout) / 2)) 0)

end Spec

/-! ### The model's thermodynamics is this one -/

theorem satPressure_esat (T : ℝ) : satPressure (T - 273.15) = Spec.esat T := by
  unfold satPressure Spec.esat
  have e : 243.5 + (T - 273.15) = T - 29.65 := by ring
  rw [e]
  by_cases h : T = 29.65
  · rw [if_pos (by rw [h]; norm_num), if_pos h]
  · rw [if_neg (fun h' => h (by linarith)), if_neg h]

theorem satMixing_saturated (T p : ℝ) : satMixing (satPressure (T - 273.15)) p = Spec.saturated T p := by
  rw [satPressure_esat]; rfl

theorem virtualTemp_virtual (t r : ℝ) : virtualTemp t r = Spec.virtual t r r := by
  unfold virtualTemp Spec.virtual eps rd rv
  rw [show r * (1 / ((287.04 : ℝ) / 461.5)) = r * 461.5 / 287.04 by ring]

theorem humidity_spec (t r p : ℝ) : humidity t r p = Spec.relHumidity t r p := by
  unfold humidity Spec.relHumidity
  rw [satPressure_esat]; rfl

theorem condensation_spec (t r p : ℝ) : condensation t r p = Spec.lcl t r p := by
  unfold condensation Spec.lcl
  rw [humidity_spec]

theorem reversibleEntropy_spec (t r p : ℝ) :
    reversibleEntropy t r p = Spec.entropy t r r (p - Spec.vapourPressure r p) (Spec.relHumidity t r p) := by
  unfold reversibleEntropy Spec.entropy Spec.latent
  rw [humidity_spec]
  unfold vapour Spec.vapourPressure cpd cl alv0 cpvmcl rd rv eps rd rv
  ring

theorem moistEntropy_spec {r p T : ℝ} (hp : 0 < p) (he : Spec.esat T < p) :
    moistEntropy r p T (satPressure (T - 273.15)) = Spec.entropy T (Spec.saturated T p) r (p - Spec.esat T) 1 := by
  have hv : vapour (Spec.saturated T p) p = Spec.esat T := by
    unfold vapour Spec.saturated eps rd rv
    have h1 : p - Spec.esat T ≠ 0 := by linarith
    have h2 : (287.04 / 461.5 : ℝ) + 287.04 / 461.5 * Spec.esat T / (p - Spec.esat T) ≠ 0 := by
      rw [show (287.04 / 461.5 : ℝ) + 287.04 / 461.5 * Spec.esat T / (p - Spec.esat T) = 287.04 / 461.5 * p / (p - Spec.esat T) by
        field_simp; ring]
      exact div_ne_zero (mul_ne_zero (by norm_num) hp.ne') h1
    rw [div_eq_iff h2]
    field_simp
    ring
  unfold moistEntropy Spec.entropy Spec.latent
  rw [satMixing_saturated, hv, Real.log_one]
  unfold cpd cl alv0 cpvmcl rd
  ring

theorem moistRate_spec {r p T : ℝ} (hT : 0 < T) : moistRate r p T (satPressure (T - 273.15)) = Spec.entropyRate T r p := by
  unfold moistRate Spec.entropyRate Spec.latent
  rw [satMixing_saturated]
  unfold cpd cl alv0 cpvmcl rv
  field_simp
  ring

theorem moistTemp_spec (sig r T q : ℝ) : moistTemp sig r (T, q) = Spec.virtual T q (sig * q + (1 - sig) * r) := by
  unfold moistTemp Spec.virtual eps rd rv
  dsimp only
  rw [show q * (1 / ((287.04 : ℝ) / 461.5)) = q * 461.5 / 287.04 by ring]

theorem lifted_parcel {e : Env} {sig t r p : ℝ} {d : ℕ → ℝ} (h : Spec.Lifted e sig t r p d) : Spec.Parcel e.n e.t e.p e.r sig t r p d := by
  refine ⟨h.high, fun l a b c k => ?_, fun l a b c k => ?_⟩
  · rw [h.dry l a b c (by rw [condensation_spec]; exact k), virtualTemp_virtual, virtualTemp_virtual]
    rfl
  · obtain ⟨T, h1, h2, h3, h4⟩ := h.moist l a b c (by rw [condensation_spec]; exact k)
    rw [satPressure_esat] at h2
    rw [moistEntropy_spec (by linarith) h2, moistRate_spec h1, reversibleEntropy_spec] at h3
    rw [satMixing_saturated, moistTemp_spec, virtualTemp_virtual] at h4
    exact ⟨T, h1, h2, h3, h4⟩

/-- C190: a CAPE result with status 1 is the energy of the lifted parcel, with the thermodynamics written out. -/
theorem C190_physics {e : Env} {sig t r p : ℝ} {c : Cape} (hp : Spec.Falling e.n e.p) (h : cape e sig t r p = some c) (hf : c.flag = 1) :
    Spec.IsCape e.n e.t e.p e.r sig t r p c.value c.tout c.lout := by
  obtain ⟨d, hd, h1⟩ := C190_energy hp h hf
  refine ⟨d, lifted_parcel hd, ?_⟩
  have hsum : ∀ k, Spec.energy e p d k = 287.04 * (p - e.p 1) / (p + e.p 1) * d 1 +
      (∑ l ∈ Finset.Ico 1 k, 287.04 * ((d l + d (l + 1)) / 2) * (e.p l - e.p (l + 1)) / ((e.p l + e.p (l + 1)) / 2)) := by
    intro k
    unfold Spec.energy rd
    rw [add_comm]
    congr 1
    refine Finset.sum_congr rfl fun l _ => ?_
    rw [div_div_eq_mul_div]
    ring
  rcases h1 with h1 | ⟨k, h2, h3, h4, h5, h6, h7⟩ | ⟨k, x, h2, h3, h4, h5, h6, h7, h8, h9, h10⟩
  · exact Or.inl h1
  · refine Or.inr ⟨k, 0, h2, h3.le, h4.2.2.1, h4.2.2.2, fun _ => ⟨h7, h6⟩, fun g => absurd g (by omega), ?_⟩
    rw [h5, hsum, h7, sub_self, mul_zero, zero_div, add_zero]
  · refine Or.inr ⟨k, x, h2, h3.le, h4.2.2.1, h4.2.2.2, fun g => absurd g (by omega), fun _ => ⟨h5, h6, h7, h8, h9⟩, ?_⟩
    rw [h10, hsum]
    congr 2
    unfold rd
    rw [div_div_eq_mul_div]
    ring

/-! ### Potential intensity -/

/-- The equations of potential intensity for a profile `T, P, R` of `n` levels used (surface first, `R` not negative) over water of temperature `sst` with sea-level
pressure `psl` (mb): three lifted parcels (environmental, at the radius of maximum wind, saturated at the sea surface), a central pressure `pm` that reproduces
itself within 0.5 mb, the minimum pressure and the maximum wind. -/
structure Spec.Equations (n : ℕ) (T P R : ℕ → ℝ) (sst psl pmin vmax : ℝ) (ca cm cs ta tm ts la lm ls pm : ℝ) : Prop where
  environment : Spec.IsCape n T P R 0 (T 1) (R 1) (P 1) ca ta la
  radius : Spec.IsCape n T P R 0 (T 1) (287.04 / 461.5 * R 1 * psl / (min pm 1000 * (287.04 / 461.5 + R 1) - R 1 * psl)) (min pm 1000) cm tm lm
  sea : Spec.IsCape n T P R 0 sst (Spec.saturated sst (min pm 1000)) (min pm 1000) cs ts ls
  start : pm = 970 ∨ 400 ≤ pm
  central : |psl * Real.exp (-max (cm - ca + 0.5 * 0.9 * (sst / ts) * (cs - cm)) 0 /
      (287.04 * ((Spec.virtual (T 1) (R 1) (R 1) + Spec.virtual sst (Spec.saturated sst (min pm 1000)) (Spec.saturated sst (min pm 1000))) / 2))) - pm| ≤ 0.5
  pressure : pmin = psl * Real.exp (-max (cm - ca + 0.5 * 0.9 * (1 + 0.5) * (sst / ts) * (cs - cm)) 0 /
      (287.04 * ((Spec.virtual (T 1) (R 1) (R 1) + Spec.virtual sst (Spec.saturated sst (min pm 1000)) (Spec.saturated sst (min pm 1000))) / 2)))
  wind : 0 ≤ vmax ∧ vmax ^ 2 = 0.8 ^ 2 * 0.9 * (sst / ts) * max 0 (cs - cm)

theorem parcel_congr {n : ℕ} {et ep er et' ep' er' : ℕ → ℝ} {sig t r p : ℝ} {d : ℕ → ℝ} (h1 : ∀ l, 1 ≤ l → l ≤ n → et l = et' l)
    (h2 : ∀ l, 1 ≤ l → l ≤ n → ep l = ep' l) (h3 : ∀ l, 1 ≤ l → l ≤ n → er l = er' l) (h : Spec.Parcel n et ep er sig t r p d) :
    Spec.Parcel n et' ep' er' sig t r p d := by
  refine ⟨fun l a b => ?_, fun l a b => ?_, fun l a b => ?_⟩
  · rw [← h2 l a b]; exact h.high l a b
  · rw [← h2 l a b, ← h1 l a b, ← h3 l a b]; exact h.dry l a b
  · rw [← h2 l a b, ← h1 l a b, ← h3 l a b]; exact h.moist l a b

theorem isCape_congr {n : ℕ} (hn : 1 ≤ n) {et ep er et' ep' er' : ℕ → ℝ} {sig t r p v o m : ℝ} (h1 : ∀ l, 1 ≤ l → l ≤ n → et l = et' l)
    (h2 : ∀ l, 1 ≤ l → l ≤ n → ep l = ep' l) (h3 : ∀ l, 1 ≤ l → l ≤ n → er l = er' l) (h : Spec.IsCape n et ep er sig t r p v o m) :
    Spec.IsCape n et' ep' er' sig t r p v o m := by
  obtain ⟨d, hd, h⟩ := h
  refine ⟨d, parcel_congr h1 h2 h3 hd, ?_⟩
  rcases h with h | ⟨k, x, k2, kn, dk, hk, e1, e2, e3⟩
  · rw [← h1 1 le_rfl hn]; exact Or.inl h
  · refine Or.inr ⟨k, x, k2, kn, dk, hk, fun g => ?_, fun g => ?_, ?_⟩
    · rw [← h2 k (by omega) kn, ← h1 k (by omega) kn]; exact e1 g
    · rw [← h2 k (by omega) kn, ← h1 k (by omega) kn, ← h2 (k + 1) (by omega) (by omega), ← h1 (k + 1) (by omega) (by omega)]; exact e2 g
    · rw [e3, ← h2 1 le_rfl hn, ← h2 k (by omega) kn]
      congr 3
      refine Finset.sum_congr rfl fun l hl => ?_
      have := Finset.mem_Ico.mp hl
      rw [← h2 l (by omega) (by omega), ← h2 (l + 1) (by omega) (by omega)]

/-- C192: a successful profile call (flag 1) returns a solution of the potential-intensity equations for the levels of the profile below the one nearest to 50 mb,
with the negative mixing ratios raised to zero. Everything is written out. -/
theorem C192_equations {sst psl p t r : NDArr (Option ℝ)} {order : List (List ℕ)} {out : Intensity} {n k : ℕ} (hn : 1 ≤ n) (hsh : t.shape.length = 1)
    (hps : p.shape = [n]) {T P R : ℕ → ℝ} (hT : ∀ i, 1 ≤ i → i ≤ n → t.get [i - 1] = some (T i)) (hP : ∀ i, 1 ≤ i → i ≤ n → p.get [i - 1] = some (P i))
    (hR : ∀ i, 1 ≤ i → i ≤ n → r.get [i - 1] = some (R i)) (hfall : ∀ i, 1 ≤ i → i < n → P (i + 1) < P i) (hpos : 0 < P n)
    (hk : 1 ≤ k ∧ k ≤ n ∧ (∀ j, 1 ≤ j → j ≤ n → |P k - 50| ≤ |P j - 50|) ∧ ∀ j, 1 ≤ j → j < k → |P k - 50| < |P j - 50|)
    (h : potentialIntensity sst psl p t r none order = .ok out) (hf : out.flag = 1) :
    ∃ s q pmin vmax ca cm cs ta tm ts la lm ls pm, scalar sst = .ok s ∧ scalar psl = .ok q ∧ out.pmin [] = some pmin ∧ out.vmax [] = some vmax ∧
      Spec.Equations (max 1 (k - 1)) T P (fun i => max (R i) 0) s (q / 100) pmin vmax ca cm cs ta tm ts la lm ls pm := by
  have mono : ∀ a b, 1 ≤ a → a ≤ b → b ≤ n → P b ≤ P a := by
    intro a b h1 h2
    induction b, h2 using Nat.le_induction with
    | base => intro _; exact le_rfl
    | succ b h3 ih => intro h4; exact (hfall b (by omega) (by omega)).le.trans (ih (by omega))
  have hfirst : Spec.SurfaceFirst p := by
    unfold Spec.SurfaceFirst upside clean
    dsimp only
    rw [hps]
    simp only [List.getD_cons_zero]
    rintro ⟨h1, h2⟩
    have e1 := hP 1 le_rfl hn
    have e2 := hP n hn le_rfl
    rw [Nat.sub_self] at e1
    rw [e1, e2] at h2
    exact absurd h2 (not_lt.mpr (mono 1 n le_rfl hn le_rfl))
  obtain ⟨s, q, n', a, m, sat, pm, t0, otl, pmin, vmax, h1, h2, h3, h4, h5, -, -, hs⟩ := C192_solution hsh hfirst h hf
  rw [hps] at h3
  simp only [List.cons.injEq, and_true] at h3
  subst h3
  have hnear : nearest (fun i => (p.get [i - 1]).getD undef) n = k := by
    refine nearest_unique hn ⟨hk.1, hk.2.1, fun j j1 j2 => ?_, fun j j1 j2 => ?_⟩
    · rw [hP k hk.1 hk.2.1, hP j j1 j2]; exact hk.2.2.1 j j1 j2
    · rw [hP k hk.1 hk.2.1, hP j j1 (by have := hk.2.1; omega)]; exact hk.2.2.2 j j1 j2
  set c := Spec.columnOf s q p t r ((none : Option ℤ).getD n).toNat 0 0.9 with hc
  have hcn : c.env.n = max 1 (k - 1) := by
    show max 1 (nearest (fun i => (p.get [i - 1]).getD undef) n - 1) = _
    rw [hnear]
  have hle : c.env.n ≤ n := by rw [hcn]; have := hk.2.1; omega
  have hge : 1 ≤ c.env.n := by rw [hcn]; omega
  have cP : ∀ l, 1 ≤ l → l ≤ n → c.env.p l = P l := fun l l1 l2 => by show (p.get [l - 1]).getD undef = _; rw [hP l l1 l2]; rfl
  have cT : ∀ l, 1 ≤ l → l ≤ n → c.env.t l = T l := fun l l1 l2 => by show (t.get [l - 1]).getD undef = _; rw [hT l l1 l2]; rfl
  have cR : ∀ l, 1 ≤ l → l ≤ n → c.env.r l = max (R l) 0 := fun l l1 l2 => by
    show max ((r.get [l - 1]).getD undef) 0 = _; rw [hR l l1 l2]; rfl
  have hF : Spec.Falling c.env.n c.env.p := by
    refine ⟨fun l l1 l2 => ?_, fun l l1 l2 => ?_⟩
    · rw [cP l l1 (by omega)]; exact hpos.trans_le (mono l n l1 (by omega) le_rfl)
    · rw [cP l l1 (by omega), cP (l + 1) (by omega) (by omega)]; exact hfall l l1 (by omega)
  have conv : ∀ {sig τ ρ π : ℝ} {x : Cape}, cape c.env sig τ ρ π = some x ∧ x.flag = 1 →
      Spec.IsCape (max 1 (k - 1)) T P (fun i => max (R i) 0) sig τ ρ π x.value x.tout x.lout := by
    intro sig τ ρ π x hx
    have := C190_physics hF hx.1 hx.2
    rw [hcn] at this
    refine isCape_congr (by omega) (fun l a b => ?_) (fun l a b => ?_) (fun l a b => ?_) this
    · exact cT l a (by omega)
    · exact cP l a (by omega)
    · exact cR l a (by omega)
  have t1 : c.t 1 = T 1 := cT 1 le_rfl hn
  have p1 : c.p 1 = P 1 := cP 1 le_rfl hn
  have r1 : max (c.r 1) 0 = max (R 1) 0 := cR 1 le_rfl hn
  have ht0 : t0 = sat.tout := by
    have := hs.outflow
    rw [if_neg (show ¬ c.source = 1 by show ¬ (0 : ℕ) = 1; norm_num)] at this
    exact this.1
  subst ht0
  obtain ⟨-, -, f3, f4⟩ := hs.fixed _ rfl
  have e1 := hs.env
  have e2 := hs.radius
  have e3 := hs.sea
  rw [t1, p1, r1] at e1
  rw [t1, r1] at e2
  rw [satMixing_saturated] at e3
  rw [t1, r1, satMixing_saturated, virtualTemp_virtual, virtualTemp_virtual] at f3 f4
  refine ⟨s, q, pmin, vmax, a.value, m.value, sat.value, a.tout, m.tout, sat.tout, a.lout, m.lout, sat.lout, pm, h1, h2, h4, h5,
    conv e1, conv e2, conv e3, hs.start, ?_, ?_, hs.wind.1, ?_⟩
  · rw [show (0.5 : ℝ) * 0.9 = 0.45 by norm_num]; exact f3
  · rw [show (0.5 : ℝ) * 0.9 * (1 + 0.5) = 0.675 by norm_num]; exact f4
  · rw [hs.wind.2]
    show 0.64 * 0.9 * (s / _) * _ = _
    norm_num

/-- A profile that meets the hypotheses of `C192_equations`, with a positive wind. -/
example : ∃ (T P R : ℕ → ℝ) (out : Intensity) (v : ℝ), (∀ i, 1 ≤ i → i ≤ 3 → (prof 3 (windy 0 0.9).t).get [i - 1] = some (T i)) ∧
    (∀ i, 1 ≤ i → i ≤ 3 → (prof 3 (windy 0 0.9).p).get [i - 1] = some (P i)) ∧ (∀ i, 1 ≤ i → i ≤ 3 → (prof 3 (windy 0 0.9).r).get [i - 1] = some (R i)) ∧
    (∀ i, 1 ≤ i → i < 3 → P (i + 1) < P i) ∧ 0 < P 3 ∧
    (1 ≤ 3 ∧ 3 ≤ 3 ∧ (∀ j, 1 ≤ j → j ≤ 3 → |P 3 - 50| ≤ |P j - 50|) ∧ ∀ j, 1 ≤ j → j < 3 → |P 3 - 50| < |P j - 50|) ∧
    potentialIntensity (num 303) (num 97000) (prof 3 (windy 0 0.9).p) (prof 3 (windy 0 0.9).t) (prof 3 (windy 0 0.9).r) none [] = .ok out ∧ out.flag = 1 ∧
    out.vmax [] = some v ∧ 0 < v := by
  obtain ⟨out, v, h1, h2, h3, h4⟩ := windy_call
  have p1 : (windy 0 0.9).p 1 = 971 := rfl
  have p2 : (windy 0 0.9).p 2 = 970 := rfl
  have p3 : (windy 0 0.9).p 3 = 50 := rfl
  refine ⟨(windy 0 0.9).t, (windy 0 0.9).p, (windy 0 0.9).r, out, v, ?_, ?_, ?_, ?_, ?_, ⟨by norm_num, le_rfl, ?_, ?_⟩, h1, h2, h3, h4⟩
  · intro i a b
    show some _ = _
    simp [Nat.sub_add_cancel a]
  · intro i a b
    show some _ = _
    simp [Nat.sub_add_cancel a]
  · intro i a b
    show some _ = _
    simp [Nat.sub_add_cancel a]
  · intro i a b
    have : i = 1 ∨ i = 2 := by omega
    rcases this with rfl | rfl
    · rw [p1, p2]; norm_num
    · rw [p2, p3]; norm_num
  · rw [p3]; norm_num
  · intro j a b
    rw [p3, sub_self, abs_zero]; positivity
  · intro j a b
    have : j = 1 ∨ j = 2 := by omega
    rcases this with rfl | rfl
    · rw [p1, p3]; norm_num
    · rw [p2, p3]; norm_num

end Skyborn.Gpi
