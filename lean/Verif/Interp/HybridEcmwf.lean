/-
C73: ECMWF below-ground extrapolation of `interp_hybrid_to_pressure`.
-/
import Verif.Interp.HybridProps

namespace Skyborn.Hybrid

open Spec

namespace Spec

/-- Surface temperature extrapolated from the lowest level with the standard lapse rate 6.5 K/km (ECMWF): `tb` the temperature and `pb`
the pressure of the lowest level, `s` the surface pressure; gas constant 287.04, gravity 9.80616. -/
noncomputable def surfaceTemp (tb pb s : ℝ) : ℝ := tb * (1 + 0.0065 * 287.04 / 9.80616 * (s / pb - 1))

/-- Third-order expansion of `exp`. -/
noncomputable def exp3 (y : ℝ) : ℝ := 1 + y + y ^ 2 / 2 + y ^ 3 / 6

/-- Lapse rate used for the temperature below a surface at height `z = phi / g`, surface temperature `ts`: 6.5 K/km for low terrain;
above 2000 m the temperature tends to a plateau temperature of at most 298 K, blended linearly between 2000 m and 2500 m. -/
noncomputable def lapseT (ts phi : ℝ) : ℝ :=
  let z := phi / 9.80616
  let t0 := ts + 0.0065 * z
  if z < 2000 then 0.0065
  else max ((if z ≤ 2500 then ((2500 - z) * t0 + (z - 2000) * min t0 298) / 500 else min t0 298) - ts) 0 / z

/-- ECMWF temperature at pressure `p` below the surface. -/
noncomputable def ecmwfTemperature (tb pb s phi p : ℝ) : ℝ :=
  surfaceTemp tb pb s * exp3 (lapseT (surfaceTemp tb pb s) phi * 287.04 / 9.80616 * Real.log (p / s))

/-- Lapse rate used for the geopotential: it keeps the temperature at sea level below 290.5 K. -/
noncomputable def lapseZ (ts phi : ℝ) : ℝ :=
  let z := phi / 9.80616
  if 290.5 < ts + 0.0065 * z then (if ts ≤ 290.5 then (290.5 - ts) / z else 0) else 0.0065

/-- Effective surface temperature for the geopotential: warm and cold surfaces are damped towards 290.5 K and 255 K. -/
noncomputable def dampedTemp (ts phi : ℝ) : ℝ :=
  let t := if 290.5 < ts ∧ 290.5 < ts + 0.0065 * (phi / 9.80616) then (290.5 + ts) / 2 else ts
  if t < 255 then (t + 255) / 2 else t

/-- ECMWF geopotential height at pressure `p` below the surface. -/
noncomputable def ecmwfHeight (tb pb s phi p : ℝ) : ℝ :=
  let ts := surfaceTemp tb pb s
  let l := Real.log (p / s)
  let y := lapseZ ts phi * 287.04 / 9.80616 * l
  phi / 9.80616 - 287.04 / 9.80616 * dampedTemp ts phi * l * (1 + y / 2 + y ^ 2 / 6)

/-- `j` is the lowest model level of the column (largest pressure). -/
def Lowest (r : Req) (s : ℝ) (j : ℕ) : Prop :=
  1 ≤ j ∧ j ≤ r.nlevi ∧ ∀ k, 1 ≤ k → k ≤ r.nlevi → levelPressure r s k ≤ levelPressure r s j

end Spec

theorem extrapT_eq (tb pb p s phi : ℝ) : extrapTemperature tb pb p s phi = ecmwfTemperature tb pb s phi p := by
  unfold extrapTemperature ecmwfTemperature
  simp only []
  have e1 : tb * (1 + alphac * (s / pb - 1)) = surfaceTemp tb pb s := by
    unfold alphac rdc ginv surfaceTemp; ring
  rw [e1]
  generalize surfaceTemp tb pb s = ts
  have e2 : phi * ginv = phi / 9.80616 := by unfold ginv; ring
  rw [e2]
  have key : ∀ y y' : ℝ, y = y' → ts * (1 + y + 0.5 * y ^ 2 + 1 / 6 * y ^ 3) = ts * exp3 y' := by
    rintro y y' rfl; unfold exp3; ring
  apply key
  unfold lapseT
  simp only []
  by_cases hz : phi / 9.80616 < 2000
  · rw [if_pos hz, if_pos hz]; unfold alphac rdc ginv; ring
  · rw [if_neg hz, if_neg hz]
    have e3 : (if phi / 9.80616 ≤ 2500 then 0.002 * ((2500 - phi / 9.80616) * (ts + 0.0065 * (phi / 9.80616)) +
        (phi / 9.80616 - 2000) * min (ts + 0.0065 * (phi / 9.80616)) 298) else min (ts + 0.0065 * (phi / 9.80616)) 298) =
        if phi / 9.80616 ≤ 2500 then ((2500 - phi / 9.80616) * (ts + 0.0065 * (phi / 9.80616)) +
        (phi / 9.80616 - 2000) * min (ts + 0.0065 * (phi / 9.80616)) 298) / 500 else min (ts + 0.0065 * (phi / 9.80616)) 298 := by
      split
      · ring
      · rfl
    rw [e3]
    generalize (if phi / 9.80616 ≤ 2500 then ((2500 - phi / 9.80616) * (ts + 0.0065 * (phi / 9.80616)) +
        (phi / 9.80616 - 2000) * min (ts + 0.0065 * (phi / 9.80616)) 298) / 500 else min (ts + 0.0065 * (phi / 9.80616)) 298) = tp
    have hphi : phi ≠ 0 := by rintro rfl; norm_num at hz
    by_cases ht : tp < ts
    · rw [if_pos ht, max_eq_right (by linarith)]; simp
    · rw [if_neg ht, max_eq_left (by linarith)]
      unfold rdc
      field_simp

theorem extrapZ_eq (tb pb p s phi : ℝ) : extrapGeopotential tb pb p s phi = ecmwfHeight tb pb s phi p := by
  unfold extrapGeopotential ecmwfHeight
  simp only []
  have e1 : tb * (1 + alphac * (s / pb - 1)) = surfaceTemp tb pb s := by
    unfold alphac rdc ginv surfaceTemp; ring
  rw [e1]
  generalize surfaceTemp tb pb s = ts
  have e2 : phi * ginv = phi / 9.80616 := by unfold ginv; ring
  rw [e2]
  have key : ∀ t t' y y' : ℝ, t = t' → y = y' → phi / 9.80616 - rdc * t * ginv * Real.log (p / s) * (1 + 0.5 * y + 1 / 6 * y ^ 2) =
      phi / 9.80616 - 287.04 / 9.80616 * t' * Real.log (p / s) * (1 + y' / 2 + y' ^ 2 / 6) := by
    rintro t t' y y' rfl rfl; unfold rdc ginv; ring
  by_cases h0 : ts + 0.0065 * (phi / 9.80616) > 290.5
  · have h0' : 290.5 < ts + 0.0065 * (phi / 9.80616) := h0
    by_cases h1 : ts ≤ 290.5
    · have hphi : phi ≠ 0 := by rintro rfl; norm_num at h0 h1; linarith
      have hc : ts ≤ 290.5 ∧ ts + 0.0065 * (phi / 9.80616) > 290.5 := ⟨h1, h0⟩
      have hd : ¬ (290.5 < ts ∧ 290.5 < ts + 0.0065 * (phi / 9.80616)) := fun h => absurd h.1 (not_lt.2 h1)
      rw [if_pos hc]
      apply key
      · unfold dampedTemp
        simp only [if_neg hd]
        split <;> ring
      · unfold lapseZ
        simp only [if_pos h0', if_pos h1]
        unfold rdc
        field_simp
    · have hc : ¬ (ts ≤ 290.5 ∧ ts + 0.0065 * (phi / 9.80616) > 290.5) := fun h => h1 h.1
      have hc2 : ts > 290.5 ∧ ts + 0.0065 * (phi / 9.80616) > 290.5 := ⟨not_le.1 h1, h0⟩
      have hd : 290.5 < ts ∧ 290.5 < ts + 0.0065 * (phi / 9.80616) := hc2
      rw [if_neg hc, if_pos hc2]
      apply key
      · unfold dampedTemp
        simp only [if_pos hd]
        rw [show (0.5 : ℝ) * (290.5 + ts) = (290.5 + ts) / 2 by ring]
        split <;> ring
      · unfold lapseZ
        simp only [if_pos h0', if_neg h1]
        ring
  · have hc : ¬ (ts ≤ 290.5 ∧ ts + 0.0065 * (phi / 9.80616) > 290.5) := fun h => h0 h.2
    have hc2 : ¬ (ts > 290.5 ∧ ts + 0.0065 * (phi / 9.80616) > 290.5) := fun h => h0 h.2
    have hd : ¬ (290.5 < ts ∧ 290.5 < ts + 0.0065 * (phi / 9.80616)) := hc2
    have h0' : ¬ 290.5 < ts + 0.0065 * (phi / 9.80616) := h0
    rw [if_neg hc, if_neg hc2]
    apply key
    · unfold dampedTemp
      simp only [if_neg hd]
      split <;> ring
    · unfold lapseZ
      simp only [if_neg h0']
      unfold alphac rdc ginv; ring

theorem lowest_idx {r : Req} {s : ℝ} {j : ℕ} (hn : 1 ≤ r.nlevi) (hst : Strict r.nlevi (levelPressure r s)) (hl : Lowest r s j) :
    lowestIdx r.nlevi (decide (levelPressure r s 1 * 0.01 ≤ levelPressure r s r.nlevi * 0.01)) = j := by
  obtain ⟨h1, h2, h3⟩ := hl
  obtain ⟨l1, l2⟩ := lowestIdx_range hn (decide (levelPressure r s 1 * 0.01 ≤ levelPressure r s r.nlevi * 0.01))
  apply strict_inj hst l1 l2 h1 h2
  apply le_antisymm (h3 _ l1 l2)
  have := lowest_max hn (strict_scale hst) j h1 h2
  beta_reduce at this
  linarith

/-- Value of an entry below the lowest level, for each kind of variable. -/
theorem below_entry {al : Bool} {empty : ℕ → ℝ} {r : Req} {out : ℕ → ℕ → ℕ → Option ℝ} (hn : 1 ≤ r.nlevi) (hc : Columns r)
    (ha : ArgsOk r) (hr : hybridToPressure al empty r = .ok out) {o k i : ℕ} (he : Entry r o k i) {s : ℝ}
    (hs : r.ps o i = some s) (hpos : 0 < s) {j : ℕ} (hl : Lowest r s j) (hb : levelPressure r s j < r.levels k) :
    out o k i = decode (match r.below with
      | .missing => spvl
      | .nodePair => spvl
      | .temperature => ecmwfTemperature (r.data o j i) (levelPressure r s j) s (r.aux r.phiSfc o i) (r.levels k)
      | .geopotential => ecmwfHeight (r.aux r.tBot o i) (levelPressure r s j) s (r.aux r.phiSfc o i) (r.levels k)
      | .other => r.data o j i) := by
  obtain ⟨g1, -⟩ := hc o he.1 i he.2.2.2 s hs
  have hj := lowest_idx hn g1 hl
  have hsc : ∀ a b : ℝ, a * 0.01 / (b * 0.01) = a / b := fun a b => mul_div_mul_right a b (by norm_num)
  have hne := below_ne r
  rw [run_value' hn hc ha hr he, rawValue_some hs hpos, levelValue_below (by rw [hj]; linarith)]
  congr 1
  cases hbl : r.below with
  | missing => rfl
  | nodePair => exact absurd hbl hne
  | temperature =>
    simp only [belowValue]
    rw [hj, rd_ok hl.1 hl.2.1, rd_ok hl.1 hl.2.1]
    simp only [Option.bind_eq_bind, Option.bind_some, Option.getD_some]
    rw [extrapT_eq]
    unfold ecmwfTemperature surfaceTemp
    rw [hsc, hsc]
  | geopotential =>
    simp only [belowValue]
    rw [hj, rd_ok hl.1 hl.2.1]
    simp only [Option.bind_eq_bind, Option.bind_some, Option.getD_some]
    rw [extrapZ_eq]
    unfold ecmwfHeight surfaceTemp
    rw [hsc, hsc]
  | other =>
    simp only [belowValue]
    rw [hj, rd_ok hl.1 hl.2.1]
    rfl

/-- C73. Below the lowest level a field of `variable='other'` keeps the value of the lowest level. -/
theorem C73_other {al : Bool} {empty : ℕ → ℝ} {r : Req} {out : ℕ → ℕ → ℕ → Option ℝ} (hn : 1 ≤ r.nlevi) (hc : Columns r)
    (ha : ArgsOk r) (hex : r.extrapolate = true) (hv : r.varName = some .other) (hr : hybridToPressure al empty r = .ok out) {o k i : ℕ}
    (he : Entry r o k i) {s : ℝ} (hs : r.ps o i = some s) (hpos : 0 < s) {j : ℕ} (hl : Lowest r s j)
    (hb : levelPressure r s j < r.levels k) (hx : r.data o j i ≠ spvl) : out o k i = some (r.data o j i) := by
  rw [below_entry hn hc ha hr he hs hpos hl hb]
  have : r.below = .other := by simp [Req.below, hex, hv, Var.below]
  rw [this]
  exact decode_of_ne hx

/-- C73. Below the lowest level, temperature follows the ECMWF formula with the lowest level's temperature and the surface geopotential. -/
theorem C73_temperature {al : Bool} {empty : ℕ → ℝ} {r : Req} {out : ℕ → ℕ → ℕ → Option ℝ} (hn : 1 ≤ r.nlevi) (hc : Columns r)
    (ha : ArgsOk r) (hex : r.extrapolate = true) (hv : r.varName = some .temperature) {phi : ℕ → ℕ → ℝ} (hphi : r.phiSfc = some phi)
    (hr : hybridToPressure al empty r = .ok out) {o k i : ℕ} (he : Entry r o k i) {s : ℝ} (hs : r.ps o i = some s) (hpos : 0 < s) {j : ℕ}
    (hl : Lowest r s j) (hb : levelPressure r s j < r.levels k)
    (hx : ecmwfTemperature (r.data o j i) (levelPressure r s j) s (phi o i) (r.levels k) ≠ spvl) :
    out o k i = some (ecmwfTemperature (r.data o j i) (levelPressure r s j) s (phi o i) (r.levels k)) := by
  rw [below_entry hn hc ha hr he hs hpos hl hb]
  have hbl : r.below = .temperature := by simp [Req.below, hex, hv, Var.below]
  have hax : r.aux r.phiSfc o i = phi o i := by rw [hphi]; simp [Req.aux, hbl]
  rw [hbl, hax]
  exact decode_of_ne hx

/-- C73. Below the lowest level, geopotential height follows the ECMWF formula with `t_bot` and `phi_sfc`. -/
theorem C73_geopotential {al : Bool} {empty : ℕ → ℝ} {r : Req} {out : ℕ → ℕ → ℕ → Option ℝ} (hn : 1 ≤ r.nlevi) (hc : Columns r)
    (ha : ArgsOk r) (hex : r.extrapolate = true) (hv : r.varName = some .geopotential) {tb phi : ℕ → ℕ → ℝ} (htb : r.tBot = some tb)
    (hphi : r.phiSfc = some phi)
    (hr : hybridToPressure al empty r = .ok out) {o k i : ℕ} (he : Entry r o k i) {s : ℝ} (hs : r.ps o i = some s) (hpos : 0 < s) {j : ℕ}
    (hl : Lowest r s j) (hb : levelPressure r s j < r.levels k)
    (hx : ecmwfHeight (tb o i) (levelPressure r s j) s (phi o i) (r.levels k) ≠ spvl) :
    out o k i = some (ecmwfHeight (tb o i) (levelPressure r s j) s (phi o i) (r.levels k)) := by
  rw [below_entry hn hc ha hr he hs hpos hl hb]
  have hbl : r.below = .geopotential := by simp [Req.below, hex, hv, Var.below]
  have hax : r.aux r.phiSfc o i = phi o i := by rw [hphi]; simp [Req.aux, hbl]
  have hat : r.aux r.tBot o i = tb o i := by rw [htb]; simp [Req.aux, hbl]
  rw [hbl, hax, hat]
  exact decode_of_ne hx

theorem surfaceTemp_pos {tb pb s : ℝ} (ht : 0 < tb) (hp : 0 < pb) (hs : 0 < s) : 0 < surfaceTemp tb pb s := by
  unfold surfaceTemp
  have : 0 < s / pb := div_pos hs hp
  apply mul_pos ht
  norm_num
  nlinarith

theorem lapseT_nonneg (ts phi : ℝ) : 0 ≤ lapseT ts phi := by
  unfold lapseT
  simp only []
  by_cases h : phi / 9.80616 < 2000
  · rw [if_pos h]; norm_num
  · rw [if_neg h]
    exact div_nonneg (le_max_right _ _) (by linarith [not_lt.1 h])

theorem exp3_mono {x y : ℝ} (h : x ≤ y) : exp3 x ≤ exp3 y := by
  unfold exp3
  have e : (1 + y + y ^ 2 / 2 + y ^ 3 / 6) - (1 + x + x ^ 2 / 2 + x ^ 3 / 6) =
      (y - x) * ((x + y + 2) ^ 2 / 8 + 1 / 2 + (x - y) ^ 2 / 24) := by ring
  have : 0 ≤ (y - x) * ((x + y + 2) ^ 2 / 8 + 1 / 2 + (x - y) ^ 2 / 24) := mul_nonneg (by linarith) (by positivity)
  linarith

theorem log_ratio_le {p q s : ℝ} (hp : 0 < p) (hs : 0 < s) (h : p ≤ q) : Real.log (p / s) ≤ Real.log (q / s) :=
  Real.log_le_log (div_pos hp hs) ((div_le_div_iff_of_pos_right hs).2 h)

/-- C73. Extrapolated temperature never decreases with pressure below the ground and equals the surface temperature at the surface
pressure. -/
theorem C73_temperature_shape {tb pb s phi : ℝ} (ht : 0 < tb) (hpb : 0 < pb) (hs : 0 < s) :
    (∀ p q, 0 < p → p ≤ q → ecmwfTemperature tb pb s phi p ≤ ecmwfTemperature tb pb s phi q) ∧
    ecmwfTemperature tb pb s phi s = surfaceTemp tb pb s := by
  constructor
  · intro p q hp hpq
    unfold ecmwfTemperature
    apply mul_le_mul_of_nonneg_left _ (le_of_lt (surfaceTemp_pos ht hpb hs))
    apply exp3_mono
    apply mul_le_mul_of_nonneg_left (log_ratio_le hp hs hpq)
    have := lapseT_nonneg (surfaceTemp tb pb s) phi
    positivity
  · unfold ecmwfTemperature exp3
    rw [div_self (ne_of_gt hs), Real.log_one]
    simp

theorem dampedTemp_pos {ts phi : ℝ} (h : 0 < ts) : 0 < dampedTemp ts phi := by
  unfold dampedTemp
  simp only []
  split
  · split <;> linarith
  · split <;> linarith

theorem cubic_strict {a x y : ℝ} (h : x < y) :
    x * (1 + a * x / 2 + (a * x) ^ 2 / 6) < y * (1 + a * y / 2 + (a * y) ^ 2 / 6) := by
  have e : y * (1 + a * y / 2 + (a * y) ^ 2 / 6) - x * (1 + a * x / 2 + (a * x) ^ 2 / 6) =
      (y - x) * ((a * (x + y) + 2) ^ 2 / 8 + 1 / 2 + (a * (x - y)) ^ 2 / 24) := by ring
  have : 0 < (y - x) * ((a * (x + y) + 2) ^ 2 / 8 + 1 / 2 + (a * (x - y)) ^ 2 / 24) := mul_pos (by linarith) (by positivity)
  linarith

/-- C73. Extrapolated geopotential height strictly decreases with pressure and equals the surface height at the surface pressure. -/
theorem C73_geopotential_shape {tb pb s phi : ℝ} (ht : 0 < tb) (hpb : 0 < pb) (hs : 0 < s) :
    (∀ p q, 0 < p → p < q → ecmwfHeight tb pb s phi q < ecmwfHeight tb pb s phi p) ∧
    ecmwfHeight tb pb s phi s = phi / 9.80616 := by
  constructor
  · intro p q hp hpq
    unfold ecmwfHeight
    simp only []
    have hl : Real.log (p / s) < Real.log (q / s) := Real.log_lt_log (div_pos hp hs) ((div_lt_div_iff_of_pos_right hs).2 hpq)
    have hd := dampedTemp_pos (phi := phi) (surfaceTemp_pos ht hpb hs)
    have hc := cubic_strict (a := lapseZ (surfaceTemp tb pb s) phi * 287.04 / 9.80616) hl
    have h2 : 0 < 287.04 / 9.80616 * dampedTemp (surfaceTemp tb pb s) phi := by positivity
    have := mul_lt_mul_of_pos_left hc h2
    rw [← mul_assoc, ← mul_assoc] at this
    linarith
  · unfold ecmwfHeight
    simp only []
    rw [div_self (ne_of_gt hs), Real.log_one]
    simp

/-- Non-vacuity: the two-level column with extrapolation of a generic variable below the ground. -/
example : ∃ out, hybridToPressure true (fun _ => 0) { topReq 3 with extrapolate := true, varName := some .other } = .ok out ∧
    out 0 1 0 = some 2 := by
  have hc : Columns { topReq 3 with extrapolate := true, varName := some .other } := topReq_columns 3
  have ha : ArgsOk { topReq 3 with extrapolate := true, varName := some .other } := ⟨fun _ => by simp, fun h => by simp at h⟩
  obtain ⟨out, e, -⟩ := run_value true (fun _ => 0) { topReq 3 with extrapolate := true, varName := some .other } (by simp [topReq]) hc ha
  refine ⟨out, e, ?_⟩
  have := C73_other (o := 0) (k := 1) (i := 0) (s := 1) (j := 2) (by simp [topReq]) hc ha rfl rfl e
    ⟨by simp [topReq], le_rfl, by simp [topReq], by simp [topReq]⟩ rfl (by norm_num)
    ⟨by norm_num, by simp [topReq], by
      intro k h1 h2
      have : (k : ℝ) ≤ 2 := by exact_mod_cast h2
      simpa [levelPressure, topReq] using this⟩
    (by simp [levelPressure, topReq]; norm_num) (by simp [topReq]; linarith [spvl_neg])
  rw [this]
  simp [topReq]

end Skyborn.Hybrid
