/-
`baroc_growth_rate` on one profile: from the arguments to the kernel.
-/
import Verif.Growth.Column

namespace Skyborn.Growth

open Classical

/-! ### Specification of a request -/

/-- One latitude (`lat=x`) or a band (`lat_bounds=(a, b)`). -/
inductive Spec.Where
  | at (x : ℝ)
  | band (a b : ℝ)

namespace Spec.Where

/-- Sine of the latitude, the mean of the two ends for a band. -/
noncomputable def sin : Where → ℝ
  | .at x => Real.sin (x * (Real.pi / 180))
  | .band a b => (Real.sin (a * (Real.pi / 180)) + Real.sin (b * (Real.pi / 180))) / 2

/-- Cosine of the latitude, the mean of the two ends for a band. -/
noncomputable def cos : Where → ℝ
  | .at x => Real.cos (x * (Real.pi / 180))
  | .band a b => (Real.cos (a * (Real.pi / 180)) + Real.cos (b * (Real.pi / 180))) / 2

/-- The Coriolis parameter. -/
noncomputable def f (q : Where) : ℝ := 2 * 7.292e-5 * q.sin

/-- Its gradient. -/
noncomputable def beta (q : Where) : ℝ := 2 * 7.292e-5 * q.cos / 6371000

/-- The argument `lat`. -/
def lat : Where → Option (NDArr (Option ℝ))
  | .at x => some ⟨[], fun _ => some x⟩
  | .band _ _ => none

/-- The argument `lat_bounds`. -/
def bounds : Where → Option (List ℝ)
  | .at _ => none
  | .band a b => some [a, b]

end Spec.Where

/-- `wavenumber_mode="high"`, or `"low"` with `m` longitudes, or `"low"` without longitudes. -/
inductive Spec.Waves
  | high
  | low (m : ℕ) (lon : ℕ → ℝ)
  | lowDefault

namespace Spec.Waves

/-- The argument `wavenumber_mode`. -/
def mode : Waves → String
  | .high => "high"
  | _ => "low"

/-- The argument `lon`. -/
def lon : Waves → Option (NDArr (Option ℝ))
  | .low m v => some (array m v)
  | _ => none

/-- The number of wavenumbers: 200, or the number of longitudes divided by three and rounded (241 longitudes by default). -/
def count : Waves → ℕ
  | .high => 200
  | .low m _ => (m + 1) / 3
  | .lowDefault => 80

/-- The distance of two wavenumbers at a latitude with cosine `c`: `1e-7` per metre, or that of the waves that fit into the longitudes. -/
noncomputable def step (c : ℝ) : Waves → ℝ
  | .high => 1e-7
  | .low m v => 2 * Real.pi / (|v 1 - v m| * Real.pi / 180 * 6371000 * c)
  | .lowDefault => 2 * Real.pi / (360 * Real.pi / 180 * 6371000 * c)

/-- Acceptable longitudes, and not at a pole. -/
def Ok (c : ℝ) : Waves → Prop
  | .high => True
  | .low m v => 5 ≤ m ∧ Strict m v ∧ 0 < c
  | .lowDefault => 0 < c

end Spec.Waves

/-- A request for one profile: pressures, winds, temperatures (numbered from 1), the place, the wavenumbers, the interpolation, the tropopause pressure
(if given), the number of solver levels and the smoothing window. -/
structure Spec.Call where
  n : ℕ
  p : ℕ → ℝ
  u : ℕ → ℝ
  t : ℕ → ℝ
  place : Where
  waves : Waves
  log : Bool
  trop : Option ℝ
  levels : ℕ
  window : ℕ

namespace Spec.Call

/-- The call. -/
noncomputable def run (c : Call) (qz : Solver) (w : Trop.Work) (s : Trop.Scratch) (o : ℕ → ℕ → ℕ → Trop.Cell) : Except Err Out :=
  barocGrowth qz (array c.n c.u) (array c.n c.t) (array c.n c.p) c.place.lat c.place.bounds c.waves.lon c.waves.mode (if c.log then "log" else "linear")
    (c.trop.map fun x => ⟨[], fun _ => some x⟩) (some c.levels) (some c.window) w s o

/-- The pressures in Pa: all values up to 2000 are taken as hPa. -/
noncomputable def pa (c : Call) (i : ℕ) : ℝ := if ∀ j, 1 ≤ j → j ≤ c.n → c.p j ≤ 2000 then c.p i * 100 else c.p i

/-- The bottom of the solver grid: the highest pressure, at most 1000 hPa. -/
noncomputable def bottom (c : Call) : ℝ := min 100000 (max (c.pa 1) (c.pa c.n))

/-- The solver levels: evenly spaced in pressure from the tropopause to the bottom. -/
noncomputable def level (c : Call) (tp : ℝ) (i : ℕ) : ℝ := tp + (c.bottom - tp) * (((i : ℝ) - 1) / ((c.levels : ℝ) - 1))

/-- `tp` is the tropopause pressure in Pa: the given one (taken as hPa up to 2000), or what `trop_wmo_profile` finds in the profile ordered upwards. -/
def Tropopause (c : Call) (w : Trop.Work) (tp : ℝ) : Prop :=
  match c.trop with
  | some x => tp = if x ≤ 2000 then x * 100 else x
  | none => ∃ cell, Trop.tropWmoProfile (if c.pa 1 > c.pa c.n then backwards c.n (array c.n c.t) else array c.n c.t)
      (if c.pa 1 > c.pa c.n then backwards c.n (array c.n c.pa) else array c.n c.pa) "Pa" 2 (-999) w = .ok cell ∧ cell.success ≠ 0 ∧ 0 < cell.ptrop ∧
      tp = cell.ptrop * 100

/-- What the docstring asks of the arguments. Every number is below the largest float, which `interp_pressure_1d` uses as a
marker. -/
structure Valid (c : Call) : Prop where
  two : 2 ≤ c.n
  strict : Strict c.n c.p
  pos : ∀ i, 1 ≤ i → i ≤ c.n → 0 < c.p i ∧ 0 < c.t i
  small : ∀ i, 1 ≤ i → i ≤ c.n → c.pa i < Interp.spvl ∧ c.u i < Interp.spvl ∧ c.t i < Interp.spvl
  waves : c.waves.Ok c.place.cos
  levels : 2 ≤ c.levels
  window : c.window % 2 = 1

/-- The tropopause lies inside the profile, above the bottom. -/
def Inside (c : Call) (tp : ℝ) : Prop := min (c.pa 1) (c.pa c.n) ≤ tp ∧ tp < c.bottom

/-- `U`, `T` are wind and temperature on the solver levels. -/
def Remapped (c : Call) (tp : ℝ) (U T : ℕ → ℝ) : Prop :=
  ∀ i, 1 ≤ i → i ≤ c.levels → Broken c.log c.n c.pa c.u (c.level tp i) (U i) ∧ Broken c.log c.n c.pa c.t (c.level tp i) (T i)

/-- Potential temperature on the solver levels. -/
noncomputable def theta (c : Call) (tp : ℝ) (T : ℕ → ℝ) (i : ℕ) : ℝ := T i * (100000 / c.level tp i) ^ ((287.04 : ℝ) / 1004.7)

end Spec.Call

/-! ### From the arguments to the kernel -/

namespace Spec.Call

/-- The mode number of the kernel. -/
def modeId (c : Call) : ℕ := match c.waves with
  | .high => 1
  | _ => 2

/-- The longitude span in radians. -/
noncomputable def span (c : Call) : ℝ := match c.waves with
  | .high => 1
  | .low m v => |v 1 - v m| * Real.pi / 180
  | .lowDefault => 360 * Real.pi / 180

/-- The settings. -/
noncomputable def setting (c : Call) : Setting :=
  ⟨c.n, fun i => some (c.pa (i + 1)), c.bottom, c.levels, c.window, c.log, c.modeId, c.waves.count, c.span⟩

/-- The place as the code has it. -/
noncomputable def spot (c : Call) : Place := ⟨c.place.f, c.place.beta, c.place.cos⟩

end Spec.Call

theorem methodOf_eq (log : Bool) : methodOf (if log then "log" else "linear") = .ok log := by
  cases log <;> decide

theorem mode_high : normalize ['_', '-'] "high" = "high".toList := by decide
theorem mode_low : normalize ['_', '-'] "low" = "low".toList := by decide

theorem monotone_some {n : ℕ} {v : ℕ → ℝ} (h : Spec.Strict n v) : Monotone1 n fun i => some (v (i + 1)) := by
  rcases h with h | h
  · exact Or.inl fun i hi => ⟨_, _, rfl, rfl, sub_pos.mpr (h (i + 1) (by omega) (by omega))⟩
  · exact Or.inr fun i hi => ⟨_, _, rfl, rfl, sub_neg.mpr (h (i + 1) (by omega) (by omega))⟩

theorem strict_of_monotone {n : ℕ} {v : ℕ → ℝ} (h : Monotone1 n fun i => some (v (i + 1))) : Spec.Strict n v := by
  rcases h with h | h
  · refine Or.inl fun i h1 h2 => ?_
    obtain ⟨a, b, ha, hb, hab⟩ := h (i - 1) (by omega)
    dsimp only at ha hb
    rw [show i - 1 + 1 = i by omega] at ha hb
    rw [Option.some.inj ha, Option.some.inj hb]
    linarith
  · refine Or.inr fun i h1 h2 => ?_
    obtain ⟨a, b, ha, hb, hab⟩ := h (i - 1) (by omega)
    dsimp only at ha hb
    rw [show i - 1 + 1 = i by omega] at ha hb
    rw [Option.some.inj ha, Option.some.inj hb]
    linarith

theorem strict_ends {n : ℕ} (hn : 2 ≤ n) {v : ℕ → ℝ} (h : Spec.Strict n v) : v 1 ≠ v n := by
  rcases h with h | h
  · exact (strict_lt h le_rfl (by omega) le_rfl).ne
  · exact (strict_gt h le_rfl (by omega) le_rfl).ne'

theorem waveInputs_eq (c : Spec.Call) (h : c.waves.Ok c.place.cos) :
    waveInputs c.waves.mode c.waves.lon = .ok (c.modeId, c.waves.count, c.span) := by
  unfold waveInputs Spec.Call.modeId Spec.Call.span
  cases hw : c.waves with
  | high =>
    dsimp only [Spec.Waves.mode, Spec.Waves.count]
    rw [mode_high, if_pos (Or.inl rfl)]
  | low m v =>
    rw [hw] at h
    obtain ⟨hm, hs, -⟩ := h
    dsimp only [Spec.Waves.mode, Spec.Waves.count, Spec.Waves.lon]
    rw [mode_low, if_neg (by decide), if_pos (Or.inl rfl)]
    simp only [as1d, Spec.array, List.getD_cons_zero, Except.bind, bind]
    rw [if_neg (not_not.mpr (monotone_some hs)), if_neg (by omega)]
    simp only [zero_add, show m - 1 + 1 = m by omega]
    have : 0 < |v 1 - v m| := abs_pos.mpr (sub_ne_zero.mpr (strict_ends (by omega) hs))
    rw [if_neg (not_le.mpr this), if_neg (by omega)]
  | lowDefault =>
    dsimp only [Spec.Waves.mode, Spec.Waves.count, Spec.Waves.lon]
    rw [mode_low, if_neg (by decide), if_pos (Or.inl rfl)]
    simp only [Except.bind, bind]
    have hm : Monotone1 241 fun i : ℕ => some ((i : ℝ) * 1.5) := Or.inl fun i _ => ⟨_, _, rfl, rfl, by push_cast; linarith⟩
    rw [if_neg (not_not.mpr hm), if_neg (by omega)]
    have e : |((0 : ℕ) : ℝ) * 1.5 - ((241 - 1 : ℕ) : ℝ) * 1.5| = 360 := by norm_num
    rw [e, if_neg (by norm_num), if_neg (by norm_num)]

theorem pa_pos {c : Spec.Call} (hp : ∀ i, 1 ≤ i → i ≤ c.n → 0 < c.p i) {i : ℕ} (h1 : 1 ≤ i) (h2 : i ≤ c.n) : 0 < c.pa i := by
  unfold Spec.Call.pa
  split
  · have := hp i h1 h2; linarith
  · exact hp i h1 h2

theorem pa_strict {c : Spec.Call} (hp : Spec.Strict c.n c.p) : Spec.Strict c.n c.pa := by
  unfold Spec.Call.pa
  split
  · rcases hp with h | h
    · exact Or.inl fun i h1 h2 => by have := h i h1 h2; linarith
    · exact Or.inr fun i h1 h2 => by have := h i h1 h2; linarith
  · exact hp

theorem pa_some (c : Spec.Call) (hn : 1 ≤ c.n) : pascal c.n (fun i => some (c.p (i + 1))) = fun i => some (c.pa (i + 1)) := by
  have hiff : ((∃ i, i < c.n ∧ (some (c.p (i + 1)) : Option ℝ) ≠ none) ∧ ∀ i, i < c.n → ∀ x, (some (c.p (i + 1)) : Option ℝ) = some x → x ≤ 2000) ↔
      ∀ j, 1 ≤ j → j ≤ c.n → c.p j ≤ 2000 := by
    constructor
    · rintro ⟨-, h⟩ j h1 h2
      have := h (j - 1) (by omega) _ rfl
      rwa [show j - 1 + 1 = j by omega] at this
    · intro h
      refine ⟨⟨0, by omega, by simp⟩, fun i hi x hx => ?_⟩
      rw [← Option.some.inj hx]
      exact h (i + 1) (by omega) (by omega)
  unfold Spec.Call.pa pascal
  by_cases h : ∀ j, 1 ≤ j → j ≤ c.n → c.p j ≤ 2000
  · rw [if_pos (hiff.mpr h)]
    funext i
    rw [if_pos h]
    rfl
  · rw [if_neg (fun g => h (hiff.mp g))]
    funext i
    rw [if_neg h]

theorem settings_eq {c : Spec.Call} (hn : 2 ≤ c.n) (hs : Spec.Strict c.n c.p) (hpos : ∀ i, 1 ≤ i → i ≤ c.n → 0 < c.p i) (hw : c.waves.Ok c.place.cos)
    (hl : 2 ≤ c.levels) (hwin : c.window % 2 = 1) :
    settings (Spec.array c.n c.p) c.waves.lon c.waves.mode (if c.log then "log" else "linear") (some c.levels) (some c.window) = .ok c.setting := by
  unfold settings
  simp only [as1d, Spec.array, List.getD_cons_zero, Except.bind, bind]
  rw [if_neg (by
    rintro ⟨i, hi, x, hx, h0⟩
    have := hpos (i + 1) (by omega) (by omega)
    rw [Option.some.inj hx] at this
    linarith), if_neg (by omega), pa_some c (by omega), if_neg (not_not.mpr (monotone_some (pa_strict hs)))]
  rw [show levelsOf (some (c.levels : ℤ)) = .ok c.levels by
      unfold levelsOf
      dsimp only
      rw [if_neg (by omega)]
      rfl,
    show windowOf (some (c.window : ℤ)) = .ok c.window by
      unfold windowOf
      dsimp only
      rw [if_neg (by omega), if_neg (by omega)]
      rfl, methodOf_eq, waveInputs_eq c hw]
  simp only [Option.getD_some, zero_add, show c.n - 1 + 1 = c.n by omega, referencePressure]
  unfold Spec.Call.setting Spec.Call.bottom
  norm_num

theorem coerce_array (n : ℕ) (v : ℕ → ℝ) : coerce (Spec.array n v) n = .ok (1, fun _ j => some (v (j + 1))) := by
  unfold coerce Spec.array
  dsimp only
  rw [if_neg (by simp)]
  rfl

/-- The argument `b` of the one-profile code. -/
def Spec.Where.ends : Where → Option (ℝ × ℝ)
  | .at _ => none
  | .band a b => some (a, b)

/-- The call reaches the one-profile code. -/
theorem run_one {c : Spec.Call} (hn : 2 ≤ c.n) (hs : Spec.Strict c.n c.p) (hpos : ∀ i, 1 ≤ i → i ≤ c.n → 0 < c.p i) (hw : c.waves.Ok c.place.cos)
    (hl : 2 ≤ c.levels) (hwin : c.window % 2 = 1) (qz : Solver) (w : Trop.Work) (s : Trop.Scratch) (o : ℕ → ℕ → ℕ → Trop.Cell) :
    c.run qz w s o = (oneProfile qz c.setting (fun i => some (c.u (i + 1))) (fun i => some (c.t (i + 1))) c.place.lat c.place.ends
      (c.trop.map fun x => ⟨[], fun _ => some x⟩) w).map .one := by
  have hS : c.setting.np = c.n := rfl
  unfold Spec.Call.run barocGrowth
  rw [settings_eq hn hs hpos hw hl hwin]
  cases c.place with
  | «at» x =>
    simp only [Spec.Where.bounds, boundsOf, Except.bind, bind, dispatch, hS, coerce_array, Spec.Where.lat, Spec.Where.ends]
    rfl
  | band a b =>
    simp only [Spec.Where.bounds, boundsOf, Except.bind, bind, dispatch, hS, Spec.Where.lat, Spec.Where.ends, reduceBand]
    rw [if_pos (by simp [Spec.array])]
    simp only [coerce_array]
    rfl

end Skyborn.Growth
