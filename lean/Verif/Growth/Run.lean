/-
`baroc_growth_rate` on one profile: what the kernel is given, and what comes back.
-/
import Verif.Growth.Call

namespace Skyborn.Growth

open Classical

/-! ### Solver levels -/

theorem level_inc {c : Spec.Call} (hl : 2 ≤ c.levels) {tp : ℝ} (ht : tp < c.bottom) (i : ℕ) : c.level tp i < c.level tp (i + 1) := by
  unfold Spec.Call.level
  have : (0 : ℝ) < (c.levels : ℝ) - 1 := by
    have : (2 : ℝ) ≤ c.levels := by exact_mod_cast hl
    linarith
  have h2 : ((i : ℝ) - 1) / ((c.levels : ℝ) - 1) < (((i + 1 : ℕ) : ℝ) - 1) / ((c.levels : ℝ) - 1) := by
    rw [div_lt_div_iff_of_pos_right this]
    push_cast
    linarith
  have := mul_lt_mul_of_pos_left h2 (sub_pos.mpr ht)
  linarith

theorem level_range {c : Spec.Call} (hl : 2 ≤ c.levels) {tp : ℝ} (hi : c.Inside tp) {i : ℕ} (h1 : 1 ≤ i) (h2 : i ≤ c.levels) :
    min (c.pa 1) (c.pa c.n) ≤ c.level tp i ∧ c.level tp i ≤ max (c.pa 1) (c.pa c.n) := by
  have hs : (0 : ℝ) < (c.levels : ℝ) - 1 := by
    have : (2 : ℝ) ≤ c.levels := by exact_mod_cast hl
    linarith
  have a1 : (1 : ℝ) ≤ i := by exact_mod_cast h1
  have a2 : (i : ℝ) ≤ c.levels := by exact_mod_cast h2
  have b1 : 0 ≤ ((i : ℝ) - 1) / ((c.levels : ℝ) - 1) := div_nonneg (by linarith) hs.le
  have b2 : ((i : ℝ) - 1) / ((c.levels : ℝ) - 1) ≤ 1 := (div_le_one hs).mpr (by linarith)
  have hd := sub_pos.mpr hi.2
  unfold Spec.Call.level
  constructor
  · have := mul_nonneg hd.le b1
    linarith [hi.1]
  · have := mul_le_mul_of_nonneg_left b2 hd.le
    have hb : c.bottom ≤ max (c.pa 1) (c.pa c.n) := min_le_right _ _
    linarith

theorem level_pos {c : Spec.Call} (h : c.Valid) {tp : ℝ} (hi : c.Inside tp) {i : ℕ} (h1 : 1 ≤ i) (h2 : i ≤ c.levels) : 0 < c.level tp i := by
  have hp := fun i a b => (h.pos i a b).1
  have hn := h.two
  exact lt_of_lt_of_le (lt_min (pa_pos hp le_rfl (by omega)) (pa_pos hp (by omega) le_rfl)) (level_range h.levels hi h1 h2).1

/-- Wind and temperature can be remapped. -/
theorem remapped_exists {c : Spec.Call} (h : c.Valid) {tp : ℝ} (hi : c.Inside tp) : ∃ U T, c.Remapped tp U T := by
  have hp := fun i a b => (h.pos i a b).1
  have ex : ∀ v : ℕ → ℝ, ∀ i, ∃ y, 1 ≤ i → i ≤ c.levels → Spec.Broken c.log c.n c.pa v (c.level tp i) y := by
    intro v i
    by_cases g : 1 ≤ i ∧ i ≤ c.levels
    · have r := level_range h.levels hi g.1 g.2
      obtain ⟨y, hy⟩ := broken_exists (log := c.log) h.two v (pa_strict h.strict) (fun i a b => pa_pos hp a b) r.1 r.2
      exact ⟨y, fun _ _ => hy⟩
    · exact ⟨0, fun a b => absurd ⟨a, b⟩ g⟩
  choose U hU using ex c.u
  choose T hT using ex c.t
  exact ⟨U, T, fun i h1 h2 => ⟨hU i h1 h2, hT i h1 h2⟩⟩

theorem remapped_unique {c : Spec.Call} (h : c.Valid) {tp : ℝ} {U T U' T' : ℕ → ℝ} (hr : c.Remapped tp U T) (hr' : c.Remapped tp U' T') :
    ∀ i, 1 ≤ i → i ≤ c.levels → U i = U' i ∧ T i = T' i := by
  have hp := fun i a b => (h.pos i a b).1
  intro i h1 h2
  exact ⟨broken_unique (pa_strict h.strict) (fun i a b => pa_pos hp a b) (hr i h1 h2).1 (hr' i h1 h2).1,
    broken_unique (pa_strict h.strict) (fun i a b => pa_pos hp a b) (hr i h1 h2).2 (hr' i h1 h2).2⟩

theorem listOf_get {m : ℕ} (v : ℕ → ℝ) {i : ℕ} (h1 : 1 ≤ i) (h2 : i ≤ m) : (((listOf m v)[i - 1]?).getD none).getD 0 = v i := by
  rw [listOf, List.getElem?_map, List.getElem?_range (by omega), Option.map_some, Option.getD_some, Option.getD_some, show i - 1 + 1 = i by omega]

/-- The zonal length handed to the kernel. -/
noncomputable def Spec.Call.len (c : Call) : ℝ := zonalLength c.setting c.spot

theorem len_pos {c : Spec.Call} (h : c.waves.Ok c.place.cos) : c.modeId = 1 ∨ (c.modeId = 2 ∧ 0 < c.len) := by
  unfold Spec.Call.len zonalLength Spec.Call.setting Spec.Call.modeId Spec.Call.span Spec.Call.spot
  cases hw : c.waves with
  | high => exact Or.inl rfl
  | low m v =>
    rw [hw] at h
    obtain ⟨hm, hs, hc⟩ := h
    refine Or.inr ⟨rfl, ?_⟩
    dsimp only
    rw [if_pos rfl]
    have := abs_pos.mpr (sub_ne_zero.mpr (strict_ends (by omega) hs))
    have := Real.pi_pos
    positivity
  | lowDefault =>
    rw [hw] at h
    have hc : 0 < c.place.cos := h
    refine Or.inr ⟨rfl, ?_⟩
    dsimp only
    rw [if_pos rfl]
    have := Real.pi_pos
    positivity

theorem factor_eq {c : Spec.Call} (h : c.waves.Ok c.place.cos) : waveFactor c.modeId c.len = c.waves.step c.place.cos := by
  unfold waveFactor Spec.Call.len zonalLength Spec.Call.setting Spec.Call.modeId Spec.Call.span Spec.Call.spot
  cases hw : c.waves with
  | high =>
    simp only [if_true, Spec.Waves.step, wavenumberStep]
    norm_num
  | low m v =>
    dsimp only [Spec.Waves.step]
    rw [if_neg (by omega), if_pos rfl]
  | lowDefault =>
    dsimp only [Spec.Waves.step]
    rw [if_neg (by omega), if_pos rfl]

theorem count_two {c : Spec.Call} (h : c.waves.Ok c.place.cos) : 2 ≤ c.waves.count := by
  cases hw : c.waves with
  | high => simp [Spec.Waves.count]
  | low m v =>
    rw [hw] at h
    have := h.1
    simp only [Spec.Waves.count]
    omega
  | lowDefault => simp [Spec.Waves.count]

theorem level_eq (c : Spec.Call) (tp : ℝ) (i : ℕ) : levelAt tp c.bottom c.levels i = c.level tp (i + 1) := by
  unfold levelAt Spec.Call.level
  push_cast
  rw [add_sub_cancel_right]

theorem solveOne_eq {c : Spec.Call} (h : c.Valid) {tp : ℝ} (hi : c.Inside tp) {U T : ℕ → ℝ} (hr : c.Remapped tp U T) (qz : Solver) :
    solveOne qz c.setting (fun i => some (c.u (i + 1))) (fun i => some (c.t (i + 1))) (some tp) (.ok (some c.spot)) =
      (dbaroc qz c.levels U (c.theta tp T) (c.level tp) T c.place.f c.place.beta c.window c.modeId c.waves.count c.len).raise := by
  have hp := fun i a b => (h.pos i a b).1
  have hl : 2 ≤ c.levels := h.levels
  have hps := pa_strict h.strict
  have hpp : ∀ i, 1 ≤ i → i ≤ c.n → 0 < c.pa i := fun i a b => pa_pos hp a b
  obtain ⟨u', eu, bu⟩ := interp1d_spec (log := c.log) h.two c.u hps hpp (fun i a b => ⟨(h.small i a b).1, (h.small i a b).2.1⟩)
    (m := c.levels) (tp := c.level tp) (fun i _ _ => level_inc hl hi.2 i) fun i a b => level_range hl hi a b
  obtain ⟨t', et, bt⟩ := interp1d_spec (log := c.log) h.two c.t hps hpp (fun i a b => ⟨(h.small i a b).1, (h.small i a b).2.2⟩)
    (m := c.levels) (tp := c.level tp) (fun i _ _ => level_inc hl hi.2 i) fun i a b => level_range hl hi a b
  have hu : ∀ i, 1 ≤ i → i ≤ c.levels → u' i = U i := fun i a b => broken_unique hps hpp (bu i a b) (hr i a b).1
  have htt : ∀ i, 1 ≤ i → i ≤ c.levels → t' i = T i := fun i a b => broken_unique hps hpp (bt i a b) (hr i a b).2
  have htg : ((List.range c.setting.levels).map fun i => (some (levelAt tp c.setting.bottom c.setting.levels i) : Option ℝ)) = listOf c.levels (c.level tp) := by
    unfold listOf
    refine List.map_congr_left fun i _ => ?_
    exact congrArg some (level_eq c tp i)
  unfold solveOne
  rw [if_neg (by
    simp only [decide_eq_true_eq]
    exact not_le.mpr hi.2)]
  dsimp only
  rw [htg]
  have e1 : Interp.interpPressure1d ((List.range c.setting.np).map fun i => some (c.u (i + 1))) ((List.range c.setting.np).map c.setting.p)
      (listOf c.levels (c.level tp)) c.setting.log false none = .ok (listOf c.levels u') := eu
  have e2 : Interp.interpPressure1d ((List.range c.setting.np).map fun i => some (c.t (i + 1))) ((List.range c.setting.np).map c.setting.p)
      (listOf c.levels (c.level tp)) c.setting.log false none = .ok (listOf c.levels t') := et
  rw [e1, e2]
  dsimp only
  rw [if_neg (by simp [listOf])]
  have hlen := len_pos h.waves
  rw [if_neg (by
    rintro ⟨a, b⟩
    rcases hlen with g | g
    · have : c.modeId = 2 := a
      omega
    · exact absurd g.2 (not_lt.mpr b))]
  refine congrArg Ret.raise (dbaroc_congr qz (fun i a b => ?_) (fun i a b => ?_) (fun i a b => ?_) (fun i a b => ?_) _ _ _ _ _ _)
  · replace b : i ≤ c.levels := b
    rw [listOf_get _ a b, hu i a b]
  · replace b : i ≤ c.levels := b
    rw [listOf_get _ a b, listOf_get _ a b, htt i a b, Spec.Call.theta, referencePressure, kappa, gasConstantDry, heatCapacity]
    norm_num
  · exact listOf_get _ a b
  · exact (listOf_get _ a b).trans (htt i a b)

theorem place_eq (c : Spec.Call) : placeOf c.place.ends c.place.lat = .ok (some c.spot) := by
  unfold Spec.Call.spot
  cases c.place <;> rfl

/-- What `trop_wmo_profile` says about the profile ordered upwards. -/
def Spec.Call.Cell (c : Call) (w : Trop.Work) (cell : Trop.Cell) : Prop :=
  Trop.tropWmoProfile (if c.pa 1 > c.pa c.n then backwards c.n (array c.n c.t) else array c.n c.t)
    (if c.pa 1 > c.pa c.n then backwards c.n (array c.n c.pa) else array c.n c.pa) "Pa" 2 (-999) w = .ok cell

theorem infer_eq {c : Spec.Call} (hn : 2 ≤ c.n) {w : Trop.Work} {cell : Trop.Cell} (e : c.Cell w cell) :
    inferTropopause c.setting (fun i => some (c.t (i + 1))) w =
      if cell.success = 0 ∨ cell.ptrop ≤ 0 then .error (.runtime []) else .ok (cell.ptrop * 100) := by
  have hrev : ((c.setting.p 0).getD 0 > (c.setting.p (c.setting.np - 1)).getD 0) = (c.pa 1 > c.pa c.n) := by
    simp only [Spec.Call.setting, Option.getD_some, zero_add, show c.n - 1 + 1 = c.n by omega]
  have e' : Trop.tropWmoProfile ⟨[c.setting.np], fun idx => (if (c.setting.p 0).getD 0 > (c.setting.p (c.setting.np - 1)).getD 0 then
        flip c.setting.np (fun i => some (c.t (i + 1))) else fun i => some (c.t (i + 1))) (idx.getD 0 0)⟩
      ⟨[c.setting.np], fun idx => (if (c.setting.p 0).getD 0 > (c.setting.p (c.setting.np - 1)).getD 0 then
        flip c.setting.np c.setting.p else c.setting.p) (idx.getD 0 0)⟩ "Pa" 2 (-999) w = .ok cell := by
    rw [← e]
    simp only [hrev]
    by_cases g : c.pa 1 > c.pa c.n
    · simp only [if_pos g]
      rfl
    · simp only [if_neg g]
      rfl
  unfold inferTropopause
  simp only [e']

theorem tropOf_eq {c : Spec.Call} (hn : 2 ≤ c.n) {w : Trop.Work} {tp : ℝ} (ht : c.Tropopause w tp) :
    tropOf c.setting (fun i => some (c.t (i + 1))) (c.trop.map fun x => (⟨[], fun _ => some x⟩ : NDArr (Option ℝ))) w = .ok (some tp) := by
  unfold Spec.Call.Tropopause at ht
  cases hc : c.trop with
  | some x =>
    rw [hc] at ht
    dsimp only at ht
    rw [ht]
    rfl
  | none =>
    rw [hc] at ht
    dsimp only at ht
    obtain ⟨cell, e, hs, hpt, rfl⟩ := ht
    rw [Option.map_none]
    unfold tropOf
    dsimp only
    rw [infer_eq hn e, if_neg (by
      rintro (g | g)
      · exact hs g
      · linarith)]
    rfl

/-- A complete profile: the tropopause, then the solver. -/
theorem run_two {c : Spec.Call} (h : c.Valid) (qz : Solver) (w : Trop.Work) (s : Trop.Scratch) (o : ℕ → ℕ → ℕ → Trop.Cell) :
    c.run qz w s o = (match tropOf c.setting (fun i => some (c.t (i + 1))) (c.trop.map fun x => (⟨[], fun _ => some x⟩ : NDArr (Option ℝ))) w with
      | .error e => Except.error e
      | .ok tp => solveOne qz c.setting (fun i => some (c.u (i + 1))) (fun i => some (c.t (i + 1))) tp (.ok (some c.spot))).map .one := by
  rw [run_one h.two h.strict (fun i a b => (h.pos i a b).1) h.waves h.levels h.window]
  congr 1
  unfold oneProfile
  rw [if_neg (by
    rintro ⟨i, hi, g | g | g⟩
    · cases g
    · cases g
    · cases g), if_neg (by
    rintro ⟨i, hi, x, hx, h0⟩
    have := (h.pos (i + 1) (by omega) hi).2
    rw [Option.some.inj hx] at this
    linarith), place_eq]
  cases tropOf c.setting (fun i => some (c.t (i + 1))) (c.trop.map fun x => (⟨[], fun _ => some x⟩ : NDArr (Option ℝ))) w <;> rfl

/-- With a tropopause inside the profile the call is the kernel on the remapped profile. -/
theorem run_kernel {c : Spec.Call} (h : c.Valid) {w : Trop.Work} {tp : ℝ} (ht : c.Tropopause w tp) (hi : c.Inside tp) {U T : ℕ → ℝ}
    (hr : c.Remapped tp U T) (qz : Solver) (s : Trop.Scratch) (o : ℕ → ℕ → ℕ → Trop.Cell) :
    c.run qz w s o = ((dbaroc qz c.levels U (c.theta tp T) (c.level tp) T c.place.f c.place.beta c.window c.modeId c.waves.count c.len).raise).map .one := by
  rw [run_two h, tropOf_eq h.two ht]
  dsimp only
  rw [solveOne_eq h hi hr]

end Skyborn.Growth
