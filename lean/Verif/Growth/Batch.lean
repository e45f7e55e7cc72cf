/-
Several profiles in one call against one call per profile (core.py:927-1111).
-/
import Verif.Growth.BarocSym

namespace Skyborn.Growth

open Classical

/-- A table of `m` rows and `n` columns (numbered from 1) as an array. -/
def Spec.matrix (m n : ℕ) (v : ℕ → ℕ → Option ℝ) : NDArr (Option ℝ) := ⟨[m, n], fun idx => v (idx.getD 0 0 + 1) (idx.getD 1 0 + 1)⟩

/-- A list of `m` values (numbered from 1) as an array. -/
def Spec.vector (m : ℕ) (v : ℕ → Option ℝ) : NDArr (Option ℝ) := ⟨[m], fun idx => v (idx.getD 0 0 + 1)⟩

/-- A request for `m` profiles on the same `n` pressure levels; every profile has its own wind, temperature, tropopause pressure and latitude (unless there
is a common latitude band); values may be missing. -/
structure Spec.Batch where
  m : ℕ
  n : ℕ
  p : ℕ → ℝ
  u : ℕ → ℕ → Option ℝ
  t : ℕ → ℕ → Option ℝ
  lat : ℕ → Option ℝ
  band : Option (ℝ × ℝ)
  waves : Waves
  log : Bool
  trop : ℕ → Option ℝ
  levels : ℕ
  window : ℕ

namespace Spec.Batch

/-- The call. -/
noncomputable def run (b : Batch) (qz : Solver) (w : Trop.Work) (s : Trop.Scratch) (o : ℕ → ℕ → ℕ → Trop.Cell) : Except Err Out :=
  barocGrowth qz (matrix b.m b.n b.u) (matrix b.m b.n b.t) (array b.n b.p) (if b.band.isSome then none else some (vector b.m b.lat))
    (b.band.map fun q => [q.1, q.2]) b.waves.lon b.waves.mode (if b.log then "log" else "linear") (some (vector b.m b.trop)) (some b.levels) (some b.window) w s o

/-- Nothing is missing in profile `i`. -/
def Complete (b : Batch) (i : ℕ) : Prop :=
  (∀ j, 1 ≤ j → j ≤ b.n → b.u i j ≠ none ∧ b.t i j ≠ none) ∧ (b.band = none → b.lat i ≠ none) ∧ b.trop i ≠ none

/-- The request for profile `i` alone. -/
def call (b : Batch) (i : ℕ) : Call where
  n := b.n
  p := b.p
  u := fun j => (b.u i j).getD 0
  t := fun j => (b.t i j).getD 0
  place := match b.band with
    | some q => .band q.1 q.2
    | none => .at ((b.lat i).getD 0)
  waves := b.waves
  log := b.log
  trop := b.trop i
  levels := b.levels
  window := b.window

/-- What the docstring asks of the arguments; the tropopause pressures are all in hPa or all in Pa, positive and above the bottom; the axes of the arrays
can be told apart. -/
structure Valid (b : Batch) : Prop where
  axes : b.m ≠ b.n
  some_row : 1 ≤ b.m
  two : 2 ≤ b.n
  strict : Strict b.n b.p
  pos : ∀ i, 1 ≤ i → i ≤ b.n → 0 < b.p i
  lons : b.waves.Ok 1
  levels : 2 ≤ b.levels
  window : b.window % 2 = 1
  rows : ∀ i, 1 ≤ i → i ≤ b.m → b.Complete i → (b.call i).Valid
  units : (∀ i x, 1 ≤ i → i ≤ b.m → b.trop i = some x → x ≤ 2000) ∨ ∀ i x, 1 ≤ i → i ≤ b.m → b.trop i = some x → 2000 < x
  above : ∀ i x, 1 ≤ i → i ≤ b.m → b.Complete i → b.trop i = some x → 0 < x ∧ (if x ≤ 2000 then x * 100 else x) < (b.call i).bottom

end Spec.Batch

/-! ### One profile of the batch -/

theorem doLoopM_first {σ : Type} (k : ℕ) (s : σ) (f : ℕ → σ → Option σ) (h : f 1 s = none) : doLoopM 1 (k + 1) s f = none := by
  unfold doLoopM
  rw [show k + 1 + 1 - 1 = k + 1 by omega, List.range'_succ, List.foldlM_cons, h]
  rfl

theorem run_outside {c : Spec.Call} (h : c.Valid) {w : Trop.Work} {tp : ℝ} (ht : c.Tropopause w tp) (h0 : 0 < tp)
    (hb : tp < c.bottom) (ho : tp < min (c.pa 1) (c.pa c.n)) (qz : Solver) (s : Trop.Scratch) (o : ℕ → ℕ → ℕ → Trop.Cell) :
    c.run qz w s o = .ok (.one none) := by
  have hp := fun i a b => (h.pos i a b).1
  have hl : 2 ≤ c.levels := h.levels
  have hn := h.two
  have hps := pa_strict h.strict
  have hpp : ∀ i, 1 ≤ i → i ≤ c.n → 0 < c.pa i := fun i a b => pa_pos hp a b
  rw [run_two h, tropOf_eq h.two ht]
  have hlev : ∀ i, 1 ≤ i → 0 < c.level tp i := by
    intro i h1
    have : c.level tp 1 ≤ c.level tp i := by
      rcases Nat.lt_or_ge 1 i with g | g
      · exact (strict_lt (fun k _ _ => level_inc hl hb k) le_rfl g le_rfl).le
      · rw [show i = 1 by omega]
    have e : c.level tp 1 = tp := by
      unfold Spec.Call.level
      simp
    linarith
  -- the interpolation of one of the two variables
  have key : ∀ v : ℕ → ℝ, (∀ i, 1 ≤ i → i ≤ c.n → v i < Interp.spvl) → ∃ out, Interp.interpPressure1d ((List.range c.setting.np).map fun i => some (v (i + 1)))
      ((List.range c.setting.np).map c.setting.p) ((List.range c.setting.levels).map fun i => (some (levelAt tp c.setting.bottom c.setting.levels i) : Option ℝ))
      c.setting.log false none = .ok out ∧ none ∈ out := by
    intro v hv
    have htg : ((List.range c.setting.levels).map fun i => (some (levelAt tp c.setting.bottom c.setting.levels i) : Option ℝ)) = listOf c.levels (c.level tp) := by
      unfold listOf
      refine List.map_congr_left fun i _ => ?_
      exact congrArg some (level_eq c tp i)
    rw [htg]
    show ∃ out, Interp.interpPressure1d (listOf c.n v) (listOf c.n c.pa) (listOf c.levels (c.level tp)) c.log false none = .ok out ∧ none ∈ out
    obtain ⟨hg, hdir⟩ := interp1d_good (log := c.log) hn v hps hpp (fun i a b => ⟨(h.small i a b).1, hv i a b⟩)
      (m := c.levels) (tp := c.level tp) (fun i _ _ => level_inc hl hb i) fun i a b => hlev i a
    obtain ⟨out, e, hlen, -, hv⟩ := Interp.C66_interpolation (extrapolate := false) hg hdir
    refine ⟨out, e, ?_⟩
    have := (hv 0 tp (by
      rw [listOf, List.getElem?_map, List.getElem?_range (by omega), Option.map_some]
      congr 2
      unfold Spec.Call.level
      simp) (by simp)).2.2 rfl (Or.inr (by
        rw [levels_listOf]
        intro q hq
        obtain ⟨i, hi, rfl⟩ := List.mem_map.mp hq
        have := List.mem_range.mp hi
        have a := lt_min_iff.mp ho
        dsimp only
        rcases hps with g | g
        · exact a.1.trans_le (strict_le g le_rfl (by omega) (by omega))
        · rcases Nat.lt_or_ge (i + 1) c.n with k | k
          · exact a.2.trans (strict_gt g (by omega) k le_rfl)
          · rw [show i + 1 = c.n by omega]
            exact a.2))
    exact List.mem_of_getElem? this
  simp only [solveOne]
  rw [if_neg (by
    simp only [decide_eq_true_eq]
    exact not_le.mpr hb)]
  obtain ⟨us, eu, hu⟩ := key c.u fun i a b => (h.small i a b).2.1
  obtain ⟨ts, et, -⟩ := key c.t fun i a b => (h.small i a b).2.2
  rw [eu, et]
  dsimp only
  rw [if_pos (Or.inl hu)]
  rfl

theorem dbaroc_ne (qz : Solver) (n : ℕ) (u theta p t : ℕ → ℝ) (f beta : ℝ) (window mode count : ℕ) (len : ℝ) :
    dbaroc qz n u theta p t f beta window mode count len ≠ .ier 100 := by
  have hr : ∀ g, Ret.of (finalizeBaroc count g window) ≠ .ier 100 := by
    intro g
    unfold finalizeBaroc
    dsimp only
    split
    · simp [Ret.of]
    · split <;> simp [Ret.of]
  unfold dbaroc
  split
  · simp
  split
  · simp
  split
  · simp
  split
  · simp
  split
  · simp
  dsimp only
  split
  · simp
  · exact hr _

theorem row_inside {c : Spec.Call} (h : c.Valid) {tp : ℝ} (hi : c.Inside tp) {U T : ℕ → ℝ} (hr : c.Remapped tp U T) (qz : Solver) {u t : ℕ → Option ℝ}
    (hu : ∀ j, j < c.n → u j = some (c.u (j + 1))) (htt : ∀ j, j < c.n → t j = some (c.t (j + 1))) :
    runRow qz c.setting u t (some tp) (some c.spot) =
      dbaroc qz c.levels U (c.theta tp T) (c.level tp) T c.place.f c.place.beta c.window c.modeId c.waves.count c.len := by
  have hp := fun i a b => (h.pos i a b).1
  have hl : 2 ≤ c.levels := h.levels
  have hps := pa_strict h.strict
  have hpp : ∀ i, 1 ≤ i → i ≤ c.n → 0 < c.pa i := fun i a b => pa_pos hp a b
  have hn := h.two
  have hsp : ∀ i, 1 ≤ i → i ≤ c.n → arg c.setting.p i = c.pa i := fun i a b => by
    simp only [arg, Spec.Call.setting, show i - 1 + 1 = i by omega, Option.getD_some]
  have hlev : (fun k : ℕ => levelAt tp c.setting.bottom c.setting.levels (k - 1)) = fun k => c.level tp (k - 1 + 1) := by
    funext k
    exact level_eq c tp (k - 1)
  have hlev' : ∀ k : ℕ, 1 ≤ k → levelAt tp c.setting.bottom c.setting.levels (k - 1) = c.level tp k := fun k hk => by
    have := level_eq c tp (k - 1)
    rw [show k - 1 + 1 = k by omega] at this
    exact this
  have hs' : Spec.Strict c.n (arg c.setting.p) := by
    rcases hps with g | g
    · exact Or.inl fun i a b => by rw [hsp i a (by omega), hsp (i + 1) (by omega) b]; exact g i a b
    · exact Or.inr fun i a b => by rw [hsp i a (by omega), hsp (i + 1) (by omega) b]; exact g i a b
  have key : ∀ v : ℕ → Option ℝ, ∃ out, interpNoExtrap c.n (arg c.setting.p) (arg v) c.levels (fun k => c.level tp (k - 1 + 1)) (if c.log then 2 else 1) = some out ∧
      ∀ i, 1 ≤ i → i ≤ c.levels → Spec.Broken c.log c.n (arg c.setting.p) (arg v) (c.level tp (i - 1 + 1)) (out i) := fun v =>
    interpNoExtrap_spec (log := c.log) hn (arg v) hs' (fun i a b => by rw [hsp i a b]; exact hpp i a b)
      (fun i a b => by
        rw [show i - 1 + 1 = i by omega, show i + 1 - 1 + 1 = i + 1 by omega]
        exact level_inc hl hi.2 i)
      fun i a b => by
        rw [show i - 1 + 1 = i by omega, hsp 1 le_rfl (by omega), hsp c.n (by omega) le_rfl]
        exact level_range hl hi a b
  obtain ⟨u', eu, bu⟩ := key u
  obtain ⟨t', et, bt⟩ := key t
  have hU : ∀ i, 1 ≤ i → i ≤ c.levels → u' i = U i := fun i a b => by
    have := broken_congr (fun k k1 k2 => (hsp k k1 k2).symm) (fun k k1 k2 => show c.u k = arg u k by
      rw [arg, hu (k - 1) (by omega), show k - 1 + 1 = k by omega, Option.getD_some]) (bu i a b)
    rw [show i - 1 + 1 = i by omega] at this
    exact broken_unique hps hpp this (hr i a b).1
  have hT : ∀ i, 1 ≤ i → i ≤ c.levels → t' i = T i := fun i a b => by
    have := broken_congr (fun k k1 k2 => (hsp k k1 k2).symm) (fun k k1 k2 => show c.t k = arg t k by
      rw [arg, htt (k - 1) (by omega), show k - 1 + 1 = k by omega, Option.getD_some]) (bt i a b)
    rw [show i - 1 + 1 = i by omega] at this
    exact broken_unique hps hpp this (hr i a b).2
  unfold runRow profileGrowth
  dsimp only
  rw [hlev]
  have eu' : interpNoExtrap c.setting.np (arg c.setting.p) (arg u) c.setting.levels (fun k => c.level tp (k - 1 + 1)) (if c.setting.log then 2 else 1) = some u' := eu
  have et' : interpNoExtrap c.setting.np (arg c.setting.p) (arg t) c.setting.levels (fun k => c.level tp (k - 1 + 1)) (if c.setting.log then 2 else 1) = some t' := et
  rw [eu', et']
  dsimp only
  refine dbaroc_congr qz (fun i a b => hU i a b) (fun i a b => ?_) (fun i a b => ?_) (fun i a b => hT i a b) _ _ _ _ _ _
  · replace b : i ≤ c.levels := b
    rw [hT i a b, hlev' i a, Spec.Call.theta, referencePressure, kappa, gasConstantDry, heatCapacity]
    norm_num
  · rw [show i - 1 + 1 = i by omega]

theorem row_outside {c : Spec.Call} (h : c.Valid) {tp : ℝ} (ho : tp < min (c.pa 1) (c.pa c.n)) (qz : Solver) (u t : ℕ → Option ℝ) :
    runRow qz c.setting u t (some tp) (some c.spot) = .ier 100 := by
  have hl : 2 ≤ c.levels := h.levels
  have hn := h.two
  have a := lt_min_iff.mp ho
  have e1 : arg c.setting.p 1 = c.pa 1 := rfl
  have en : arg c.setting.p c.n = c.pa c.n := by
    simp only [arg, Spec.Call.setting, show c.n - 1 + 1 = c.n by omega, Option.getD_some]
  unfold runRow profileGrowth
  dsimp only
  have : interpNoExtrap c.setting.np (arg c.setting.p) (arg u) c.setting.levels (fun k => levelAt tp c.setting.bottom c.setting.levels (k - 1))
      (if c.setting.log then 2 else 1) = none := by
    show interpNoExtrap c.n (arg c.setting.p) (arg u) c.levels (fun k => levelAt tp c.bottom c.levels (k - 1)) (if c.log then 2 else 1) = none
    unfold interpNoExtrap
    rw [if_neg (by omega)]
    dsimp only
    obtain ⟨k, hk⟩ := Nat.exists_eq_add_of_le' (show 1 ≤ c.levels by omega)
    have hlev : levelAt tp c.bottom c.levels (1 - 1) = tp := by
      unfold levelAt
      simp
    have hp : levelAt tp c.bottom c.levels (1 - 1) < (if arg c.setting.p 1 > arg c.setting.p c.n then fun i => arg c.setting.p (c.n - i + 1) else arg c.setting.p) 1 := by
      rw [hlev]
      split
      · show tp < arg c.setting.p (c.n - 1 + 1)
        rw [show c.n - 1 + 1 = c.n by omega, en]
        exact a.2
      · rw [e1]
        exact a.1
    generalize (if arg c.setting.p 1 > arg c.setting.p c.n then fun i => arg c.setting.p (c.n - i + 1) else arg c.setting.p) = P at hp ⊢
    generalize (if arg c.setting.p 1 > arg c.setting.p c.n then fun i => arg u (c.n - i + 1) else arg u) = V
    generalize (if c.log then 2 else 1) = kind
    split
    · rfl
    split
    · rfl
    split
    · rfl
    rw [Option.map_eq_none_iff, hk]
    rw [hk] at hp
    exact doLoopM_first k _ _ (if_pos (Or.inl hp))
  rw [this]

/-- One profile of the batch against the call for it alone. -/
theorem row_single {c : Spec.Call} (h : c.Valid) {w : Trop.Work} {tp : ℝ} (ht : c.Tropopause w tp) (h0 : 0 < tp)
    (hb : tp < c.bottom) (qz : Solver) (s : Trop.Scratch) (o : ℕ → ℕ → ℕ → Trop.Cell) {u t : ℕ → Option ℝ}
    (hu : ∀ j, j < c.n → u j = some (c.u (j + 1))) (htt : ∀ j, j < c.n → t j = some (c.t (j + 1))) :
    c.run qz w s o = match runRow qz c.setting u t (some tp) (some c.spot) with
      | .value v => .ok (.one (some v))
      | .divZero => .error .divZero
      | .ier k => if k = 100 then .ok (.one none) else .error (.runtime [k]) := by
  by_cases hi : min (c.pa 1) (c.pa c.n) ≤ tp
  · obtain ⟨U, T, hr⟩ := remapped_exists h ⟨hi, hb⟩
    rw [row_inside h ⟨hi, hb⟩ hr qz hu htt, run_kernel h ht ⟨hi, hb⟩ hr]
    have := dbaroc_ne qz c.levels U (c.theta tp T) (c.level tp) T c.place.f c.place.beta c.window c.modeId c.waves.count c.len
    generalize dbaroc qz c.levels U (c.theta tp T) (c.level tp) T c.place.f c.place.beta c.window c.modeId c.waves.count c.len = r at this ⊢
    cases r with
    | value v => rfl
    | divZero => rfl
    | ier k =>
      dsimp only
      rw [if_neg (fun e => this (by rw [e]))]
      rfl
  · push Not at hi
    rw [row_outside h hi, run_outside h ht h0 hb hi]
    rfl

/-! ### The batch -/

namespace Spec.Batch

/-- The place of profile `i`. -/
noncomputable def spot (b : Batch) (i : ℕ) : Option Place := match b.band with
  | some q => some (Place.band q.1 q.2)
  | none => (b.lat i).map Place.lat

/-- The tropopause pressure of profile `i` in Pa. -/
noncomputable def tp (b : Batch) (i : ℕ) : Option ℝ := (b.trop i).map fun x => if x ≤ 2000 then x * 100 else x

end Spec.Batch

theorem batch_tropPa {b : Spec.Batch} (h : b.Valid) {i : ℕ} (hi : i < b.m) : tropPa b.m (fun i => b.trop (i + 1)) i = b.tp (i + 1) := by
  unfold tropPa Spec.Batch.tp
  by_cases g : ∃ i, i < b.m ∧ b.trop (i + 1) ≠ none
  · rcases h.units with hu | hu
    · rw [if_pos ⟨g, fun i hi x hx => hu (i + 1) x (by omega) (by omega) hx⟩]
      beta_reduce
      cases hx : b.trop (i + 1) with
      | none => rfl
      | some x => rw [Option.map_some, Option.map_some, if_pos (hu (i + 1) x (by omega) (by omega) hx)]
    · rw [if_neg]
      · cases hx : b.trop (i + 1) with
        | none => rfl
        | some x => rw [Option.map_some, if_neg (not_le.mpr (hu (i + 1) x (by omega) (by omega) hx))]
      · rintro ⟨-, hle⟩
        obtain ⟨k, hk, g⟩ := g
        obtain ⟨y, hy⟩ := Option.ne_none_iff_exists'.mp g
        exact absurd (hle k hk y hy) (not_le.mpr (hu (k + 1) y (by omega) (by omega) hy))
  · have : b.trop (i + 1) = none := by
      by_contra hc
      exact g ⟨i, hi, hc⟩
    rw [if_neg (fun k => g k.1), this]
    rfl

/-- The setting does not depend on the profile. -/
theorem batch_setting (b : Spec.Batch) (i k : ℕ) : (b.call i).setting = (b.call k).setting := rfl

theorem batch_reaches {b : Spec.Batch} (h : b.Valid) (qz : Solver) (w : Trop.Work) (s : Trop.Scratch) (o : ℕ → ℕ → ℕ → Trop.Cell) :
    b.run qz w s o = (batchRun qz (b.call 0).setting b.m (fun i j => b.u (i + 1) (j + 1)) (fun i j => b.t (i + 1) (j + 1)) (fun i => b.spot (i + 1))
      (some (tropPa b.m fun i => b.trop (i + 1))) s o).map fun r => .many r.1 r.2 := by
  have hS : settings (Spec.array b.n b.p) b.waves.lon b.waves.mode (if b.log then "log" else "linear") (some b.levels) (some b.window) =
      .ok (b.call 0).setting := by
    have := settings_eq (c := { b.call 0 with place := .at 0 }) h.two h.strict h.pos (by
      have : (Spec.Where.at 0).cos = 1 := by simp [Spec.Where.cos]
      dsimp only
      rw [this]
      exact h.lons) h.levels h.window
    exact this
  have hco : ∀ v, coerce (Spec.matrix b.m b.n v) b.n = .ok (b.m, fun i j => v (i + 1) (j + 1)) := by
    intro v
    have hax : axesOf [b.m, b.n] b.n = [1] := by
      have := h.axes
      unfold axesOf
      simp [List.range_succ, List.filter_cons, this]
    unfold coerce Spec.matrix
    dsimp only
    rw [hax]
    rfl
  have hnp : (b.call 0).setting.np = b.n := rfl
  have hmany : ∀ l, (∀ q, b.band = some q → l = none) → (b.band = none → l = some (Spec.vector b.m b.lat)) →
      manyProfiles qz (b.call 0).setting (b.m, fun i j => b.u (i + 1) (j + 1)) (b.m, fun i j => b.t (i + 1) (j + 1)) l b.band
      (some (Spec.vector b.m b.trop)) s o = batchRun qz (b.call 0).setting b.m (fun i j => b.u (i + 1) (j + 1)) (fun i j => b.t (i + 1) (j + 1))
        (fun i => b.spot (i + 1)) (some (tropPa b.m fun i => b.trop (i + 1))) s o := by
    intro l hl1 hl2
    unfold manyProfiles broadcast
    dsimp only
    rw [max_self, if_pos rfl, if_pos rfl]
    have hv : ∀ v, profileVector (Spec.vector b.m v) b.m = .ok fun i => v (i + 1) := by
      intro v
      unfold profileVector Spec.vector
      dsimp only
      rw [if_pos rfl]
      rfl
    have hpl : placesOf b.m b.band l = .ok fun i => b.spot (i + 1) := by
      unfold placesOf Spec.Batch.spot
      cases hb : b.band with
      | some q => rfl
      | none =>
        rw [hl2 hb]
        dsimp only
        rw [hv]
        rfl
    have htr : tropsOf b.m (some (Spec.vector b.m b.trop)) = .ok (some (tropPa b.m fun i => b.trop (i + 1))) := by
      unfold tropsOf
      dsimp only
      rw [hv]
      rfl
    rw [hpl, htr]
    rfl
  have hlen : ∀ v, (Spec.matrix b.m b.n v).shape.length = 2 := fun _ => rfl
  unfold Spec.Batch.run barocGrowth
  rw [hS]
  cases hb : b.band with
  | none =>
    simp only [Option.map_none, boundsOf, Except.bind, bind, Option.isSome_none, Bool.false_eq_true, if_false, dispatch, hnp, hco, hlen, Option.isNone_some]
    have := hmany (some (Spec.vector b.m b.lat)) (fun q hq => by rw [hb] at hq; cases hq) fun _ => rfl
    rw [hb] at this
    rw [this]
    simp
  | some q =>
    simp only [Option.map_some, boundsOf, Except.bind, bind, Option.isSome_some, if_true, reduceBand, hlen]
    rw [if_pos (by norm_num)]
    simp only [dispatch, hnp, hco, hlen, Option.isNone_none, Option.isSome_some, Option.isNone_some, Option.isSome_none]
    have := hmany none (fun q hq => rfl) fun g => by rw [hb] at g; cases g
    rw [hb] at this
    simp only [Prod.mk.eta, Except.bind, bind]
    rw [this]
    simp

theorem spot_complete {b : Spec.Batch} {i : ℕ} (hc : b.Complete i) : b.spot i = some (b.call i).spot := by
  unfold Spec.Batch.spot Spec.Batch.call Spec.Call.spot
  cases hb : b.band with
  | some q => rfl
  | none =>
    obtain ⟨x, hx⟩ := Option.ne_none_iff_exists'.mp (hc.2.1 hb)
    rw [hx]
    rfl

theorem valid_iff {b : Spec.Batch} (h : b.Valid) {i : ℕ} (hi : i < b.m) :
    validRow (b.call 0).setting (fun i j => b.u (i + 1) (j + 1)) (fun i j => b.t (i + 1) (j + 1)) (fun i => b.spot (i + 1))
      (some (tropPa b.m fun i => b.trop (i + 1))) i ↔ b.Complete (i + 1) := by
  have hnp : (b.call 0).setting.np = b.n := rfl
  have h1 : (∀ j, j < b.n → b.u (i + 1) (j + 1) ≠ none ∧ b.t (i + 1) (j + 1) ≠ none) ↔
      ∀ j, 1 ≤ j → j ≤ b.n → b.u (i + 1) j ≠ none ∧ b.t (i + 1) j ≠ none := by
    constructor
    · intro g j a c
      have := g (j - 1) (by omega)
      rwa [show j - 1 + 1 = j by omega] at this
    · intro g j a
      exact g (j + 1) (by omega) (by omega)
  have h2 : b.spot (i + 1) ≠ none ↔ (b.band = none → b.lat (i + 1) ≠ none) := by
    unfold Spec.Batch.spot
    cases b.band with
    | some q => simp
    | none => simp
  have h3 : tropPa b.m (fun i => b.trop (i + 1)) i ≠ none ↔ b.trop (i + 1) ≠ none := by
    rw [batch_tropPa h hi, Spec.Batch.tp, ne_eq, Option.map_eq_none_iff]
  unfold validRow Spec.Batch.Complete
  rw [hnp]
  simp only [Option.some.injEq, forall_eq']
  rw [h1, h2, h3, and_assoc]

/-- The batch solves the complete profiles. -/
theorem batch_solves {b : Spec.Batch} (h : b.Valid) (qz : Solver) (w : Trop.Work) (s : Trop.Scratch) (o : ℕ → ℕ → ℕ → Trop.Cell) :
    ∃ (rows : List ℕ) (run : ℕ → Ret), (∀ i, i ∈ rows ↔ i < b.m ∧ b.Complete (i + 1)) ∧
      (∀ i ∈ rows, (b.call (i + 1)).run qz w s o = match run i with
        | .value v => .ok (.one (some v))
        | .divZero => .error .divZero
        | .ier k => if k = 100 then .ok (.one none) else .error (.runtime [k])) ∧
      b.run qz w s o = if rows = [] then .ok (.many b.m fun _ => none)
        else if ∃ i ∈ rows, run i = .divZero then .error .divZero
        else if rows.filterMap (fun i => (run i).failure) ≠ [] then .error (.runtime (rows.filterMap fun i => (run i).failure))
        else .ok (.many b.m fun i => if i ∈ rows then (run i).number else none) := by
  set S := (b.call 0).setting with hS
  set U : ℕ → ℕ → Option ℝ := fun i j => b.u (i + 1) (j + 1) with hU
  set T : ℕ → ℕ → Option ℝ := fun i j => b.t (i + 1) (j + 1) with hT
  set V := tropPa b.m fun i => b.trop (i + 1) with hV
  have hval : ∀ i, i < b.m → (validRow S U T (fun i => b.spot (i + 1)) (some V) i ↔ b.Complete (i + 1)) := fun i hi => valid_iff h hi
  have hVi : ∀ i, i < b.m → V i = b.tp (i + 1) := fun i hi => batch_tropPa h hi
  have hrow : ∀ i, i < b.m → b.Complete (i + 1) → ∃ x, b.trop (i + 1) = some x ∧ V i = some (if x ≤ 2000 then x * 100 else x) ∧ 0 < x ∧
      (if x ≤ 2000 then x * 100 else x) < S.bottom := by
    intro i hi hc
    obtain ⟨x, hx⟩ := Option.ne_none_iff_exists'.mp hc.2.2
    obtain ⟨a, c⟩ := h.above (i + 1) x (by omega) (by omega) hc hx
    exact ⟨x, hx, by rw [hVi i hi, Spec.Batch.tp, hx]; rfl, a, c⟩
  have hun : ∀ i, b.Complete i → ∀ j, j < b.n → b.u i (j + 1) = some ((b.call i).u (j + 1)) ∧ b.t i (j + 1) = some ((b.call i).t (j + 1)) := by
    intro i hc j hj
    obtain ⟨a, c⟩ := hc.1 (j + 1) (by omega) (by omega)
    obtain ⟨x, hx⟩ := Option.ne_none_iff_exists'.mp a
    obtain ⟨y, hy⟩ := Option.ne_none_iff_exists'.mp c
    simp only [Spec.Batch.call, hx, hy, Option.getD_some, and_self]
  refine ⟨(((List.range b.m).filter fun i => decide (validRow S U T (fun i => b.spot (i + 1)) (some V) i)).filter fun i => decide (V i ≠ none)),
    fun i => runRow qz S (U i) (T i) (V i) (b.spot (i + 1)), ?_, ?_, ?_⟩
  · intro i
    simp only [List.mem_filter, List.mem_range, decide_eq_true_eq]
    constructor
    · rintro ⟨⟨a, c⟩, -⟩
      exact ⟨a, (hval i a).mp c⟩
    · rintro ⟨a, c⟩
      refine ⟨⟨a, (hval i a).mpr c⟩, ?_⟩
      obtain ⟨x, -, hx, -⟩ := hrow i a c
      rw [hx]
      simp
  · intro i hi
    simp only [List.mem_filter, List.mem_range, decide_eq_true_eq] at hi
    obtain ⟨⟨a, c⟩, -⟩ := hi
    replace c := (hval i a).mp c
    obtain ⟨x, hx, hv, h0, hb⟩ := hrow i a c
    beta_reduce
    rw [hv, spot_complete c]
    exact row_single (h.rows (i + 1) (by omega) (by omega) c) (show (b.call (i + 1)).Tropopause w _ by
      unfold Spec.Call.Tropopause
      rw [show (b.call (i + 1)).trop = some x from hx]) (by split <;> linarith) hb qz s o
      (fun j hj => (hun _ c j hj).1) fun j hj => (hun _ c j hj).2
  · rw [batch_reaches h]
    have e1 : ¬ ∃ i, i < b.m ∧ validRow S U T (fun i => b.spot (i + 1)) (some V) i ∧ ∃ v x, some V = some v ∧ v i = some x ∧ (x ≤ 0 ∨ x ≥ S.bottom) := by
      rintro ⟨i, hi, hv, v, x, e, hx, g⟩
      cases e
      obtain ⟨y, -, hy, h0, hb⟩ := hrow i hi ((hval i hi).mp hv)
      rw [hy] at hx
      cases hx
      rcases g with g | g
      · split at g <;> linarith
      · exact absurd hb (not_lt.mpr g)
    have e2 : ¬ ∃ i, i < b.m ∧ validRow S U T (fun i => b.spot (i + 1)) (some V) i ∧ ∃ j, j < S.np ∧ ∃ x, T i j = some x ∧ x ≤ 0 := by
      rintro ⟨i, hi, hv, j, hj, x, hx, g⟩
      replace hv := (hval i hi).mp hv
      have := ((h.rows (i + 1) (by omega) (by omega) hv).pos (j + 1) (by omega) hj).2
      have e := (hun _ hv j hj).2
      simp only [hT] at hx
      rw [e] at hx
      cases hx
      linarith
    unfold batchRun
    rw [← hS, ← hV, if_neg e1, if_neg e2]
    unfold findTrops
    dsimp only
    unfold solveRows
    by_cases g : (((List.range b.m).filter fun i => decide (validRow S U T (fun i => b.spot (i + 1)) (some V) i)).filter fun i => decide (V i ≠ none)) = []
    · rw [if_pos g, if_pos g]
      rfl
    · rw [if_neg g, if_neg g, if_neg (by
        rintro ⟨hm, i, hi, q, hq, hz⟩
        simp only [List.mem_filter, List.mem_range, decide_eq_true_eq] at hi
        obtain ⟨⟨a, c⟩, -⟩ := hi
        replace c := (hval i a).mp c
        beta_reduce at hq
        rw [spot_complete c] at hq
        cases hq
        rcases len_pos (h.rows (i + 1) (by omega) (by omega) c).waves with k | k
        · replace hm : (b.call (i + 1)).modeId = 2 := hm
          omega
        · exact absurd k.2 (not_lt.mpr hz))]
      dsimp only
      split
      · rfl
      · split <;> rfl

/-- C187: if the call succeeds for every complete profile alone, the call for all of them succeeds, with the same values and NaN for the profiles in which
something is missing. -/
theorem C187_rows {b : Spec.Batch} (h : b.Valid) (qz : Solver) (w : Trop.Work) (s : Trop.Scratch) (o : ℕ → ℕ → ℕ → Trop.Cell)
    (hok : ∀ i, 1 ≤ i → i ≤ b.m → b.Complete i → ∃ x, (b.call i).run qz w s o = .ok (.one x)) :
    ∃ v, b.run qz w s o = .ok (.many b.m v) ∧ ∀ i, 1 ≤ i → i ≤ b.m →
      (b.Complete i → (b.call i).run qz w s o = .ok (.one (v (i - 1)))) ∧ (¬ b.Complete i → v (i - 1) = none) := by
  obtain ⟨rows, run, hm, hr, e⟩ := batch_solves h qz w s o
  by_cases g : rows = []
  · rw [if_pos g] at e
    refine ⟨_, e, fun i h1 h2 => ⟨fun hc => ?_, fun _ => rfl⟩⟩
    have := (hm (i - 1)).mpr ⟨by omega, by rwa [show i - 1 + 1 = i by omega]⟩
    rw [g] at this
    cases this
  · have hgood : ∀ i ∈ rows, run i = .ier 100 ∨ ∃ v, run i = .value v := by
      intro i hi
      obtain ⟨a, c⟩ := (hm i).mp hi
      obtain ⟨x, hx⟩ := hok (i + 1) (by omega) (by omega) c
      have := hr i hi
      rw [hx] at this
      cases hc : run i with
      | value v => exact Or.inr ⟨v, rfl⟩
      | divZero => rw [hc] at this; cases this
      | ier k =>
        rw [hc] at this
        dsimp only at this
        by_cases hk : k = 100
        · exact Or.inl (by rw [hk])
        · rw [if_neg hk] at this; cases this
    have e1 : ¬ ∃ i ∈ rows, run i = .divZero := by
      rintro ⟨i, hi, g⟩
      rcases hgood i hi with k | ⟨v, k⟩ <;> rw [g] at k <;> cases k
    have e2 : rows.filterMap (fun i => (run i).failure) = [] := by
      rw [List.filterMap_eq_nil_iff]
      intro i hi
      rcases hgood i hi with k | ⟨v, k⟩ <;> rw [k] <;> rfl
    rw [if_neg g, if_neg e1, if_neg (not_not.mpr e2)] at e
    refine ⟨_, e, fun i h1 h2 => ?_⟩
    have hi : i - 1 ∈ rows ↔ b.Complete i := by
      rw [hm, show i - 1 + 1 = i by omega]
      exact and_iff_right (by omega)
    constructor
    · intro hc
      have hmem := hi.mpr hc
      have := hr (i - 1) hmem
      rw [show i - 1 + 1 = i by omega] at this
      rw [this]
      beta_reduce
      rw [if_pos hmem]
      rcases hgood (i - 1) hmem with k | ⟨v, k⟩ <;> rw [k] <;> rfl
    · intro hc
      exact if_neg fun k => hc (hi.mp k)

/-- C187: if the call raises for one complete profile alone, the call for all of them raises, and no profile gets a value. -/
theorem C187_raises {b : Spec.Batch} (h : b.Valid) (qz : Solver) (w : Trop.Work) (s : Trop.Scratch) (o : ℕ → ℕ → ℕ → Trop.Cell) {i : ℕ} (h1 : 1 ≤ i)
    (h2 : i ≤ b.m) (hc : b.Complete i) {e : Err} (he : (b.call i).run qz w s o = .error e) : ∃ e', b.run qz w s o = .error e' := by
  obtain ⟨rows, run, hm, hr, eq⟩ := batch_solves h qz w s o
  have hi : i - 1 ∈ rows := by
    rw [hm, show i - 1 + 1 = i by omega]
    exact ⟨by omega, hc⟩
  rw [if_neg (List.ne_nil_of_mem hi)] at eq
  have := hr (i - 1) hi
  rw [show i - 1 + 1 = i by omega, he] at this
  by_cases g : ∃ i ∈ rows, run i = .divZero
  · rw [if_pos g] at eq
    exact ⟨_, eq⟩
  · rw [if_neg g] at eq
    have hf : rows.filterMap (fun i => (run i).failure) ≠ [] := by
      cases hc : run (i - 1) with
      | value v => rw [hc] at this; cases this
      | divZero => exact absurd ⟨_, hi, hc⟩ g
      | ier k =>
        rw [hc] at this
        dsimp only at this
        by_cases hk : k = 100
        · rw [if_pos hk] at this; cases this
        · refine List.ne_nil_of_mem (a := k) (List.mem_filterMap.mpr ⟨i - 1, hi, ?_⟩)
          rw [hc]
          exact if_pos hk
    rw [if_pos hf] at eq
    exact ⟨_, eq⟩

/-! ### Examples -/

/-- Four isothermal profiles at 1000 and 100 hPa: at 45 degrees with the tropopause at 200 hPa; with a missing wind; at 30 degrees with the tropopause at 50 hPa,
above the profile; at a missing latitude. -/
noncomputable def four : Spec.Batch where
  m := 4
  n := 2
  p := fun i => if i = 1 then 1000 else 100
  u := fun i j => if i = 2 ∧ j = 1 then none else some 10
  t := fun _ _ => some 250
  lat := fun i => if i = 1 then some 45 else if i = 4 then none else some 30
  band := none
  waves := .high
  log := true
  trop := fun i => if i = 3 then some 50 else some 200
  levels := 3
  window := 1

theorem four_pa (i k : ℕ) : (four.call i).pa k = if k = 1 then 100000 else 10000 := by
  unfold Spec.Call.pa
  rw [if_pos (by
    intro j _ _
    simp only [Spec.Batch.call, four]
    split <;> norm_num)]
  simp only [Spec.Batch.call, four]
  split <;> norm_num

theorem four_bottom (i : ℕ) : (four.call i).bottom = 100000 := by
  unfold Spec.Call.bottom
  rw [four_pa, four_pa, if_pos rfl, if_neg (by simp [Spec.Batch.call, four])]
  norm_num

theorem four_strict : Spec.Strict four.n four.p := Or.inr fun i h1 h2 => by
  have : i = 1 := by simp only [four] at h2; omega
  subst this
  simp [four]
  norm_num

theorem four_pos (i : ℕ) : 0 < four.p i := by
  simp only [four]
  split <;> norm_num

theorem four_call (i : ℕ) : (four.call i).Valid where
  two := le_rfl
  strict := four_strict
  pos k _ _ := ⟨four_pos k, by simp [Spec.Batch.call, four]⟩
  small k _ _ := by
    have := spvl_huge
    rw [four_pa]
    simp only [Spec.Batch.call, four]
    refine ⟨?_, ?_, ?_⟩
    · split <;> linarith
    · split
      · simp only [Option.getD_none]; linarith
      · simp only [Option.getD_some]; linarith
    · simp only [Option.getD_some]; linarith
  waves := trivial
  levels := by simp [Spec.Batch.call, four]
  window := by simp [Spec.Batch.call, four]

theorem four_valid : four.Valid where
  axes := by simp [four]
  some_row := by simp [four]
  two := le_rfl
  strict := four_strict
  pos i _ _ := four_pos i
  lons := trivial
  levels := by simp [four]
  window := by simp [four]
  rows i _ _ _ := four_call i
  units := Or.inl fun i x _ _ hx => by
    simp only [four] at hx
    split at hx <;> cases hx <;> norm_num
  above i x _ _ _ hx := by
    rw [four_bottom]
    simp only [four] at hx
    split at hx <;> cases hx <;> norm_num

theorem four_one : four.Complete 1 := ⟨fun j _ _ => by simp [four], fun _ => by simp [four], by simp [four]⟩

example : ¬ four.Complete 2 := fun h => (h.1 1 le_rfl (by simp [four])).1 (by simp [four])

theorem four_three : four.Complete 3 := ⟨fun j _ _ => by simp [four], fun _ => by simp [four], by simp [four]⟩

example : ¬ four.Complete 4 := fun h => h.2.1 rfl (by simp [four])

/-- The docstring: missing or unusable profiles return NaN. So a profile whose own call returns keeps its value next to any other profile. -/
def Spec.Independent (qz : Solver) (w : Trop.Work) (s : Trop.Scratch) (o : ℕ → ℕ → ℕ → Trop.Cell) : Prop :=
  ∀ b : Batch, b.Valid → ∀ i x, 1 ≤ i → i ≤ b.m → b.Complete i → (b.call i).run qz w s o = .ok (.one x) →
    ∃ v, b.run qz w s o = .ok (.many b.m v) ∧ v (i - 1) = x

/-- C187: the profiles of a call are not independent: one stable profile takes the results of all others away. -/
theorem C187_independent_false {qz : Solver} (hq : Spec.Exact qz) (w : Trop.Work) (s : Trop.Scratch) (o : ℕ → ℕ → ℕ → Trop.Cell) :
    ¬ Spec.Independent qz w s o := by
  intro hd
  have h1 : four.call 1 = { iso 3 .high with } := by
    unfold Spec.Batch.call four iso
    simp
  have hv := iso_valid (n := 3) (by norm_num) (waves := .high) trivial
  obtain ⟨U, T, hr⟩ := remapped_exists hv (iso_inside 3 .high)
  have hs := iso_stable (by norm_num) (waves := .high) trivial hr
  obtain ⟨-, e⟩ := C182_constant_wind hv le_rfl (iso_tropopause 3 .high w) (iso_inside 3 .high) hr hs (iso_f 3 .high) (a := 10) (fun _ _ _ => rfl) hq s o
  obtain ⟨e', he⟩ := C187_raises four_valid qz w s o (i := 1) le_rfl (by simp [four]) four_one (by rw [h1]; exact e)
  have h3 : (four.call 3).run qz w s o = .ok (.one none) :=
    run_outside (four_call 3) (tp := 5000) (by
      simp only [Spec.Call.Tropopause, Spec.Batch.call, four]
      norm_num) (by norm_num) (by rw [four_bottom]; norm_num) (by
      rw [four_pa, four_pa, if_pos rfl, if_neg (by simp [Spec.Batch.call, four])]
      norm_num) qz s o
  obtain ⟨v, hv, -⟩ := hd four four_valid 3 none (by norm_num) (by simp [four]) four_three h3
  rw [he] at hv
  cases hv

end Skyborn.Growth
