/-
`baroc_growth_rate`: a constant wind, frames of reference, the order of the levels, and an isothermal atmosphere as example.
-/
import Verif.Growth.BarocProps
import Verif.Trop.Props

namespace Skyborn.Growth

open Classical

/-- With a constant wind the gradient of potential vorticity is that of the Coriolis parameter. -/
theorem Q_const {c : Spec.Call} {tp : ℝ} {U T : ℕ → ℝ} {a : ℝ} (hU : ∀ i, 1 ≤ i → i ≤ c.levels → U i = a) {i : ℕ} (h1 : 1 ≤ i) (h2 : i ≤ c.levels) :
    c.Q tp U T i = c.place.beta := by
  unfold Spec.Call.Q Spec.barocQ Spec.lap
  have e1 : Spec.barocG c.levels c.place.f (Spec.stability (c.level tp) T (c.theta tp T)) i • (U (i + 1) - U i) = 0 := by
    by_cases g : i + 1 ≤ c.levels
    · rw [hU i h1 h2, hU (i + 1) (by omega) g, sub_self, smul_zero]
    · rw [barocG_out (by omega), zero_smul]
  have e2 : Spec.barocG c.levels c.place.f (Spec.stability (c.level tp) T (c.theta tp T)) (i - 1) • (U i - U (i - 1)) = 0 := by
    by_cases g : 1 ≤ i - 1
    · rw [hU i h1 h2, hU (i - 1) g (by omega), sub_self, smul_zero]
    · rw [barocG_out (by omega), zero_smul]
  rw [e1, e2, sub_zero, smul_zero, sub_zero]

/-- C182: an atmosphere whose wind does not change with height has no growing wave, and the call raises. -/
theorem C182_constant_wind {c : Spec.Call} (h : c.Valid) (h3 : 3 ≤ c.levels) {w : Trop.Work} {tp : ℝ} (ht : c.Tropopause w tp) (hi : c.Inside tp)
    {U T : ℕ → ℝ} (hr : c.Remapped tp U T) (hs : c.Stable tp T) (hf : c.place.f ≠ 0) {a : ℝ} (hu : ∀ i, 1 ≤ i → i ≤ c.n → c.u i = a)
    {qz : Solver} (hq : Spec.Exact qz) (s : Trop.Scratch) (o : ℕ → ℕ → ℕ → Trop.Cell) :
    (∀ i r, c.Rate tp U T i r → r = 0) ∧ c.run qz w s o = .error (.runtime [300]) := by
  have hp := fun i a b => (h.pos i a b).1
  have hU : ∀ i, 1 ≤ i → i ≤ c.levels → U i = a := fun i h1 h2 =>
    broken_const (pa_strict h.strict) (fun i a b => pa_pos hp a b) hu (hr i h1 h2).1
  refine C182_stable_raises h h3 ht hi hr hs hf ?_ hq s o
  rcases le_total 0 c.place.beta with g | g
  · exact Or.inl fun i h1 h2 => by rw [Q_const hU h1 h2]; exact g
  · exact Or.inr fun i h1 h2 => by rw [Q_const hU h1 h2]; exact g

/-! ### C183: frames of reference -/

/-- C183: adding a constant to the wind (another frame of reference) changes nothing. -/
theorem C183_galilean {c : Spec.Call} (h : c.Valid) (h3 : 3 ≤ c.levels) {w : Trop.Work} {tp : ℝ} (ht : c.Tropopause w tp) (hi : c.Inside tp)
    {U T : ℕ → ℝ} (hr : c.Remapped tp U T) (hs : c.Stable tp T) (hf : c.place.f ≠ 0) (a : ℝ) (ha : ∀ i, 1 ≤ i → i ≤ c.n → c.u i + a < Interp.spvl)
    {qz : Solver} (hq : Spec.Exact qz) (s : Trop.Scratch) (o : ℕ → ℕ → ℕ → Trop.Cell) :
    ({ c with u := fun i => c.u i + a } : Spec.Call).run qz w s o = c.run qz w s o := by
  have h' : ({ c with u := fun i => c.u i + a } : Spec.Call).Valid :=
    ⟨h.two, h.strict, h.pos, fun i h1 h2 => ⟨(h.small i h1 h2).1, ha i h1 h2, (h.small i h1 h2).2.2⟩, h.waves, h.levels, h.window⟩
  have hr' : ({ c with u := fun i => c.u i + a } : Spec.Call).Remapped tp (fun i => U i + a) T :=
    fun i h1 h2 => ⟨broken_add a (hr i h1 h2).1, (hr i h1 h2).2⟩
  obtain ⟨g, sigma, hg, e⟩ := run_spectrum h h3 ht hi hr hs hf hq s o
  obtain ⟨g', sigma', hg', e'⟩ := run_spectrum (c := { c with u := fun i => c.u i + a }) h' h3 ht hi hr' hs hf hq s o
  have : g = g' := by
    funext i
    rw [(hg i).1, (hg' i).1]
    exact congrArg some (rate_unique (rate_galilean a (hg i).2) (hg' i).2)
  rw [e, e', this]

/-! ### C186: the order of the levels -/

/-- The request with all levels in the opposite order. -/
def Spec.Call.reversed (c : Call) : Call :=
  { c with p := fun i => c.p (c.n + 1 - i), u := fun i => c.u (c.n + 1 - i), t := fun i => c.t (c.n + 1 - i) }

theorem reversed_pa (c : Spec.Call) (i : ℕ) : c.reversed.pa i = c.pa (c.n + 1 - i) := by
  unfold Spec.Call.pa Spec.Call.reversed
  dsimp only
  have : (∀ j, 1 ≤ j → j ≤ c.n → c.p (c.n + 1 - j) ≤ 2000) ↔ ∀ j, 1 ≤ j → j ≤ c.n → c.p j ≤ 2000 := by
    constructor
    · intro h j h1 h2
      have := h (c.n + 1 - j) (by omega) (by omega)
      rwa [show c.n + 1 - (c.n + 1 - j) = j by omega] at this
    · intro h j h1 h2
      exact h _ (by omega) (by omega)
  by_cases g : ∀ j, 1 ≤ j → j ≤ c.n → c.p j ≤ 2000
  · rw [if_pos g, if_pos (this.mpr g)]
  · rw [if_neg g, if_neg fun g' => g (this.mp g')]

theorem reversed_strict {n : ℕ} {p : ℕ → ℝ} (h : Spec.Strict n p) : Spec.Strict n fun i => p (n + 1 - i) := by
  rcases h with h | h
  · refine Or.inr fun i h1 h2 => ?_
    have := h (n - i) (by omega) (by omega)
    rwa [show n - i + 1 = n + 1 - i by omega, show n - i = n + 1 - (i + 1) by omega] at this
  · exact Or.inl (strict_reverse h)

theorem reversed_valid {c : Spec.Call} (h : c.Valid) : c.reversed.Valid := by
  refine ⟨h.two, reversed_strict h.strict, fun i h1 h2 => ?_, fun i h1 h2 => ?_, h.waves, h.levels, h.window⟩
  · replace h2 : i ≤ c.n := h2
    exact h.pos (c.n + 1 - i) (by omega) (by omega)
  · replace h2 : i ≤ c.n := h2
    rw [reversed_pa]
    exact h.small (c.n + 1 - i) (by omega) (by omega)

theorem reversed_bottom {c : Spec.Call} (h : c.Valid) : c.reversed.bottom = c.bottom := by
  have hn := h.two
  unfold Spec.Call.bottom
  rw [reversed_pa, reversed_pa, show c.n + 1 - 1 = c.n by omega, show c.n + 1 - c.reversed.n = 1 from Nat.add_sub_cancel_left _ _, max_comm]

theorem reversed_inside {c : Spec.Call} (h : c.Valid) {tp : ℝ} (hi : c.Inside tp) : c.reversed.Inside tp := by
  have hn := h.two
  refine ⟨?_, ?_⟩
  · rw [reversed_pa, reversed_pa, show c.n + 1 - 1 = c.n by omega, show c.n + 1 - c.reversed.n = 1 from Nat.add_sub_cancel_left _ _, min_comm]
    exact hi.1
  · rw [reversed_bottom h]
    exact hi.2

theorem reversed_level {c : Spec.Call} (h : c.Valid) (tp : ℝ) (i : ℕ) : c.reversed.level tp i = c.level tp i := by
  unfold Spec.Call.level
  rw [reversed_bottom h]
  rfl

theorem reversed_remapped {c : Spec.Call} (h : c.Valid) {tp : ℝ} {U T : ℕ → ℝ} (hr : c.Remapped tp U T) : c.reversed.Remapped tp U T := by
  intro i h1 h2
  rw [reversed_level h]
  obtain ⟨a, b⟩ := hr i h1 h2
  exact ⟨broken_congr (fun i _ _ => reversed_pa c i) (fun _ _ _ => rfl) (broken_reverse a),
    broken_congr (fun i _ _ => reversed_pa c i) (fun _ _ _ => rfl) (broken_reverse b)⟩

theorem backwards_get {n : ℕ} (v : ℕ → ℝ) {k : ℕ} (h1 : 1 ≤ k) (h2 : k ≤ n) : (Spec.backwards n (Spec.array n v)).get [k - 1] = some (v (n + 1 - k)) := by
  unfold Spec.backwards Spec.array
  show flip n (fun i => some (v (i + 1))) (k - 1) = _
  unfold flip
  rw [if_pos (by omega)]
  dsimp only
  rw [show n - 1 - (k - 1) + 1 = n + 1 - k by omega]

theorem array_get {n : ℕ} (v : ℕ → ℝ) {k : ℕ} (h1 : 1 ≤ k) : (Spec.array n v).get [k - 1] = some (v k) := by
  unfold Spec.array
  show some (v (k - 1 + 1)) = _
  rw [show k - 1 + 1 = k by omega]

theorem reversed_tropopause {c : Spec.Call} (h : c.Valid) {w : Trop.Work} {tp : ℝ} (ht : c.Tropopause w tp) : c.reversed.Tropopause w tp := by
  have hn := h.two
  have hne := strict_ends hn (pa_strict h.strict)
  have hp1 : c.reversed.pa 1 = c.pa c.n := by rw [reversed_pa, show c.n + 1 - 1 = c.n by omega]
  have hpn : c.reversed.pa c.reversed.n = c.pa 1 := by rw [reversed_pa, show c.n + 1 - c.reversed.n = 1 from Nat.add_sub_cancel_left _ _]
  unfold Spec.Call.Tropopause at ht ⊢
  have htr : c.reversed.trop = c.trop := rfl
  rw [htr]
  cases hc : c.trop with
  | some x =>
    rw [hc] at ht
    exact ht
  | none =>
    rw [hc] at ht
    dsimp only at ht ⊢
    obtain ⟨cell, e, rest⟩ := ht
    refine ⟨cell, ?_, rest⟩
    rw [← e, hp1, hpn]
    by_cases g : c.pa 1 > c.pa c.n
    · rw [if_pos g, if_pos g, if_neg (by linarith), if_neg (by linarith)]
      rw [Trop.profile_run (n := c.n) (by omega) rfl rfl, Trop.profile_run (n := c.n) (by omega) rfl rfl]
      refine congrArg Except.ok (Trop.colCell_congr (fun k k1 k2 => ?_) (fun k k1 k2 => ?_) _ _ _)
      · rw [backwards_get _ k1 k2, array_get _ k1, reversed_pa]
      · rw [backwards_get _ k1 k2, array_get _ k1]
        rfl
    · rw [if_neg g, if_neg g, if_pos (lt_of_le_of_ne (not_lt.mp g) hne), if_pos (lt_of_le_of_ne (not_lt.mp g) hne)]
      rw [Trop.profile_run (n := c.n) (by omega) rfl rfl, Trop.profile_run (n := c.n) (by omega) rfl rfl]
      refine congrArg Except.ok (Trop.colCell_congr (fun k k1 k2 => ?_) (fun k k1 k2 => ?_) _ _ _)
      · have := backwards_get (n := c.reversed.n) c.reversed.pa k1 k2
        rw [this, array_get _ k1, reversed_pa, show c.n + 1 - (c.reversed.n + 1 - k) = k by
          have : c.reversed.n = c.n := rfl
          omega]
      · have := backwards_get (n := c.reversed.n) c.reversed.t k1 k2
        rw [this, array_get _ k1]
        have : c.reversed.t (c.reversed.n + 1 - k) = c.t k := by
          have e1 : c.reversed.n = c.n := rfl
          have e2 : c.reversed.t (c.reversed.n + 1 - k) = c.t (c.n + 1 - (c.reversed.n + 1 - k)) := rfl
          rw [e2, show c.n + 1 - (c.reversed.n + 1 - k) = k by omega]
        rw [this]

/-- C186: giving pressure, wind and temperature in the opposite order changes nothing (explicit or diagnosed tropopause). No solver is assumed exact, no
stability is assumed. -/
theorem C186_order {c : Spec.Call} (h : c.Valid) {w : Trop.Work} {tp : ℝ} (ht : c.Tropopause w tp) (hi : c.Inside tp)
    (qz : Solver) (s : Trop.Scratch) (o : ℕ → ℕ → ℕ → Trop.Cell) : c.reversed.run qz w s o = c.run qz w s o := by
  obtain ⟨U, T, hr⟩ := remapped_exists h hi
  rw [run_kernel h ht hi hr, run_kernel (reversed_valid h) (reversed_tropopause h ht) (reversed_inside h hi) (reversed_remapped h hr)]
  have e : ∀ i, c.reversed.level tp i = c.level tp i := reversed_level h tp
  congr 2
  refine dbaroc_congr qz (fun _ _ _ => rfl) (fun i _ _ => ?_) (fun i _ _ => e i) (fun _ _ _ => rfl) _ _ _ _ _ _
  unfold Spec.Call.theta
  rw [e]

/-! ### An isothermal atmosphere -/

/-- 1000 and 100 hPa, 250 K, a constant wind, 45 degrees north, tropopause at 200 hPa, `n` solver levels. -/
noncomputable def iso (n : ℕ) (waves : Spec.Waves) : Spec.Call where
  n := 2
  p := fun i => if i = 1 then 1000 else 100
  u := fun _ => 10
  t := fun _ => 250
  place := .at 45
  waves := waves
  log := true
  trop := some 200
  levels := n
  window := 1

theorem spvl_huge : (1000000 : ℝ) < Interp.spvl := by
  unfold Interp.spvl
  have h1 : (1 : ℝ) ≤ (2 : ℝ) ^ 971 := one_le_pow₀ (by norm_num)
  have h2 : (1000001 : ℝ) ≤ (2 : ℝ) ^ 53 - 1 := by norm_num
  generalize (2 : ℝ) ^ 971 = a at h1 ⊢
  generalize (2 : ℝ) ^ 53 - 1 = b at h2 ⊢
  nlinarith

theorem cos45_pos : 0 < Real.cos (45 * (Real.pi / 180)) := by
  rw [show (45 : ℝ) * (Real.pi / 180) = Real.pi / 4 by ring, Real.cos_pi_div_four]
  positivity

theorem iso_f (n : ℕ) (waves : Spec.Waves) : (iso n waves).place.f ≠ 0 := by
  simp only [iso, Spec.Where.f, Spec.Where.sin]
  rw [show (45 : ℝ) * (Real.pi / 180) = Real.pi / 4 by ring, Real.sin_pi_div_four]
  positivity

theorem iso_units (n : ℕ) (waves : Spec.Waves) : ∀ j, 1 ≤ j → j ≤ (iso n waves).n → (iso n waves).p j ≤ 2000 := by
  intro j _ _
  simp only [iso]
  split <;> norm_num

theorem iso_pa (n : ℕ) (waves : Spec.Waves) (i : ℕ) : (iso n waves).pa i = if i = 1 then 100000 else 10000 := by
  unfold Spec.Call.pa
  rw [if_pos (iso_units n waves)]
  simp only [iso]
  split <;> norm_num

theorem iso_bottom (n : ℕ) (waves : Spec.Waves) : (iso n waves).bottom = 100000 := by
  unfold Spec.Call.bottom
  rw [iso_pa, iso_pa, if_pos rfl, if_neg (by simp [iso])]
  norm_num

theorem iso_valid {n : ℕ} (hn : 2 ≤ n) {waves : Spec.Waves} (hw : waves.Ok (Real.cos (45 * (Real.pi / 180)))) : (iso n waves).Valid where
  two := le_rfl
  strict := Or.inr fun i h1 h2 => by
    have : i = 1 := by simp only [iso] at h2; omega
    subst this
    simp [iso]
    norm_num
  pos i _ _ := by
    simp only [iso]
    constructor
    · split <;> norm_num
    · norm_num
  small i _ _ := by
    have := spvl_huge
    rw [iso_pa]
    simp only [iso]
    refine ⟨?_, by linarith, by linarith⟩
    split <;> linarith
  waves := hw
  levels := hn
  window := by simp [iso]

theorem iso_tropopause (n : ℕ) (waves : Spec.Waves) (w : Trop.Work) : (iso n waves).Tropopause w 20000 := by
  simp only [Spec.Call.Tropopause, iso]
  norm_num

theorem iso_inside (n : ℕ) (waves : Spec.Waves) : (iso n waves).Inside 20000 := by
  refine ⟨?_, ?_⟩
  · rw [iso_pa, iso_pa, if_pos rfl, if_neg (by simp [iso])]
    norm_num
  · rw [iso_bottom]
    norm_num

theorem iso_stable {n : ℕ} (hn : 2 ≤ n) {waves : Spec.Waves} (hw : waves.Ok (Real.cos (45 * (Real.pi / 180)))) {U T : ℕ → ℝ}
    (hr : (iso n waves).Remapped 20000 U T) : (iso n waves).Stable 20000 T := by
  have h := iso_valid hn hw
  have hp := fun i a b => (h.pos i a b).1
  have hT : ∀ i, 1 ≤ i → i ≤ n → T i = 250 := fun i h1 h2 =>
    broken_const (pa_strict h.strict) (fun i a b => pa_pos hp a b) (fun _ _ _ => rfl) (hr i h1 h2).2
  intro i h1 h2
  replace h2 : i + 1 ≤ n := h2
  unfold Spec.Call.theta
  rw [hT i h1 (by omega), hT (i + 1) (by omega) h2]
  have l1 := level_pos h (iso_inside n waves) h1 (show i ≤ n by omega)
  have l2 := level_inc h.levels (iso_inside n waves).2 i
  have : 100000 / (iso n waves).level 20000 (i + 1) < 100000 / (iso n waves).level 20000 i := div_lt_div_of_pos_left (by norm_num) l1 l2
  have := Real.rpow_lt_rpow (div_nonneg (by norm_num) (l1.trans l2).le) this (show (0 : ℝ) < 287.04 / 1004.7 by norm_num)
  linarith

/-- The documented result: the maximum of the growth rates. -/
def Spec.MaximumReturned (qz : Solver) (w : Trop.Work) (s : Trop.Scratch) (o : ℕ → ℕ → ℕ → Trop.Cell) : Prop :=
  ∀ (c : Call) (tp : ℝ) (U T : ℕ → ℝ), c.Valid → 3 ≤ c.levels → c.window = 1 → c.Tropopause w tp → c.Inside tp → c.Remapped tp U T → c.Stable tp T →
    c.place.f ≠ 0 → ∀ v, IsGreatest {x | ∃ i, (1 ≤ i ∧ i ≤ c.waves.count) ∧ c.Rate tp U T i x} v → c.run qz w s o = .ok (.one (some v))

/-- C182: the documented result is not what comes back: an isothermal atmosphere with constant wind has maximum growth rate zero and the call raises. -/
theorem C182_documented_false {qz : Solver} (hq : Spec.Exact qz) (w : Trop.Work) (s : Trop.Scratch) (o : ℕ → ℕ → ℕ → Trop.Cell) :
    ¬ Spec.MaximumReturned qz w s o := by
  intro hd
  have h := iso_valid (n := 3) (by norm_num) (waves := .high) trivial
  obtain ⟨U, T, hr⟩ := remapped_exists h (iso_inside 3 .high)
  have hs := iso_stable (by norm_num) (waves := .high) trivial hr
  obtain ⟨hz, e⟩ := C182_constant_wind h le_rfl (iso_tropopause 3 .high w) (iso_inside 3 .high) hr hs (iso_f 3 .high) (a := 10) (fun _ _ _ => rfl) hq s o
  obtain ⟨g, sigma, hg, -⟩ := run_spectrum h le_rfl (iso_tropopause 3 .high w) (iso_inside 3 .high) hr hs (iso_f 3 .high) hq s o
  have := hd (iso 3 .high) 20000 U T h le_rfl rfl (iso_tropopause 3 .high w) (iso_inside 3 .high) hr hs (iso_f 3 .high) 0
    ⟨⟨1, ⟨le_rfl, by simp [iso, Spec.Waves.count]⟩, by
      have := (hg 1).2
      rwa [hz 1 _ this] at this⟩, by
      rintro x ⟨i, -, hx⟩
      rw [hz i x hx]⟩
  rw [e] at this
  cases this

/-- A request to which the theorems of this file and of `BarocProps` apply. -/
example (w : Trop.Work) : ∃ (c : Spec.Call) (tp : ℝ) (U T : ℕ → ℝ), c.Valid ∧ 3 ≤ c.levels ∧ c.Tropopause w tp ∧ c.Inside tp ∧ c.Remapped tp U T ∧ c.Stable tp T ∧
    c.place.f ≠ 0 ∧ Spec.Exact rootSolver := by
  have h := iso_valid (n := 45) (by norm_num) (waves := .high) trivial
  obtain ⟨U, T, hr⟩ := remapped_exists h (iso_inside 45 .high)
  exact ⟨_, _, U, T, h, by simp [iso], iso_tropopause 45 .high w, iso_inside 45 .high, hr, iso_stable (by norm_num) (waves := .high) trivial hr, iso_f 45 .high, rootSolver_exact⟩

/-- Six longitudes give two samples. -/
example (w : Trop.Work) (s : Trop.Scratch) (o : ℕ → ℕ → ℕ → Trop.Cell) :
    (iso 45 (.low 6 fun i => i)).run rootSolver w s o = .error (.runtime [300]) := by
  have hw : (Spec.Waves.low 6 fun i => (i : ℝ)).Ok (Real.cos (45 * (Real.pi / 180))) :=
    ⟨by norm_num, Or.inl fun i _ _ => by push_cast; linarith, cos45_pos⟩
  have h := iso_valid (n := 45) (by norm_num) hw
  obtain ⟨U, T, hr⟩ := remapped_exists h (iso_inside 45 _)
  exact C182_two_samples h (by simp [iso]) rfl (iso_tropopause 45 _ w) (iso_inside 45 _) hr (iso_stable (by norm_num) hw hr) (iso_f 45 _) rootSolver_exact s o

/-- Two solver levels. -/
example (qz : Solver) (w : Trop.Work) (s : Trop.Scratch) (o : ℕ → ℕ → ℕ → Trop.Cell) : (iso 2 .high).run qz w s o = .error (.runtime [1]) :=
  C182_two_levels (iso_valid le_rfl (waves := .high) trivial) rfl (iso_tropopause 2 _ w) (iso_inside 2 _) qz s o

end Skyborn.Growth
