/-
`baroc_growth_rate` on one profile: what the number means, when there is none, and on what it does not depend.
-/
import Verif.Growth.Run

namespace Skyborn.Growth

open Classical

/-- The atmosphere on the solver levels is stable: potential temperature decreases with pressure. -/
def Spec.Call.Stable (c : Call) (tp : ℝ) (T : ℕ → ℝ) : Prop := ∀ i, 1 ≤ i → i + 1 ≤ c.levels → c.theta tp T (i + 1) < c.theta tp T i

/-- The growth rate of sample `i` of the spectrum is `r`. -/
def Spec.Call.Rate (c : Call) (tp : ℝ) (U T : ℕ → ℝ) (i : ℕ) (r : ℝ) : Prop :=
  BarocRate c.levels c.place.f c.place.beta (c.level tp) T (c.theta tp T) U (((i : ℝ) - 1) * c.waves.step c.place.cos) r

/-- The gradient of potential vorticity on the solver levels. -/
noncomputable def Spec.Call.Q (c : Call) (tp : ℝ) (U T : ℕ → ℝ) (i : ℕ) : ℝ :=
  barocQ c.levels c.place.f c.place.beta (c.level tp) T (c.theta tp T) U i

theorem column_of {c : Spec.Call} (h : c.Valid) {tp : ℝ} (hi : c.Inside tp) {U T : ℕ → ℝ} (hr : c.Remapped tp U T) (hs : c.Stable tp T) :
    Spec.Column c.levels (c.level tp) T (c.theta tp T) := by
  have hp := fun i a b => (h.pos i a b).1
  refine ⟨fun i h1 h2 => ?_, fun i _ _ => level_inc h.levels hi.2 i, hs⟩
  have p1 := level_pos h hi h1 h2
  have p2 := broken_pos (pa_strict h.strict) (fun i a b => pa_pos hp a b) (fun i a b => (h.pos i a b).2) (hr i h1 h2).2
  refine ⟨p1, p2, ?_⟩
  unfold Spec.Call.theta
  have : 0 < 100000 / c.level tp i := by positivity
  have := Real.rpow_pos_of_pos this ((287.04 : ℝ) / 1004.7)
  positivity

/-- The call, when the column is stable, is the end of the pipeline on a spectrum of growth rates. -/
theorem run_spectrum {c : Spec.Call} (h : c.Valid) (h3 : 3 ≤ c.levels) {w : Trop.Work} {tp : ℝ} (ht : c.Tropopause w tp) (hi : c.Inside tp) {U T : ℕ → ℝ}
    (hr : c.Remapped tp U T) (hs : c.Stable tp T) (hf : c.place.f ≠ 0) {qz : Solver} (hq : Spec.Exact qz) (s : Trop.Scratch) (o : ℕ → ℕ → ℕ → Trop.Cell) :
    ∃ (g : ℕ → Option ℝ) (sigma : ℕ → ℝ), (∀ i, g i = some (sigma i) ∧ c.Rate tp U T i (sigma i)) ∧
      c.run qz w s o = ((Ret.of (finalizeBaroc c.waves.count g c.window)).raise).map .one := by
  have hc := column_of h hi hr hs
  have key : ∀ i, ∃ r, barocSpectrum qz c.levels U (dz2 c.levels (c.level tp)) (nz (c.theta tp T) (c.level tp) T) c.place.f c.place.beta
      (waveFactor c.modeId c.len) i = some r ∧ c.Rate tp U T i r := by
    intro i
    have := baroc_sample hq h3 hc U hf c.place.beta (waveFactor c.modeId c.len) i
    rwa [factor_eq h.waves] at this ⊢
  choose sigma hsig using key
  refine ⟨_, sigma, hsig, ?_⟩
  rw [run_kernel h ht hi hr, dbaroc_run h3 hc U _ _ (by have := h.window; omega) (count_two h.waves) (len_pos h.waves)]

/-- C181: the number is the greatest growth rate of the normal modes of the remapped column, among the (smoothed) samples of the wavenumber spectrum up
to the one after the last fall of the spectrum; it is not negative. -/
theorem C181_greatest {c : Spec.Call} (h : c.Valid) (h3 : 3 ≤ c.levels) {w : Trop.Work} {tp : ℝ} (ht : c.Tropopause w tp) (hi : c.Inside tp) {U T : ℕ → ℝ}
    (hr : c.Remapped tp U T) (hs : c.Stable tp T) (hf : c.place.f ≠ 0) {qz : Solver} (hq : Spec.Exact qz) (s : Trop.Scratch) (o : ℕ → ℕ → ℕ → Trop.Cell) :
    ∃ sigma : ℕ → ℝ, (∀ i, c.Rate tp U T i (sigma i)) ∧
      ((∀ i, 1 ≤ i → i + 1 ≤ c.waves.count → Spec.smooth c.waves.count c.window sigma i ≤ Spec.smooth c.waves.count c.window sigma (i + 1)) →
        c.run qz w s o = .error (.runtime [300])) ∧
      ∀ k, 1 ≤ k → k + 1 ≤ c.waves.count → Spec.smooth c.waves.count c.window sigma (k + 1) < Spec.smooth c.waves.count c.window sigma k →
        (∀ i, k < i → i + 1 ≤ c.waves.count → Spec.smooth c.waves.count c.window sigma i ≤ Spec.smooth c.waves.count c.window sigma (i + 1)) →
        ∃ v, c.run qz w s o = .ok (.one (some v)) ∧ IsGreatest {x | ∃ i, 1 ≤ i ∧ i ≤ k + 1 ∧ x = Spec.smooth c.waves.count c.window sigma i} v ∧ 0 ≤ v := by
  obtain ⟨g, sigma, hg, e⟩ := run_spectrum h h3 ht hi hr hs hf hq s o
  obtain ⟨f1, f2⟩ := finalize_spec h.window (g := g) (s := sigma) (count := c.waves.count) fun i _ _ => (hg i).1
  refine ⟨sigma, fun i => (hg i).2, fun hn => ?_, fun k k1 k2 hk hl => ?_⟩
  · rw [e, f1 hn]
    rfl
  · obtain ⟨v, ev, hv⟩ := f2 k k1 k2 hk hl
    refine ⟨v, by rw [e, ev]; rfl, hv, ?_⟩
    obtain ⟨⟨i, -, -, rfl⟩, -⟩ := hv
    unfold Spec.smooth
    exact div_nonneg (Finset.sum_nonneg fun j _ => rate_nonneg (hg j).2) (Nat.cast_nonneg _)

theorem exists_last {n : ℕ} {P : ℕ → Prop} (h : ∃ i, 1 ≤ i ∧ i + 1 ≤ n ∧ P i) : ∃ k, 1 ≤ k ∧ k + 1 ≤ n ∧ P k ∧ ∀ i, k < i → i + 1 ≤ n → ¬ P i := by
  induction n with
  | zero =>
    obtain ⟨i, _, h, _⟩ := h
    omega
  | succ n ih =>
    by_cases hn : 1 ≤ n ∧ P n
    · exact ⟨n, hn.1, le_rfl, hn.2, fun i _ _ => by omega⟩
    · obtain ⟨i, i1, i2, hP⟩ := h
      have hi : i + 1 ≤ n := by
        by_contra hc
        have : i = n := by omega
        subst this
        exact hn ⟨i1, hP⟩
      obtain ⟨k, k1, k2, hk, hl⟩ := ih ⟨i, i1, hi, hP⟩
      refine ⟨k, k1, by omega, hk, fun j j1 j2 hj => ?_⟩
      by_cases e : j = n
      · subst e
        exact hn ⟨by omega, hj⟩
      · exact hl j j1 (by omega) hj

/-- C181, the documented maximum over all wavenumbers (the part that holds): if a number is returned it is at most the maximum of the (smoothed) spectrum,
and it is that maximum exactly if the last sample of the spectrum does not exceed it. -/
theorem C181_maximum_partial {c : Spec.Call} (h : c.Valid) (h3 : 3 ≤ c.levels) {w : Trop.Work} {tp : ℝ} (ht : c.Tropopause w tp) (hi : c.Inside tp)
    {U T : ℕ → ℝ} (hr : c.Remapped tp U T) (hs : c.Stable tp T) (hf : c.place.f ≠ 0) {qz : Solver} (hq : Spec.Exact qz) (s : Trop.Scratch)
    (o : ℕ → ℕ → ℕ → Trop.Cell) {v : ℝ} (hv : c.run qz w s o = .ok (.one (some v))) :
    ∃ sigma : ℕ → ℝ, (∀ i, c.Rate tp U T i (sigma i)) ∧
      IsGreatest {x | ∃ i, 1 ≤ i ∧ i ≤ c.waves.count ∧ x = Spec.smooth c.waves.count c.window sigma i}
        (max v (Spec.smooth c.waves.count c.window sigma c.waves.count)) ∧
      (IsGreatest {x | ∃ i, 1 ≤ i ∧ i ≤ c.waves.count ∧ x = Spec.smooth c.waves.count c.window sigma i} v ↔
        Spec.smooth c.waves.count c.window sigma c.waves.count ≤ v) := by
  obtain ⟨sigma, hsig, h1, h2⟩ := C181_greatest h h3 ht hi hr hs hf hq s o
  have hc := count_two h.waves
  have hfall : ∃ i, 1 ≤ i ∧ i + 1 ≤ c.waves.count ∧ Spec.smooth c.waves.count c.window sigma (i + 1) < Spec.smooth c.waves.count c.window sigma i := by
    by_contra hn
    push Not at hn
    have := h1 hn
    rw [hv] at this
    cases this
  obtain ⟨k, k1, k2, hk, hl⟩ := exists_last hfall
  have hl : ∀ i, k < i → i + 1 ≤ c.waves.count → Spec.smooth c.waves.count c.window sigma i ≤ Spec.smooth c.waves.count c.window sigma (i + 1) :=
    fun i a b => not_lt.mp (hl i a b)
  obtain ⟨v', e, hg, -⟩ := h2 k k1 k2 hk hl
  rw [hv] at e
  have : v = v' := by
    injection e with e
    injection e with e
    injection e
  subst this
  have tail : ∀ i, k < i → i ≤ c.waves.count → Spec.smooth c.waves.count c.window sigma i ≤ Spec.smooth c.waves.count c.window sigma c.waves.count := by
    intro i i1 i2
    induction hm : c.waves.count - i generalizing i with
    | zero =>
      have : i = c.waves.count := by omega
      rw [← this]
    | succ m ih => exact (hl i i1 (by omega)).trans (ih (i + 1) (by omega) (by omega) (by omega))
  have all : IsGreatest {x | ∃ i, 1 ≤ i ∧ i ≤ c.waves.count ∧ x = Spec.smooth c.waves.count c.window sigma i}
      (max v (Spec.smooth c.waves.count c.window sigma c.waves.count)) := by
    constructor
    · obtain ⟨⟨i, i1, i2, hi⟩, -⟩ := hg
      rcases max_choice v (Spec.smooth c.waves.count c.window sigma c.waves.count) with g | g
      · exact ⟨i, i1, by omega, by rw [g, hi]⟩
      · exact ⟨c.waves.count, by omega, le_rfl, g⟩
    · rintro x ⟨i, i1, i2, rfl⟩
      by_cases hik : i ≤ k + 1
      · exact (hg.2 ⟨i, i1, hik, rfl⟩).trans (le_max_left _ _)
      · exact (tail i (by omega) i2).trans (le_max_right _ _)
  refine ⟨sigma, hsig, all, fun g => ?_, fun g => ?_⟩
  · exact g.2 ⟨c.waves.count, by omega, le_rfl, rfl⟩
  · rwa [max_eq_left g] at all

/-! ### C182: no instability, no number -/

/-- The value of a running mean of a constant spectrum. -/
theorem smooth_zero {count window : ℕ} {sigma : ℕ → ℝ} (h : ∀ i, sigma i = 0) (i : ℕ) : Spec.smooth count window sigma i = 0 := by
  unfold Spec.smooth
  rw [Finset.sum_eq_zero fun j _ => h j, zero_div]

/-- C182: if the gradient of potential vorticity has one sign (Charney and Stern: no wave grows) every growth rate is zero, and the call raises a
`RuntimeError` with status 300 instead of returning zero. -/
theorem C182_stable_raises {c : Spec.Call} (h : c.Valid) (h3 : 3 ≤ c.levels) {w : Trop.Work} {tp : ℝ} (ht : c.Tropopause w tp) (hi : c.Inside tp)
    {U T : ℕ → ℝ} (hr : c.Remapped tp U T) (hs : c.Stable tp T) (hf : c.place.f ≠ 0)
    (hQ : (∀ i, 1 ≤ i → i ≤ c.levels → 0 ≤ c.Q tp U T i) ∨ ∀ i, 1 ≤ i → i ≤ c.levels → c.Q tp U T i ≤ 0)
    {qz : Solver} (hq : Spec.Exact qz) (s : Trop.Scratch) (o : ℕ → ℕ → ℕ → Trop.Cell) :
    (∀ i r, c.Rate tp U T i r → r = 0) ∧ c.run qz w s o = .error (.runtime [300]) := by
  have hz : ∀ i r, c.Rate tp U T i r → r = 0 := fun i r hir => rate_stable h3 (column_of h hi hr hs) hQ hir
  refine ⟨hz, ?_⟩
  obtain ⟨sigma, hsig, h1, -⟩ := C181_greatest h h3 ht hi hr hs hf hq s o
  have h0 : ∀ i, sigma i = 0 := fun i => hz i _ (hsig i)
  exact h1 fun i _ _ => by rw [smooth_zero h0, smooth_zero h0]

/-- C182: with five to seven longitudes in low-resolution mode the spectrum has the samples 0 and 1 only, never falls, and the call always raises. -/
theorem C182_two_samples {c : Spec.Call} (h : c.Valid) (h3 : 3 ≤ c.levels) (h2 : c.waves.count = 2) {w : Trop.Work} {tp : ℝ} (ht : c.Tropopause w tp)
    (hi : c.Inside tp) {U T : ℕ → ℝ} (hr : c.Remapped tp U T) (hs : c.Stable tp T) (hf : c.place.f ≠ 0)
    {qz : Solver} (hq : Spec.Exact qz) (s : Trop.Scratch) (o : ℕ → ℕ → ℕ → Trop.Cell) : c.run qz w s o = .error (.runtime [300]) := by
  obtain ⟨sigma, hsig, h1, -⟩ := C181_greatest h h3 ht hi hr hs hf hq s o
  refine h1 fun i i1 i2 => ?_
  have e : i = 1 := by omega
  subst e
  rw [h2]
  have s1 : sigma 1 = 0 := by
    rcases hsig 1 with ⟨-, g⟩ | ⟨g, -⟩
    · exact g
    · exact absurd (by norm_num) g
  have s2 := rate_nonneg (hsig 2)
  by_cases hw : c.window / 2 = 0
  · have n1 : Spec.near 2 (c.window / 2) 1 = {1} := by rw [hw]; decide
    have n2 : Spec.near 2 (c.window / 2) (1 + 1) = {2} := by rw [hw]; decide
    unfold Spec.smooth
    rw [n1, n2, Finset.sum_singleton, Finset.sum_singleton, s1]
    simpa using s2
  · have key : Spec.near 2 (c.window / 2) 1 = Spec.near 2 (c.window / 2) (1 + 1) := by
      unfold Spec.near
      ext j
      simp only [Finset.mem_filter, Finset.mem_Icc]
      omega
    unfold Spec.smooth
    rw [key]

/-- C182: `solver_levels=2` passes the check of the arguments and then always raises a `RuntimeError` with status 1. -/
theorem C182_two_levels {c : Spec.Call} (h : c.Valid) (h2 : c.levels = 2) {w : Trop.Work} {tp : ℝ} (ht : c.Tropopause w tp) (hi : c.Inside tp)
    (qz : Solver) (s : Trop.Scratch) (o : ℕ → ℕ → ℕ → Trop.Cell) : c.run qz w s o = .error (.runtime [1]) := by
  obtain ⟨U, T, hr⟩ := remapped_exists h hi
  rw [run_kernel h ht hi hr]
  unfold dbaroc
  rw [if_pos (by omega)]
  rfl

end Skyborn.Growth
