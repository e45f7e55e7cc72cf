import Verif.Gridfill.Sweep
import Verif.Gridfill.Init
import Mathlib.Tactic.NormNum

/-!
Properties C27-C31 of the gridfill kernel on one grid of at least 3 x 3 points (smaller grids are refused, _gridfill.pyx:406).
`mask a b ≠ 0` means missing. `itermax = 0` makes the kernel return the initial guess, so the statements about initial guesses
are statements about its result.
-/

namespace Skyborn.Gridfill

open Skyborn

variable {K : Type} [Field K] [LinearOrder K]
variable {nlat nlon : ℕ} {mask : ℕ → ℕ → ℤ}

/-- `(a, b)` is a missing point of the grid -/
def Missing (nlat nlon : ℕ) (mask : ℕ → ℕ → ℤ) (a b : ℕ) : Prop := a < nlat ∧ b < nlon ∧ mask a b ≠ 0

/-- the mask built by `fill`: `mask.astype(int32)` of a boolean mask -/
def IsMask (nlat nlon : ℕ) (mask : ℕ → ℕ → ℤ) : Prop := ∀ a b, a < nlat → b < nlon → mask a b = 0 ∨ mask a b = 1

theorem init_total (h2 : 3 ≤ nlon) (o : Opts K) (g : ℕ → ℕ → K) : ∃ g1,
    initializeMissing nlat nlon o.initzonal o.initzonalLinear o.cyclic o.initialValue mask g = some g1 ∧
    ∀ a b, ¬ Missing nlat nlon mask a b → g1 a b = g a b := by
  unfold initializeMissing Missing
  cases o.initzonal
  · cases o.initzonalLinear
    · obtain ⟨g', e, h⟩ := initConst_eq (nlat := nlat) (nlon := nlon) (mask := mask) o.initialValue g
      exact ⟨g', by simpa using e, fun a b hab => by rw [h, if_neg hab]⟩
    · obtain ⟨g', e, h, h'⟩ := initZonalLinear_eq (nlat := nlat) (mask := mask) (cyclic := o.cyclic) h2 o.initialValue g
      refine ⟨g', by simpa using e, fun a b hab => ?_⟩
      rcases Nat.lt_or_ge a nlat with ha | ha
      · exact (h' a ha).observed b (by tauto)
      · exact h a b ha
  · obtain ⟨g', e, h⟩ := initZonal_eq (nlat := nlat) (nlon := nlon) (mask := mask) g
    exact ⟨g', by simpa using e, fun a b hab => by rw [h, if_neg (by tauto)]⟩

/-- The relaxation loop: unless no sweep is allowed, the result is the outcome of a last sweep of some grid obtained by sweeping;
the loop stops early only below the tolerance. -/
theorem relaxLoop_spec (h1 : 3 ≤ nlat) (h2 : 3 ≤ nlon) (cyclic : Bool) (relaxc tol : K) (P : (ℕ → ℕ → K) → Prop)
    (hP : ∀ g g' r, sweep nlat nlon cyclic relaxc mask g = some (g', r) → P g → P g') :
    ∀ left g n r, P g → ∃ g' n' r', relaxLoop nlat nlon cyclic relaxc tol mask left g n r = some (g', n', r') ∧ P g' ∧
      n' ≤ n + left ∧ (left = 0 → g' = g ∧ n' = n ∧ r' = r) ∧
      (left ≠ 0 → n < n' ∧ (∃ g0, P g0 ∧ sweep nlat nlon cyclic relaxc mask g0 = some (g', r')) ∧ (¬ r' ≤ tol → n' = n + left)) := by
  intro left
  induction left with
  | zero => intro g n r hg; exact ⟨g, n, r, rfl, hg, by simp, fun _ => ⟨rfl, rfl, rfl⟩, fun h => absurd rfl h⟩
  | succ left ih =>
    intro g n r hg
    obtain ⟨g1, r1, e1, -⟩ := sweep_spec (cyclic := cyclic) (relaxc := relaxc) (mask := mask) h1 h2 g
    have hg1 := hP g g1 r1 e1 hg
    unfold relaxLoop
    rw [e1]
    simp only [Option.bind_eq_bind, Option.bind_some]
    by_cases ht : r1 ≤ tol
    · rw [if_pos ht]
      exact ⟨g1, n + 1, r1, rfl, hg1, by omega, by simp, fun _ => ⟨by omega, ⟨g, hg, e1⟩, fun h => absurd ht h⟩⟩
    · rw [if_neg ht]
      obtain ⟨g', n', r', e, hg', hn, h0, hl⟩ := ih g1 (n + 1) r1 hg1
      refine ⟨g', n', r', e, hg', by omega, by simp, fun _ => ?_⟩
      by_cases hz : left = 0
      · obtain ⟨rfl, rfl, rfl⟩ := h0 hz
        exact ⟨by omega, ⟨g, hg, e1⟩, fun _ => by omega⟩
      · obtain ⟨a, b, c⟩ := hl hz
        exact ⟨by omega, b, fun h => by have := c h; omega⟩

theorem intSum_zero (hm : IsMask nlat nlon mask) :
    (∑ i ∈ Finset.range nlat, ∑ j ∈ Finset.range nlon, mask i j) = 0 ↔ ∀ a b, ¬ Missing nlat nlon mask a b := by
  have hnn : ∀ i ∈ Finset.range nlat, 0 ≤ ∑ j ∈ Finset.range nlon, mask i j := fun i hi =>
    Finset.sum_nonneg fun j hj => by
      rcases hm i j (Finset.mem_range.mp hi) (Finset.mem_range.mp hj) with h | h <;> omega
  rw [Finset.sum_eq_zero_iff_of_nonneg hnn]
  constructor
  · rintro h a b ⟨ha, hb, hab⟩
    have := h a (Finset.mem_range.mpr ha)
    rw [Finset.sum_eq_zero_iff_of_nonneg] at this
    · exact hab (this b (Finset.mem_range.mpr hb))
    · intro j hj
      rcases hm a j ha (Finset.mem_range.mp hj) with h | h <;> omega
  · intro h a ha
    apply Finset.sum_eq_zero
    intro b hb
    by_contra hab
    exact h a b ⟨Finset.mem_range.mp ha, Finset.mem_range.mp hb, hab⟩

/-- The result of the kernel, for a grid with missing points. -/
theorem poissonFill_spec (h1 : 3 ≤ nlat) (h2 : 3 ≤ nlon) (o : Opts K) (g g1 : ℕ → ℕ → K)
    (hsum : (∑ i ∈ Finset.range nlat, ∑ j ∈ Finset.range nlon, mask i j) ≠ 0)
    (hi : initializeMissing nlat nlon o.initzonal o.initzonalLinear o.cyclic o.initialValue mask g = some g1)
    (P : (ℕ → ℕ → K) → Prop) (hP : ∀ g g' r, sweep nlat nlon o.cyclic o.relaxc mask g = some (g', r) → P g → P g') (h0 : P g1) :
    ∃ g' n r, poissonFill nlat nlon o mask g = some (g', n, r) ∧ P g' ∧ n ≤ o.itermax ∧
      (o.itermax = 0 → g' = g1 ∧ n = 0 ∧ r = 0) ∧
      (o.itermax ≠ 0 → 0 < n ∧ (∃ g0, P g0 ∧ sweep nlat nlon o.cyclic o.relaxc mask g0 = some (g', r)) ∧
        (¬ r ≤ o.tolerance → n = o.itermax)) := by
  unfold poissonFill
  rw [intSum_eq]
  simp only [Option.bind_eq_bind, Option.bind_some, if_neg hsum, hi]
  obtain ⟨g', n, r, e, hg, hn, ha, hb⟩ := relaxLoop_spec h1 h2 o.cyclic o.relaxc o.tolerance P hP o.itermax g1 0 0 h0
  rw [Nat.zero_add] at hn hb
  exact ⟨g', n, r, e, hg, hn, ha, hb⟩

/-! ## C27, C30: observed values and memory safety -/

/-- C27 (and the memory safety part of C30): for every grid of at least 3 x 3 points, mask and setting, the kernel never accesses
a buffer outside its bounds, stops, and leaves every observed value unchanged. -/
theorem C27_observed_unchanged (h1 : 3 ≤ nlat) (h2 : 3 ≤ nlon) (o : Opts K) (g : ℕ → ℕ → K) :
    ∃ g' n r, poissonFill nlat nlon o mask g = some (g', n, r) ∧ ∀ a b, ¬ Missing nlat nlon mask a b → g' a b = g a b := by
  by_cases hsum : (∑ i ∈ Finset.range nlat, ∑ j ∈ Finset.range nlon, mask i j) = 0
  · refine ⟨g, 0, 0, ?_, fun _ _ _ => rfl⟩
    unfold poissonFill
    rw [intSum_eq]
    simp [hsum]
  · obtain ⟨g1, e1, hobs⟩ := init_total (nlat := nlat) (mask := mask) h2 o g
    obtain ⟨g', n, r, e, hp, -⟩ := poissonFill_spec h1 h2 o g g1 hsum e1
      (fun g' => ∀ a b, ¬ Missing nlat nlon mask a b → g' a b = g a b)
      (fun s s' r es hs a b hab => by
        obtain ⟨s1, r1, e', hfr, -⟩ := sweep_spec (cyclic := o.cyclic) (relaxc := o.relaxc) (mask := mask) h1 h2 s
        rw [es] at e'
        simp only [Option.some.injEq, Prod.mk.injEq] at e'
        obtain ⟨rfl, rfl⟩ := e'
        rw [hfr a b hab]; exact hs a b hab) hobs
    exact ⟨g', n, r, e, hp⟩

/-- C30: the four neighbours of a grid point are grid points; rows are mirrored at the edges, columns wrap (`cyclic`) or are
mirrored. -/
theorem C30_neighbours (h1 : 3 ≤ nlat) (h2 : 3 ≤ nlon) (cyclic : Bool) {i j : ℕ} (hi : i < nlat) (hj : j < nlon) :
    (latitudeIndices i nlat).1 < nlat ∧ (latitudeIndices i nlat).2 < nlat ∧
    (longitudeIndices j nlon cyclic).1 < nlon ∧ (longitudeIndices j nlon cyclic).2 < nlon ∧
    latitudeIndices i nlat = (if i = 0 then 1 else i - 1, if i + 1 = nlat then nlat - 2 else i + 1) ∧
    longitudeIndices j nlon true = ((j + nlon - 1) % nlon, (j + 1) % nlon) ∧
    longitudeIndices j nlon false = (if j = 0 then 1 else j - 1, if j + 1 = nlon then nlon - 2 else j + 1) := by
  refine ⟨(lat_lt h1 hi).1, (lat_lt h1 hi).2, (lon_lt h2 hj).1, (lon_lt h2 hj).2, ?_, ?_, ?_⟩
  · unfold latitudeIndices
    have : i = nlat - 1 ↔ i + 1 = nlat := by omega
    simp only [this]
  · unfold longitudeIndices
    simp only [if_true, Prod.mk.injEq]
    constructor
    · split
      · rw [Nat.mod_eq_of_lt (by omega)]; omega
      · rw [show j + nlon - 1 = j - 1 + nlon by omega, Nat.add_mod_right, Nat.mod_eq_of_lt (by omega)]
    · split
      · rw [show j + 1 = nlon by omega, Nat.mod_self]
      · rw [Nat.mod_eq_of_lt (by omega)]
  · unfold longitudeIndices
    have : j = nlon - 1 ↔ j + 1 = nlon := by omega
    simp [this]

example : longitudeIndices 0 5 true = (4, 1) ∧ longitudeIndices 4 5 true = (3, 0) ∧ longitudeIndices 0 5 false = (1, 1) := by decide

/-! ## C28: maximum principle -/

variable [IsStrictOrderedRing K]

/-- C28, core: whatever the initialisation, if the initial guess `g1` lies in `[lo, hi]` then so does the result after any number of
sweeps, for every relaxation constant in `[0, 1]`. -/
theorem C28_core (h1 : 3 ≤ nlat) (h2 : 3 ≤ nlon) (o : Opts K) (hr0 : 0 ≤ o.relaxc) (hr1 : o.relaxc ≤ 1) (g : ℕ → ℕ → K) {lo hi : K}
    (hinit : ∃ g1, initializeMissing nlat nlon o.initzonal o.initzonalLinear o.cyclic o.initialValue mask g = some g1 ∧
      ∀ a b, a < nlat → b < nlon → lo ≤ g1 a b ∧ g1 a b ≤ hi)
    (hsum : (∑ i ∈ Finset.range nlat, ∑ j ∈ Finset.range nlon, mask i j) ≠ 0) :
    ∃ g' n r, poissonFill nlat nlon o mask g = some (g', n, r) ∧ ∀ a b, a < nlat → b < nlon → lo ≤ g' a b ∧ g' a b ≤ hi := by
  obtain ⟨g1, e1, hb⟩ := hinit
  obtain ⟨g', n, r, e, hp, -⟩ := poissonFill_spec h1 h2 o g g1 hsum e1
    (fun g' => ∀ a b, a < nlat → b < nlon → lo ≤ g' a b ∧ g' a b ≤ hi)
    (fun s s' r es hs => by
      obtain ⟨s1, r1, e', hb⟩ := sweep_compare (cyclic := o.cyclic) (mask := mask) (lo := fun _ _ => lo) (hi := fun _ _ => hi) (g := s)
        h1 h2 hr0 hr1 (fun a b _ _ _ => (avg_const lo a b).ge) (fun a b _ _ _ => (avg_const hi a b).le) hs
      rw [es] at e'
      simp only [Option.some.injEq, Prod.mk.injEq] at e'
      obtain ⟨rfl, rfl⟩ := e'
      exact hb) hb
  exact ⟨g', n, r, e, hp⟩

/-- a ramp between two values of an interval stays in it -/
theorem ramp_bounds {x : ℕ → K} {l r t len : ℕ} {lo hi : K} (hl : lo ≤ x l ∧ x l ≤ hi) (hr : lo ≤ x r ∧ x r ≤ hi) (ht : t ≤ len)
    (hlen : 0 < len) : lo ≤ Ramp x l r t len ∧ Ramp x l r t len ≤ hi := by
  have hc : (0 : K) < len := by exact_mod_cast hlen
  have h0 : (0 : K) ≤ t / len := div_nonneg (by exact_mod_cast Nat.zero_le t) hc.le
  have h1 : (t : K) / len ≤ 1 := by rw [div_le_one hc]; exact_mod_cast ht
  have e : Ramp x l r t len = (1 - t / len) * x l + t / len * x r := by
    unfold Ramp; field_simp; ring
  rw [e]
  set w : K := (t : K) / len
  constructor <;> nlinarith [mul_nonneg h0 (sub_nonneg.mpr hr.1), mul_nonneg h0 (sub_nonneg.mpr hr.2),
    mul_nonneg (sub_nonneg.mpr h1) (sub_nonneg.mpr hl.1), mul_nonneg (sub_nonneg.mpr h1) (sub_nonneg.mpr hl.2)]

theorem ramped_bounds {n c : ℕ} {M : ℕ → Prop} {x : ℕ → K} {L : ℕ → ℕ} {v lo hi : K} (hL : ∀ s, s < n → L s < n)
    (hx : ∀ j, j < n → ¬ M j → lo ≤ x j ∧ x j ≤ hi) (hc : c < n) (h : Ramped n M x L c v) : lo ≤ v ∧ v ≤ hi := by
  rcases h with ⟨s, e, h1, h2, h3, -, h5, h6, rfl⟩ | ⟨s, e, h1, h2, -, -, h5, h6, h7⟩
  · exact ramp_bounds (hx _ (hL s (by omega)) h5) (hx e h3 h6) (by omega) (by omega)
  · rcases h7 with ⟨h7, rfl⟩ | ⟨h7, rfl⟩
    · exact ramp_bounds (hx _ (hL s h2) h5) (hx e (by omega) h6) (by omega) (by omega)
    · exact ramp_bounds (hx _ (hL s h2) h5) (hx e (by omega) h6) (by omega) (by omega)

/-- C28: maximum principle. With the relaxation constant in `[0, 1]`, any number of sweeps and the default, zonal-mean (each
latitude having an observed value) or cyclic zonal-linear initialisation, every value of the result lies between any bounds of the
observed values and of the custom initial value. -/
theorem C28_max_principle (h1 : 3 ≤ nlat) (h2 : 3 ≤ nlon) (o : Opts K) (hr0 : 0 ≤ o.relaxc) (hr1 : o.relaxc ≤ 1) (g : ℕ → ℕ → K)
    {lo hi : K} (hobs : ∀ a b, a < nlat → b < nlon → mask a b = 0 → lo ≤ g a b ∧ g a b ≤ hi)
    (hv : lo ≤ o.initialValue ∧ o.initialValue ≤ hi)
    (hmode : (o.initzonal = true ∧ ∀ a, a < nlat → ∃ b, b < nlon ∧ mask a b = 0) ∨
      (o.initzonal = false ∧ (o.initzonalLinear = true → o.cyclic = true)))
    (hm : IsMask nlat nlon mask) :
    ∃ g' n r, poissonFill nlat nlon o mask g = some (g', n, r) ∧ ∀ a b, a < nlat → b < nlon → lo ≤ g' a b ∧ g' a b ≤ hi := by
  by_cases hsum : (∑ i ∈ Finset.range nlat, ∑ j ∈ Finset.range nlon, mask i j) = 0
  · refine ⟨g, 0, 0, ?_, fun a b ha hb => hobs a b ha hb ?_⟩
    · unfold poissonFill
      rw [intSum_eq]
      simp [hsum]
    · by_contra hab
      exact (intSum_zero hm).mp hsum a b ⟨ha, hb, hab⟩
  apply C28_core h1 h2 o hr0 hr1 g _ hsum
  unfold initializeMissing
  rcases hmode with ⟨hz, hrow⟩ | ⟨hz, hcyc⟩
  · rw [if_pos hz]
    obtain ⟨g', e, h⟩ := initZonal_eq (nlat := nlat) (nlon := nlon) (mask := mask) g
    refine ⟨g', e, fun a b ha hb => ?_⟩
    rw [h]
    by_cases hab : mask a b = 0
    · rw [if_neg (by tauto)]; exact hobs a b ha hb hab
    · obtain ⟨b0, hb0, hb0'⟩ := hrow a ha
      have hne : (obs nlon mask a).Nonempty := ⟨b0, by simp [obs, hb0, hb0']⟩
      rw [if_pos ⟨ha, hb, hab, hne⟩]
      have hc : (0 : K) < ((obs nlon mask a).card : K) := by exact_mod_cast Finset.card_pos.mpr hne
      have hmem : ∀ j ∈ obs nlon mask a, lo ≤ g a j ∧ g a j ≤ hi := by
        intro j hj
        simp only [obs, Finset.mem_filter, Finset.mem_range] at hj
        exact hobs a j ha hj.1 hj.2
      have l := Finset.card_nsmul_le_sum _ _ lo fun j hj => (hmem j hj).1
      have u := Finset.sum_le_card_nsmul _ _ hi fun j hj => (hmem j hj).2
      rw [nsmul_eq_mul] at l u
      exact ⟨by rw [le_div_iff₀ hc, mul_comm]; exact l, by rw [div_le_iff₀ hc, mul_comm]; exact u⟩
  · rw [if_neg (by simp [hz])]
    cases hl : o.initzonalLinear
    · obtain ⟨g', e, h⟩ := initConst_eq (nlat := nlat) (nlon := nlon) (mask := mask) o.initialValue g
      refine ⟨g', by simpa using e, fun a b ha hb => ?_⟩
      rw [h]
      by_cases hab : mask a b = 0
      · rw [if_neg (by tauto)]; exact hobs a b ha hb hab
      · rw [if_pos ⟨ha, hb, hab⟩]; exact hv
    · have hcy := hcyc hl
      obtain ⟨g', e, -, h⟩ := initZonalLinear_eq (nlat := nlat) (mask := mask) (cyclic := o.cyclic) h2 o.initialValue g
      refine ⟨g', by simpa using e, fun a b ha hb => ?_⟩
      have hR := h a ha
      by_cases hab : mask a b = 0
      · rw [hR.observed b (by tauto)]; exact hobs a b ha hb hab
      · by_cases hs : ∃ c, c < nlon ∧ mask a c ≠ 0 ∧ mask a (longitudeIndices c nlon o.cyclic).1 = 0
        · have := hR.ramped hs (by rw [hcy]; rfl) b hb hab
          exact ramped_bounds (fun s hs => (lon_lt h2 hs).1) (fun j hj hM => hobs a j ha hj (by simpa using hM)) hb this
        · push Not at hs
          rw [hR.noStart hs b hb hab]; exact hv

/-! ## C29: convergence report -/

/-- C29: a grid without missing points comes back unchanged after 0 iterations with residual 0 (so `fill` reports it converged for
every `eps ≥ 0`). -/
theorem C29_nothing_missing (o : Opts K) (g : ℕ → ℕ → K) (hm : ∀ a b, ¬ Missing nlat nlon mask a b) :
    poissonFill nlat nlon o mask g = some (g, 0, 0) := by
  have : (∑ i ∈ Finset.range nlat, ∑ j ∈ Finset.range nlon, mask i j) = 0 :=
    Finset.sum_eq_zero fun a ha => Finset.sum_eq_zero fun b hb => by
      by_contra hab
      exact hm a b ⟨Finset.mem_range.mp ha, Finset.mem_range.mp hb, hab⟩
  unfold poissonFill
  rw [intSum_eq]
  simp [this]

/-- C29: with at least one missing point and `itermax ≥ 1`, between 1 and `itermax` sweeps are made; the reported residual is the
largest change of the last sweep; and if the run is reported converged (residual not above `tolerance`), every missing point
changed by at most `tolerance` in that sweep. If it is not, all `itermax` sweeps were made. -/
theorem C29_converged (h1 : 3 ≤ nlat) (h2 : 3 ≤ nlon) (o : Opts K) (hit : 1 ≤ o.itermax) (g : ℕ → ℕ → K) (hm : IsMask nlat nlon mask)
    (hmiss : ∃ a b, Missing nlat nlon mask a b) :
    ∃ g' n r, poissonFill nlat nlon o mask g = some (g', n, r) ∧ 1 ≤ n ∧ n ≤ o.itermax ∧ (¬ r ≤ o.tolerance → n = o.itermax) ∧
      ∃ gprev, sweep nlat nlon o.cyclic o.relaxc mask gprev = some (g', r) ∧
        (∀ a b, Missing nlat nlon mask a b → |g' a b - gprev a b| ≤ r) ∧
        (r ≤ o.tolerance → ∀ a b, Missing nlat nlon mask a b → |g' a b - gprev a b| ≤ o.tolerance) ∧
        (r = 0 ∨ ∃ a b, Missing nlat nlon mask a b ∧ |g' a b - gprev a b| = r) := by
  have hsum : (∑ i ∈ Finset.range nlat, ∑ j ∈ Finset.range nlon, mask i j) ≠ 0 := by
    rw [Ne, intSum_zero hm]
    push Not
    exact hmiss
  obtain ⟨g1, e1, -⟩ := init_total (nlat := nlat) (mask := mask) h2 o g
  obtain ⟨g', n, r, e, -, hn, -, h⟩ := poissonFill_spec h1 h2 o g g1 hsum e1 (fun _ => True) (fun _ _ _ _ _ => trivial) trivial
  obtain ⟨ha, ⟨g0, -, es⟩, hb⟩ := h (by omega)
  obtain ⟨s1, r1, e', -, -, p0, hch, hmax⟩ := sweep_spec (cyclic := o.cyclic) (relaxc := o.relaxc) (mask := mask) h1 h2 g0
  rw [es] at e'
  simp only [Option.some.injEq, Prod.mk.injEq] at e'
  obtain ⟨rfl, rfl⟩ := e'
  refine ⟨g', n, r, e, ha, hn, hb, g0, es, fun a b hab => hch a b hab.1 hab.2.1 hab.2.2,
    fun hle a b hab => le_trans (hch a b hab.1 hab.2.1 hab.2.2) hle, ?_⟩
  rcases hmax with h | ⟨a, b, h1, h2, h3, h4⟩
  · exact Or.inl h
  · exact Or.inr ⟨a, b, ⟨h1, h2, h3⟩, h4⟩

/-- C29: what a converged run guarantees about the equation that is solved. If at least one sweep was allowed and the run is
reported converged, then at every missing point the result differs from the mean of its four neighbours by at most
`tolerance / relax`. -/
theorem C29_solves_equation (h1 : 3 ≤ nlat) (h2 : 3 ≤ nlon) (o : Opts K) (hr0 : 0 < o.relaxc) (hr1 : o.relaxc ≤ 1)
    (hit : 1 ≤ o.itermax) (g : ℕ → ℕ → K) (hm : IsMask nlat nlon mask) {g' : ℕ → ℕ → K} {n : ℕ} {r : K}
    (e : poissonFill nlat nlon o mask g = some (g', n, r)) (hconv : r ≤ o.tolerance) :
    ∀ a b, Missing nlat nlon mask a b → |Spec.avg nlat nlon o.cyclic g' a b - g' a b| ≤ o.tolerance / o.relaxc := by
  intro a b hab
  obtain ⟨g2, n2, r2, e2, -, -, -, gp, es, -⟩ := C29_converged h1 h2 o hit g hm ⟨a, b, hab⟩
  rw [e] at e2
  simp only [Option.some.injEq, Prod.mk.injEq] at e2
  obtain ⟨rfl, rfl, rfl⟩ := e2
  exact le_trans (sweep_residual h1 h2 hr0 hr1 es a b hab.1 hab.2.1 hab.2.2) (div_le_div_of_nonneg_right hconv hr0.le)

/-- With `itermax = 0` the kernel reports residual 0, so `fill` says "converged" although nothing was relaxed. -/
theorem C29_itermax_zero (h1 : 3 ≤ nlat) (h2 : 3 ≤ nlon) (o : Opts K) (hit : o.itermax = 0) (g : ℕ → ℕ → K) :
    ∃ g', poissonFill nlat nlon o mask g = some (g', 0, 0) := by
  by_cases hsum : (∑ i ∈ Finset.range nlat, ∑ j ∈ Finset.range nlon, mask i j) = 0
  · refine ⟨g, ?_⟩
    unfold poissonFill
    rw [intSum_eq]
    simp [hsum]
  · obtain ⟨g1, e1, -⟩ := init_total (nlat := nlat) (mask := mask) h2 o g
    obtain ⟨g', n, r, e, -, -, h, -⟩ := poissonFill_spec h1 h2 o g g1 hsum e1 (fun _ => True) (fun _ _ _ _ _ => trivial) trivial
    obtain ⟨rfl, rfl, rfl⟩ := h hit
    exact ⟨g', e⟩

/-! ## C31: initial guesses -/

/-- the initial guess = the result with `itermax = 0` -/
theorem itermax_zero_init (h1 : 3 ≤ nlat) (h2 : 3 ≤ nlon) (o : Opts K) (hit : o.itermax = 0) (g g1 : ℕ → ℕ → K)
    (hm : IsMask nlat nlon mask) (hmiss : ∃ a b, Missing nlat nlon mask a b)
    (hi : initializeMissing nlat nlon o.initzonal o.initzonalLinear o.cyclic o.initialValue mask g = some g1) :
    poissonFill nlat nlon o mask g = some (g1, 0, 0) := by
  have hsum : (∑ i ∈ Finset.range nlat, ∑ j ∈ Finset.range nlon, mask i j) ≠ 0 := by
    rw [Ne, intSum_zero hm]
    push Not
    exact hmiss
  obtain ⟨g', n, r, e, -, -, h, -⟩ := poissonFill_spec h1 h2 o g g1 hsum hi (fun _ => True) (fun _ _ _ _ _ => trivial) trivial
  obtain ⟨rfl, rfl, rfl⟩ := h hit
  exact e

/-- C31, default initialisation: the guess at every missing point is the custom initial value. -/
theorem C31_constant (h1 : 3 ≤ nlat) (h2 : 3 ≤ nlon) (o : Opts K) (hit : o.itermax = 0) (hz : o.initzonal = false)
    (hl : o.initzonalLinear = false) (g : ℕ → ℕ → K) (hm : IsMask nlat nlon mask) (hmiss : ∃ a b, Missing nlat nlon mask a b) :
    ∃ g1, poissonFill nlat nlon o mask g = some (g1, 0, 0) ∧ ∀ a b, Missing nlat nlon mask a b → g1 a b = o.initialValue := by
  obtain ⟨g', e, h⟩ := initConst_eq (nlat := nlat) (nlon := nlon) (mask := mask) o.initialValue g
  refine ⟨g', itermax_zero_init h1 h2 o hit g g' hm hmiss (by simp [initializeMissing, hz, hl, e]), fun a b hab => ?_⟩
  rw [h]; exact if_pos hab

/-- C31, zonal-mean initialisation: on a latitude with at least one observed value, the guess at every missing point is the mean of
the observed values of that latitude. (On a latitude without any, the filler survives: `C31_false`.) -/
theorem C31_zonal_mean_partial (h1 : 3 ≤ nlat) (h2 : 3 ≤ nlon) (o : Opts K) (hit : o.itermax = 0) (hz : o.initzonal = true)
    (g : ℕ → ℕ → K) (hm : IsMask nlat nlon mask) (hmiss : ∃ a b, Missing nlat nlon mask a b) :
    ∃ g1, poissonFill nlat nlon o mask g = some (g1, 0, 0) ∧ ∀ a b, Missing nlat nlon mask a b → (∃ c, c < nlon ∧ mask a c = 0) →
      g1 a b = (∑ c ∈ (Finset.range nlon).filter (fun c => mask a c = 0), g a c) /
        (((Finset.range nlon).filter (fun c => mask a c = 0)).card : K) := by
  obtain ⟨g', e, h⟩ := initZonal_eq (nlat := nlat) (nlon := nlon) (mask := mask) g
  refine ⟨g', itermax_zero_init h1 h2 o hit g g' hm hmiss (by simp [initializeMissing, hz, e]), fun a b hab hc => ?_⟩
  obtain ⟨c, hc, hc'⟩ := hc
  rw [h, if_pos ⟨hab.1, hab.2.1, hab.2.2, ⟨c, by simp [obs, hc, hc']⟩⟩]
  rfl

/-- `l` and `r` steps away from column `c`, to the left and to the right around a cyclic row of `n` columns, are the nearest
observed columns. -/
structure Spec.Bracket (n : ℕ) (m : ℕ → ℤ) (c l r : ℕ) : Prop where
  lpos : 1 ≤ l
  lle : l ≤ n
  lmiss : ∀ d, d < l → m ((c + n - d) % n) ≠ 0
  lobs : m ((c + n - l) % n) = 0
  rpos : 1 ≤ r
  rle : r ≤ n
  rmiss : ∀ d, d < r → m ((c + d) % n) ≠ 0
  robs : m ((c + r) % n) = 0

omit [IsStrictOrderedRing K] in
theorem ramped_bracket {n c : ℕ} {m : ℕ → ℤ} {x : ℕ → K} {v : K} (hn : 3 ≤ n) (hc : c < n)
    (h : Ramped n (fun c => m c ≠ 0) x (fun c => (longitudeIndices c n true).1) c v) :
    ∃ l r, Spec.Bracket n m c l r ∧ v = ((l - 1 : ℕ) : K) * (x ((c + r) % n) - x ((c + n - l) % n)) / ((l + r - 1 : ℕ) : K) + x ((c + n - l) % n) := by
  have hL : ∀ s, s < n → (longitudeIndices s n true).1 = (s + n - 1) % n := fun s hs =>
    congrArg Prod.fst (C30_neighbours (nlat := 3) le_rfl hn true (i := 0) (by omega) hs).2.2.2.2.2.1
  rcases h with ⟨s, e, h1, h2, h3, h4, h5, h6, rfl⟩ | ⟨s, e, h1, h2, h3, h4, h5, h6, h7⟩
  · beta_reduce at h4 h5 h6 ⊢
    rw [hL s (by omega)] at h5 ⊢
    refine ⟨c - s + 1, e - c, ⟨by omega, by omega, ?_, ?_, by omega, by omega, ?_, ?_⟩, ?_⟩
    · intro d hd
      rw [show c + n - d = c - d + n by omega, Nat.add_mod_right, Nat.mod_eq_of_lt (by omega)]
      exact h4 _ (by omega) (by omega)
    · rw [show c + n - (c - s + 1) = s + n - 1 by omega]; simpa using h5
    · intro d hd
      rw [Nat.mod_eq_of_lt (by omega)]
      exact h4 _ (by omega) (by omega)
    · rw [show c + (e - c) = e by omega, Nat.mod_eq_of_lt h3]; simpa using h6
    · unfold Ramp
      rw [show c - s + 1 - 1 = c - s by omega, show c + (e - c) = e by omega, Nat.mod_eq_of_lt h3,
        show c + n - (c - s + 1) = s + n - 1 by omega, show c - s + 1 + (e - c) - 1 = e - s by omega]
  · beta_reduce at h3 h4 h5 h6 h7
    rw [hL s h2] at h5
    rcases h7 with ⟨h7, rfl⟩ | ⟨h7, rfl⟩
    · rw [hL s h2]
      have hmod : (c + (n - c + e)) % n = e := by
        rw [show c + (n - c + e) = e + n by omega, Nat.add_mod_right, Nat.mod_eq_of_lt (by omega)]
      refine ⟨c - s + 1, n - c + e, ⟨by omega, by omega, ?_, ?_, by omega, by omega, ?_, ?_⟩, ?_⟩
      · intro d hd
        rw [show c + n - d = c - d + n by omega, Nat.add_mod_right, Nat.mod_eq_of_lt (by omega)]
        exact h3 _ (by omega) (by omega)
      · rw [show c + n - (c - s + 1) = s + n - 1 by omega]; simpa using h5
      · intro d hd
        rcases Nat.lt_or_ge (c + d) n with h | h
        · rw [Nat.mod_eq_of_lt h]; exact h3 _ (by omega) h
        · rw [show c + d = c + d - n + n by omega, Nat.add_mod_right, Nat.mod_eq_of_lt (by omega)]
          exact h4 _ (by omega)
      · rw [hmod]; simpa using h6
      · unfold Ramp
        rw [hmod, show c - s + 1 - 1 = c - s by omega, show c + n - (c - s + 1) = s + n - 1 by omega,
          show c - s + 1 + (n - c + e) - 1 = n - s + e by omega]
    · rw [hL s h2]
      have hlm : c + n - (n - s + c + 1) = s - 1 := by omega
      have hs0 : 1 ≤ s := by omega
      have hsm : (s + n - 1) % n = s - 1 := by
        rw [show s + n - 1 = s - 1 + n by omega, Nat.add_mod_right, Nat.mod_eq_of_lt (by omega)]
      rw [hsm] at h5 ⊢
      refine ⟨n - s + c + 1, e - c, ⟨by omega, by omega, ?_, ?_, by omega, by omega, ?_, ?_⟩, ?_⟩
      · intro d hd
        rcases Nat.lt_or_ge c d with h | h
        · rw [Nat.mod_eq_of_lt (by omega)]; exact h3 _ (by omega) (by omega)
        · rw [show c + n - d = c - d + n by omega, Nat.add_mod_right, Nat.mod_eq_of_lt (by omega)]
          exact h4 _ (by omega)
      · rw [hlm, Nat.mod_eq_of_lt (by omega)]; simpa using h5
      · intro d hd
        rw [Nat.mod_eq_of_lt (by omega)]; exact h4 _ (by omega)
      · rw [show c + (e - c) = e by omega, Nat.mod_eq_of_lt (by omega)]; simpa using h6
      · unfold Ramp
        rw [hlm, Nat.mod_eq_of_lt (show s - 1 < n by omega), show c + (e - c) = e by omega, Nat.mod_eq_of_lt (show e < n by omega),
          show n - s + c + 1 - 1 = n - s + c by omega, show n - s + c + 1 + (e - c) - 1 = n - s + e by omega]

theorem bracket_unique {n c l r l' r' : ℕ} {m : ℕ → ℤ} (h : Spec.Bracket n m c l r) (h' : Spec.Bracket n m c l' r') : l = l' ∧ r = r' := by
  constructor
  · rcases Nat.lt_trichotomy l l' with hh | hh | hh
    · exact absurd h.lobs (h'.lmiss l hh)
    · exact hh
    · exact absurd h'.lobs (h.lmiss l' hh)
  · rcases Nat.lt_trichotomy r r' with hh | hh | hh
    · exact absurd h.robs (h'.rmiss r hh)
    · exact hh
    · exact absurd h'.robs (h.rmiss r' hh)

/-- C31, zonal-linear initialisation of a cyclic grid: a missing point `l` columns to the right of the nearest observed column on
its left (value `A`) and `r` columns to the left of the nearest observed column on its right (value `B`), going around the latitude
circle, starts from `A + (l - 1) (B - A) / (l + r - 1)`; on a latitude without observed values it starts from the custom initial
value. -/
theorem C31_zonal_linear_cyclic (h1 : 3 ≤ nlat) (h2 : 3 ≤ nlon) (o : Opts K) (hit : o.itermax = 0) (hz : o.initzonal = false)
    (hl : o.initzonalLinear = true) (hc : o.cyclic = true) (g : ℕ → ℕ → K) (hm : IsMask nlat nlon mask)
    (hmiss : ∃ a b, Missing nlat nlon mask a b) :
    ∃ g1, poissonFill nlat nlon o mask g = some (g1, 0, 0) ∧ ∀ a b, Missing nlat nlon mask a b →
      (∀ l r, Spec.Bracket nlon (mask a) b l r →
        g1 a b = g a ((b + nlon - l) % nlon) +
          ((l : K) - 1) * (g a ((b + r) % nlon) - g a ((b + nlon - l) % nlon)) / ((l : K) + (r : K) - 1)) ∧
      ((∀ c, c < nlon → mask a c ≠ 0) → g1 a b = o.initialValue) := by
  obtain ⟨g', e, -, h⟩ := initZonalLinear_eq (nlat := nlat) (mask := mask) (cyclic := o.cyclic) h2 o.initialValue g
  refine ⟨g', itermax_zero_init h1 h2 o hit g g' hm hmiss (by simp [initializeMissing, hz, hl, e]), fun a b hab => ?_⟩
  have hR := h a hab.1
  rw [hc] at hR
  constructor
  · intro l r hB
    have hstart : ∃ c, c < nlon ∧ mask a c ≠ 0 ∧ mask a (longitudeIndices c nlon true).1 = 0 := by
      refine ⟨(b + nlon - (l - 1)) % nlon, Nat.mod_lt _ (by omega), hB.lmiss (l - 1) (by have := hB.lpos; omega), ?_⟩
      have e1 := congrArg Prod.fst (C30_neighbours (nlat := 3) le_rfl h2 true (i := 0) (by omega)
        (Nat.mod_lt (b + nlon - (l - 1)) (show 0 < nlon by omega))).2.2.2.2.2.1
      simp only at e1
      rw [e1]
      have : ((b + nlon - (l - 1)) % nlon + nlon - 1) % nlon = (b + nlon - l) % nlon := by
        have hb := hab.2.1
        have := hB.lpos
        have := hB.lle
        rcases Nat.lt_or_ge (b + nlon - (l - 1)) nlon with hlt | hge
        · rw [Nat.mod_eq_of_lt hlt, show b + nlon - (l - 1) + nlon - 1 = b + nlon - l + nlon by omega, Nat.add_mod_right]
        · rw [show b + nlon - (l - 1) = b - (l - 1) + nlon by omega, Nat.add_mod_right, Nat.mod_eq_of_lt (show b - (l - 1) < nlon by omega)]
          congr 1; omega
      rw [this]; exact hB.lobs
    obtain ⟨l', r', hB', hv⟩ := ramped_bracket h2 hab.2.1 (hR.ramped hstart (by rfl) b hab.2.1 hab.2.2)
    obtain ⟨rfl, rfl⟩ := bracket_unique hB hB'
    rw [hv, Nat.cast_sub hB.lpos, Nat.cast_sub (by have := hB.lpos; omega)]
    push_cast
    ring
  · intro hall
    exact hR.noStart (fun c hc _ => hall _ (lon_lt h2 hc).1) b hab.2.1 hab.2.2

/-- C31, zonal-linear initialisation of a non-cyclic grid, partial: when on a latitude column 1 and the last column are both
observed or both missing, the guess at every missing point of that latitude lies between two observed values of the latitude, or is
the custom initial value. (Otherwise the filler survives: `C31_false`.) -/
theorem C31_zonal_linear_noncyclic_partial (h1 : 3 ≤ nlat) (h2 : 3 ≤ nlon) (o : Opts K) (hit : o.itermax = 0) (hz : o.initzonal = false)
    (hl : o.initzonalLinear = true) (hc : o.cyclic = false) (g : ℕ → ℕ → K) (hm : IsMask nlat nlon mask)
    (hmiss : ∃ a b, Missing nlat nlon mask a b) :
    ∃ g1, poissonFill nlat nlon o mask g = some (g1, 0, 0) ∧ ∀ a b, Missing nlat nlon mask a b → (mask a 1 = 0 ↔ mask a (nlon - 1) = 0) →
      g1 a b = o.initialValue ∨ ∃ c d, c < nlon ∧ d < nlon ∧ mask a c = 0 ∧ mask a d = 0 ∧ g a c ≤ g1 a b ∧ g1 a b ≤ g a d := by
  obtain ⟨g', e, -, h⟩ := initZonalLinear_eq (nlat := nlat) (mask := mask) (cyclic := o.cyclic) h2 o.initialValue g
  refine ⟨g', itermax_zero_init h1 h2 o hit g g' hm hmiss (by simp [initializeMissing, hz, hl, e]), fun a b hab hiff => ?_⟩
  have hR := h a hab.1
  rw [hc] at hR
  by_cases hs : ∃ c, c < nlon ∧ mask a c ≠ 0 ∧ mask a (longitudeIndices c nlon false).1 = 0
  · right
    have hr := hR.ramped hs (by simpa [longitudeIndices] using hiff) b hab.2.1 hab.2.2
    have key : ∀ p q, p < nlon → q < nlon → mask a p = 0 → mask a q = 0 → (min (g a p) (g a q) ≤ g' a b ∧ g' a b ≤ max (g a p) (g a q)) →
        ∃ c d, c < nlon ∧ d < nlon ∧ mask a c = 0 ∧ mask a d = 0 ∧ g a c ≤ g' a b ∧ g' a b ≤ g a d := by
      intro p q hp hq mp mq hh
      rcases le_total (g a p) (g a q) with hle | hle
      · exact ⟨p, q, hp, hq, mp, mq, by rw [min_eq_left hle] at hh; exact hh.1, by rw [max_eq_right hle] at hh; exact hh.2⟩
      · exact ⟨q, p, hq, hp, mq, mp, by rw [min_eq_right hle] at hh; exact hh.1, by rw [max_eq_left hle] at hh; exact hh.2⟩
    have bnd : ∀ p q t len, t ≤ len → 0 < len → (min (g a p) (g a q) ≤ Ramp (g a) p q t len ∧ Ramp (g a) p q t len ≤ max (g a p) (g a q)) :=
      fun p q t len ht hlen => ramp_bounds ⟨min_le_left _ _, le_max_left _ _⟩ ⟨min_le_right _ _, le_max_right _ _⟩ ht hlen
    have hb := hab.2.1
    rcases hr with ⟨s, e, h1', h2', h3', -, h5, h6, hv⟩ | ⟨s, e, h1', h2', -, -, h5, h6, h7⟩
    · refine key _ e (lon_lt (c := false) h2 (show s < nlon by omega)).1 h3' (by simpa using h5) (by simpa using h6) ?_
      rw [hv]; exact bnd _ _ _ _ (by omega) (by omega)
    · refine key _ e (lon_lt (c := false) h2 h2').1 (by omega) (by simpa using h5) (by simpa using h6) ?_
      rcases h7 with ⟨h7, hv⟩ | ⟨h7, hv⟩
      · rw [hv]; exact bnd _ _ _ _ (by omega) (by omega)
      · rw [hv]; exact bnd _ _ _ _ (by omega) (by omega)
  · left
    push Not at hs
    exact hR.noStart hs b hab.2.1 hab.2.2

/-- C31 is false of the code. With all observed values 0 and the missing points holding the filler `F` (1e20 in `fill`), the guess
at a missing point can be `F` itself: (1) zonal-mean initialisation and a latitude without observed values; (2) zonal-linear
initialisation of a non-cyclic grid, missing column 1 between observed columns 0 and 2. -/
theorem C31_false (F : K) :
    (∃ mask g1, IsMask 3 3 mask ∧ mask 0 0 = 1 ∧
      poissonFill 3 3 (⟨0, 0, 0, false, true, false, 0⟩ : Opts K) mask (fun a b => if mask a b = 0 then 0 else F) = some (g1, 0, 0) ∧ g1 0 0 = F) ∧
    (∃ mask g1, IsMask 3 3 mask ∧ mask 0 0 = 0 ∧ mask 0 1 = 1 ∧ mask 0 2 = 0 ∧
      poissonFill 3 3 (⟨0, 0, 0, false, false, true, 0⟩ : Opts K) mask (fun a b => if mask a b = 0 then 0 else F) = some (g1, 0, 0) ∧ g1 0 1 = F) := by
  constructor
  · refine ⟨fun a _ => if a = 0 then 1 else 0, ?_⟩
    obtain ⟨g', e, h⟩ := initZonal_eq (nlat := 3) (nlon := 3) (mask := fun a _ => if a = 0 then 1 else 0)
      (fun a b => if (fun a _ => if a = 0 then (1 : ℤ) else 0) a b = 0 then 0 else F : ℕ → ℕ → K)
    refine ⟨g', fun a b _ _ => ?_, rfl, itermax_zero_init le_rfl le_rfl _ rfl _ g' (fun a b _ _ => ?_) ⟨0, 0, by simp [Missing]⟩ (by simpa [initializeMissing] using e), ?_⟩
    · by_cases h : a = 0 <;> simp [h]
    · by_cases h : a = 0 <;> simp [h]
    · rw [h, if_neg (by simp [obs])]; simp
  · refine ⟨fun a b => if a = 0 ∧ b = 1 then 1 else 0, ?_⟩
    obtain ⟨g', e, -, h⟩ := initZonalLinear_eq (nlat := 3) (mask := fun a b => if a = 0 ∧ b = 1 then 1 else 0) (cyclic := false)
      (nlon := 3) le_rfl (0 : K) (fun a b => if (fun a b => if a = 0 ∧ b = 1 then (1 : ℤ) else 0) a b = 0 then 0 else F)
    refine ⟨g', fun a b _ _ => ?_, by simp, by simp, by simp,
      itermax_zero_init le_rfl le_rfl _ rfl _ g' (fun a b _ _ => ?_) ⟨0, 1, by simp [Missing]⟩ (by simpa [initializeMissing] using e), ?_⟩
    · by_cases h : a = 0 ∧ b = 1 <;> simp [h]
    · by_cases h : a = 0 ∧ b = 1 <;> simp [h]
    · rw [(h 0 (by omega)).untouched ⟨1, by omega, by simp, by simp [longitudeIndices]⟩ (by simp [longitudeIndices])]; simp

/-- the hypotheses of C28, C29 and C31 are met by a 3 x 4 grid with a hole -/
example : ∃ mask : ℕ → ℕ → ℤ, IsMask 3 4 mask ∧ (∃ a b, Missing 3 4 mask a b) ∧ (∀ a, a < 3 → ∃ b, b < 4 ∧ mask a b = 0) ∧
    Spec.Bracket 4 (mask 1) 2 2 2 := by
  refine ⟨fun a b => if a = 1 ∧ 1 ≤ b then 1 else 0, fun a b _ _ => ?_, ⟨1, 2, by simp [Missing]⟩, fun a _ => ⟨0, by omega, by simp⟩, ?_⟩
  · by_cases h : a = 1 ∧ 1 ≤ b <;> simp [h]
  · refine ⟨by omega, by omega, fun d hd => ?_, by simp, by omega, by omega, fun d hd => ?_, by simp⟩ <;>
      have : d = 0 ∨ d = 1 := by omega
    all_goals rcases this with rfl | rfl <;> simp

end Skyborn.Gridfill
