/- C116: `phaseran` surrogates. -/
import Verif.Stats.Model
import Mathlib.RingTheory.RootsOfUnity.Complex
import Mathlib.Algebra.BigOperators.Field
import Mathlib.Tactic.Ring
import Mathlib.Tactic.Linarith
import Mathlib.Tactic.FieldSimp
import Mathlib.Tactic.NormNum

namespace Skyborn.Stats
open scoped BigOperators

/-- the `m`-th roots of unity -/
noncomputable def E (m : ℕ) (z : ℤ) : ℂ := Complex.exp (2 * Real.pi * Complex.I * z / m)

theorem E_add (m : ℕ) (a b : ℤ) : E m (a + b) = E m a * E m b := by
  unfold E; rw [← Complex.exp_add]; congr 1; push_cast; ring

theorem E_zero (m : ℕ) : E m 0 = 1 := by unfold E; simp

theorem E_mul {m : ℕ} (hm : 0 < m) (a : ℤ) : E m (m * a) = 1 := by
  unfold E
  have hm' : (m : ℂ) ≠ 0 := by exact_mod_cast hm.ne'
  rw [show 2 * (Real.pi : ℂ) * Complex.I * ((m * a : ℤ) : ℂ) / m = a * (2 * Real.pi * Complex.I) by push_cast; field_simp]
  exact Complex.exp_int_mul_two_pi_mul_I a

theorem E_conj (m : ℕ) (a : ℤ) : (starRingEnd ℂ) (E m a) = E m (-a) := by
  unfold E
  rw [← Complex.exp_conj]
  congr 1
  simp only [map_div₀, map_mul, Complex.conj_ofReal, Complex.conj_I, map_intCast, map_natCast, map_ofNat]
  push_cast
  ring

theorem E_ne_one {m : ℕ} (hm : 0 < m) {a : ℤ} (h : ¬ (m : ℤ) ∣ a) : E m a ≠ 1 := by
  intro h1
  unfold E at h1
  rw [Complex.exp_eq_one_iff] at h1
  obtain ⟨n, hn⟩ := h1
  have hm' : (m : ℂ) ≠ 0 := by exact_mod_cast hm.ne'
  have hpi : (2 * (Real.pi : ℂ) * Complex.I) ≠ 0 := Complex.two_pi_I_ne_zero
  have h2 : (a : ℂ) / m = n := by
    have : 2 * (Real.pi : ℂ) * Complex.I * ((a : ℂ) / m) = 2 * Real.pi * Complex.I * n := by rw [← mul_div_assoc, hn]; ring
    exact mul_left_cancel₀ hpi this
  rw [div_eq_iff hm'] at h2
  apply h
  refine ⟨n, ?_⟩
  have : (a : ℂ) = ((n * m : ℤ) : ℂ) := by rw [h2]; push_cast; ring
  rw [mul_comm]
  exact_mod_cast this

theorem E_sum {m : ℕ} (hm : 0 < m) (a : ℤ) : ∑ t ∈ Finset.range m, E m (a * t) = if (m : ℤ) ∣ a then (m : ℂ) else 0 := by
  have hp : ∀ t : ℕ, E m (a * t) = E m a ^ t := by
    intro t
    induction t with
    | zero => simp [E_zero]
    | succ t ih => rw [pow_succ, ← ih, ← E_add]; congr 1; push_cast; ring
  split_ifs with h
  · obtain ⟨c, rfl⟩ := h
    have e1 : ∀ t ∈ Finset.range m, E m (m * c * (t : ℤ)) = 1 := fun t _ => by rw [mul_assoc, E_mul hm]
    rw [Finset.sum_congr rfl e1]
    simp
  · have h1 := E_ne_one hm h
    have h2 : (E m a) ^ m = 1 := by
      rw [← hp m, mul_comm, E_mul hm]
    simp only [hp]
    rw [geom_sum_eq h1, h2, sub_self, zero_div]

theorem fft_eq (m : ℕ) (x : ℕ → ℂ) (k : ℕ) : fft m x k = ∑ t ∈ Finset.range m, x t * E m (-(k * t)) := by
  unfold fft E
  refine Finset.sum_congr rfl fun t _ => ?_
  congr 2; push_cast; ring

theorem ifft_eq (m : ℕ) (X : ℕ → ℂ) (t : ℕ) : ifft m X t = (∑ k ∈ Finset.range m, X k * E m (k * t)) / m := by
  unfold ifft E
  congr 1
  refine Finset.sum_congr rfl fun k _ => ?_
  congr 2; push_cast; ring

theorem dvd_sub_iff {m k l : ℕ} (hk : k < m) (hl : l < m) : (m : ℤ) ∣ (l : ℤ) - k ↔ l = k := by
  constructor
  · rintro ⟨c, hc⟩
    have : c = 0 := by
      by_contra h
      rcases lt_or_gt_of_ne h with h | h <;> nlinarith
    subst this
    omega
  · rintro rfl; simp

/-- The transform of an inverse transform. -/
theorem fft_ifft {m : ℕ} (X : ℕ → ℂ) {k : ℕ} (hk : k < m) : fft m (ifft m X) k = X k := by
  have hm : 0 < m := by omega
  have hm' : (m : ℂ) ≠ 0 := by exact_mod_cast hm.ne'
  rw [fft_eq]
  simp only [ifft_eq]
  have e : ∀ t ∈ Finset.range m, (∑ l ∈ Finset.range m, X l * E m (l * t)) / m * E m (-(k * t)) =
      ∑ l ∈ Finset.range m, X l / m * E m (((l : ℤ) - k) * t) := by
    intro t _
    rw [Finset.sum_div, Finset.sum_mul]
    refine Finset.sum_congr rfl fun l _ => ?_
    rw [show ((l : ℤ) - k) * t = l * t + -(k * t) by ring, E_add]
    ring
  rw [Finset.sum_congr rfl e, Finset.sum_comm]
  have e2 : ∀ l ∈ Finset.range m, ∑ t ∈ Finset.range m, X l / m * E m (((l : ℤ) - k) * t) = if l = k then X l else 0 := by
    intro l hl
    rw [← Finset.mul_sum, E_sum hm]
    by_cases h : l = k
    · rw [if_pos ((dvd_sub_iff hk (Finset.mem_range.mp hl)).mpr h), if_pos h]; field_simp
    · rw [if_neg (fun h2 => h ((dvd_sub_iff hk (Finset.mem_range.mp hl)).mp h2)), if_neg h, mul_zero]
  rw [Finset.sum_congr rfl e2, Finset.sum_ite_eq' (Finset.range m) k X, if_pos (Finset.mem_range.mpr hk)]

/-- The inverse transform of a transform. -/
theorem ifft_fft {m : ℕ} (x : ℕ → ℂ) {t : ℕ} (ht : t < m) : ifft m (fft m x) t = x t := by
  have hm : 0 < m := by omega
  have hm' : (m : ℂ) ≠ 0 := by exact_mod_cast hm.ne'
  rw [ifft_eq]
  simp only [fft_eq]
  have e : ∀ k ∈ Finset.range m, (∑ s ∈ Finset.range m, x s * E m (-(k * s))) * E m (k * t) =
      ∑ s ∈ Finset.range m, x s * E m (((t : ℤ) - s) * k) := by
    intro k _
    rw [Finset.sum_mul]
    refine Finset.sum_congr rfl fun l _ => ?_
    rw [show ((t : ℤ) - l) * k = -(k * l) + k * t by ring, E_add]
    ring
  rw [Finset.sum_congr rfl e, Finset.sum_comm]
  have e2 : ∀ s ∈ Finset.range m, ∑ k ∈ Finset.range m, x s * E m (((t : ℤ) - s) * k) = if s = t then x s * m else 0 := by
    intro s hs
    rw [← Finset.mul_sum, E_sum hm]
    by_cases h : s = t
    · rw [if_pos ((dvd_sub_iff (Finset.mem_range.mp hs) ht).mpr h.symm), if_pos h]
    · rw [if_neg (fun h2 => h ((dvd_sub_iff (Finset.mem_range.mp hs) ht).mp h2).symm), if_neg h, mul_zero]
  rw [Finset.sum_congr rfl e2, Finset.sum_ite_eq' (Finset.range m) t (fun s => x s * m), if_pos (Finset.mem_range.mpr ht)]
  field_simp

/-- Sum over one period in the opposite order. -/
theorem sum_mirror {m : ℕ} (f : ℕ → ℂ) : ∑ k ∈ Finset.range m, f k = ∑ k ∈ Finset.range m, f (if k = 0 then 0 else m - k) := by
  cases m with
  | zero => simp
  | succ m =>
    rw [Finset.sum_range_succ', Finset.sum_range_succ', if_pos rfl]
    congr 1
    rw [← Finset.sum_range_reflect]
    refine Finset.sum_congr rfl fun k hk => ?_
    have := Finset.mem_range.mp hk
    rw [if_neg (by omega)]
    congr 1; omega

/-- Hermitian coefficients give a real series. -/
theorem ifft_real {m : ℕ} {X : ℕ → ℂ} (h0 : (starRingEnd ℂ) (X 0) = X 0) (h : ∀ k, 0 < k → k < m → (starRingEnd ℂ) (X k) = X (m - k)) (t : ℕ) :
    ((ifft m X t).re : ℂ) = ifft m X t := by
  rw [← Complex.conj_eq_iff_re]
  rcases Nat.eq_zero_or_pos m with rfl | hm
  · simp [ifft]
  rw [ifft_eq, map_div₀, map_sum, map_natCast]
  congr 1
  rw [sum_mirror fun k => X k * E m (k * t)]
  refine Finset.sum_congr rfl fun k hk => ?_
  have hk := Finset.mem_range.mp hk
  rw [map_mul, E_conj]
  split_ifs with h1
  · subst h1; rw [h0]; simp
  · rw [h k (by omega) hk]
    congr 1
    rw [Nat.cast_sub hk.le, show ((m : ℤ) - k) * t = m * t + -(k * t) by ring, E_add, E_mul hm, one_mul]

/-- The transform of a real series is Hermitian. -/
theorem fft_herm {m : ℕ} (y : ℕ → ℝ) {k : ℕ} (hk : k ≤ m) (hm : 0 < m) :
    (starRingEnd ℂ) (fft m (fun s => (y s : ℂ)) k) = fft m (fun s => (y s : ℂ)) (m - k) := by
  rw [fft_eq, fft_eq, map_sum]
  refine Finset.sum_congr rfl fun t _ => ?_
  rw [map_mul, E_conj, Complex.conj_ofReal, Nat.cast_sub hk,
    show -(((m : ℤ) - k) * t) = m * (-t) + -(-(k * t)) by ring, E_add, E_mul hm, one_mul]

theorem fft_zero_real {m : ℕ} (y : ℕ → ℝ) : (starRingEnd ℂ) (fft m (fun s => (y s : ℂ)) 0) = fft m (fun s => (y s : ℂ)) 0 := by
  rw [fft_eq, map_sum]
  refine Finset.sum_congr rfl fun t _ => ?_
  rw [map_mul, E_conj, Complex.conj_ofReal]; simp

theorem phase_norm (p : ℝ) : ‖Complex.exp (2 * Real.pi * Complex.I * p)‖ = 1 := by
  rw [show 2 * (Real.pi : ℂ) * Complex.I * p = ((2 * Real.pi * p : ℝ) : ℂ) * Complex.I by push_cast; ring]
  exact Complex.norm_exp_ofReal_mul_I _

theorem randomised_norm (m : ℕ) (X : ℕ → ℂ) (ph : ℕ → ℝ) (k : ℕ) : ‖randomised m X ph k‖ = ‖X k‖ := by
  unfold randomised
  dsimp only
  split_ifs
  · rw [norm_mul, phase_norm, mul_one]
  · rw [norm_mul, Complex.norm_conj, phase_norm, mul_one]
  · rfl

theorem oddLen_odd {n : ℕ} (hn : 0 < n) : ∃ L, oddLen n = 2 * L + 1 := by
  unfold oddLen
  split_ifs with h
  · exact ⟨n / 2 - 1, by omega⟩
  · exact ⟨n / 2, by omega⟩

theorem randomised_zero (m : ℕ) (X : ℕ → ℂ) (ph : ℕ → ℝ) (hm : 0 < m) : randomised m X ph 0 = X 0 := by
  unfold randomised
  dsimp only
  rw [if_neg (by omega), if_neg (by omega)]

theorem randomised_herm {L : ℕ} {X : ℕ → ℂ} (ph : ℕ → ℝ) (h : ∀ k, 0 < k → k < 2 * L + 1 → (starRingEnd ℂ) (X k) = X (2 * L + 1 - k)) {k : ℕ}
    (h0 : 0 < k) (hk : k < 2 * L + 1) :
    (starRingEnd ℂ) (randomised (2 * L + 1) X ph k) = randomised (2 * L + 1) X ph (2 * L + 1 - k) := by
  unfold randomised
  dsimp only
  have hL : (2 * L + 1 - 1) / 2 = L := by omega
  rw [hL]
  by_cases h1 : k ≤ L
  · rw [if_pos ⟨h0, h1⟩, if_neg (by omega), if_pos (by omega), map_mul, h k h0 hk]
    congr 3
    congr 2
    congr 1
    omega
  · rw [if_neg (by omega), if_pos (by omega), if_pos (by omega), map_mul, h k h0 hk, Complex.conj_conj]
    congr 2
    congr 1
    congr 2
    omega

/-- The transform of a surrogate. -/
theorem fft_surrogate {n : ℕ} (hn : 0 < n) (y : ℕ → ℝ) (ph : ℕ → ℝ) {k : ℕ} (hk : k < oddLen n) :
    fft (oddLen n) (fun t => (phaseran n y ph t : ℂ)) k = randomised (oddLen n) (fft (oddLen n) fun s => (y s : ℂ)) ph k := by
  obtain ⟨L, hL⟩ := oddLen_odd hn
  have hr : (fun t => (phaseran n y ph t : ℂ)) = ifft (oddLen n) (randomised (oddLen n) (fft (oddLen n) fun s => (y s : ℂ)) ph) := by
    funext t
    unfold phaseran
    refine ifft_real ?_ ?_ t
    · rw [randomised_zero _ _ _ (by omega), fft_zero_real]
    · rw [hL]
      intro k h0 hk
      exact randomised_herm ph (fun k' h0' hk' => fft_herm y (k := k') (Nat.le_of_lt hk') (by omega)) h0 hk
  rw [hr, fft_ifft _ hk]

/-- C116: whatever phases are drawn, a surrogate has the power spectrum of the (odd-length part of the) series. -/
theorem C116_spectrum {n : ℕ} (hn : 0 < n) (y ph : ℕ → ℝ) {k : ℕ} (hk : k < oddLen n) :
    ‖fft (oddLen n) (fun t => (phaseran n y ph t : ℂ)) k‖ = ‖fft (oddLen n) (fun t => (y t : ℂ)) k‖ := by
  rw [fft_surrogate hn y ph hk, randomised_norm]

/-- C116: nothing is lost by taking the real part: the inverse transform of the randomised coefficients is real. -/
theorem C116_real {n : ℕ} (hn : 0 < n) (y ph : ℕ → ℝ) (t : ℕ) :
    (ifft (oddLen n) (randomised (oddLen n) (fft (oddLen n) fun s => (y s : ℂ)) ph) t).im = 0 := by
  obtain ⟨L, hL⟩ := oddLen_odd hn
  have := ifft_real (m := oddLen n) (X := randomised (oddLen n) (fft (oddLen n) fun s => (y s : ℂ)) ph) (by
    rw [randomised_zero _ _ _ (by omega), fft_zero_real]) (by
    rw [hL]
    intro k h0 hk
    exact randomised_herm ph (fun k' h0' hk' => fft_herm y (k := k') (Nat.le_of_lt hk') (by omega)) h0 hk) t
  rw [← this]; exact Complex.ofReal_im _

/-- C116: a surrogate has the mean of the series. -/
theorem C116_mean {n : ℕ} (hn : 0 < n) (y ph : ℕ → ℝ) :
    ∑ t ∈ Finset.range (oddLen n), phaseran n y ph t = ∑ t ∈ Finset.range (oddLen n), y t := by
  obtain ⟨L, hL⟩ := oddLen_odd hn
  have h := fft_surrogate hn y ph (k := 0) (by omega)
  rw [randomised_zero _ _ _ (by omega), fft_eq, fft_eq] at h
  simp only [Nat.cast_zero, zero_mul, neg_zero, E_zero, mul_one] at h
  exact_mod_cast h

/-- Wiener-Khinchin: the circular autocovariance is the inverse transform of the power spectrum. -/
theorem wiener_khinchin {m : ℕ} (hm : 0 < m) (x : ℕ → ℝ) (h : ℕ) :
    ((∑ t ∈ Finset.range m, x t * x ((t + h) % m) : ℝ) : ℂ) =
      (∑ k ∈ Finset.range m, (‖fft m (fun t => (x t : ℂ)) k‖ ^ 2 : ℝ) * E m (k * h)) / m := by
  have hm' : (m : ℂ) ≠ 0 := by exact_mod_cast hm.ne'
  set X := fft m fun t => (x t : ℂ) with hX
  -- x at the shifted place through the inverse transform
  have hs : ∀ t : ℕ, (x ((t + h) % m) : ℂ) = (∑ k ∈ Finset.range m, X k * (E m (k * t) * E m (k * h))) / m := by
    intro t
    rw [← ifft_fft (fun t => (x t : ℂ)) (Nat.mod_lt (t + h) hm), ifft_eq]
    congr 1
    refine Finset.sum_congr rfl fun k _ => ?_
    congr 1
    rw [← E_add]
    have : (k : ℤ) * t + k * h = k * ((t + h) % m : ℕ) + m * (k * ((t + h) / m : ℕ)) := by
      have := Nat.mod_add_div (t + h) m
      have h2 : ((t + h : ℕ) : ℤ) = ((t + h) % m : ℕ) + m * ((t + h) / m : ℕ) := by exact_mod_cast this.symm
      calc (k : ℤ) * t + k * h = k * ((t + h : ℕ) : ℤ) := by push_cast; ring
        _ = _ := by rw [h2]; ring
    rw [this, E_add, E_mul hm, mul_one]
  push_cast
  rw [Finset.sum_congr rfl fun t _ => by rw [hs t]]
  rw [eq_div_iff hm', Finset.sum_mul]
  have e : ∀ t ∈ Finset.range m, (x t : ℂ) * ((∑ k ∈ Finset.range m, X k * (E m (k * t) * E m (k * h))) / m) * m =
      ∑ k ∈ Finset.range m, X k * E m (k * h) * ((x t : ℂ) * E m (k * t)) := by
    intro t _
    rw [mul_assoc, div_mul_cancel₀ _ hm', Finset.mul_sum]
    exact Finset.sum_congr rfl fun k _ => by ring
  rw [Finset.sum_congr rfl e, Finset.sum_comm]
  refine Finset.sum_congr rfl fun k _ => ?_
  rw [← Finset.mul_sum]
  have : ∑ t ∈ Finset.range m, (x t : ℂ) * E m (k * t) = (starRingEnd ℂ) (X k) := by
    rw [hX, fft_eq, map_sum]
    refine Finset.sum_congr rfl fun t _ => ?_
    rw [map_mul, E_conj, Complex.conj_ofReal, neg_neg]
  rw [this, show X k * E m (k * h) * (starRingEnd ℂ) (X k) = X k * (starRingEnd ℂ) (X k) * E m (k * h) by ring, Complex.mul_conj, Complex.normSq_eq_norm_sq]
  push_cast
  rfl

/-- C116: whatever phases are drawn, a surrogate has the circular autocovariance of the series at every lag `h` (at lag 0: the same sum of
squares, hence with `C116_mean` the same variance). -/
theorem C116_autocovariance {n : ℕ} (hn : 0 < n) (y ph : ℕ → ℝ) (h : ℕ) :
    ∑ t ∈ Finset.range (oddLen n), phaseran n y ph t * phaseran n y ph ((t + h) % oddLen n) =
      ∑ t ∈ Finset.range (oddLen n), y t * y ((t + h) % oddLen n) := by
  obtain ⟨L, hL⟩ := oddLen_odd hn
  have a := wiener_khinchin (m := oddLen n) (by omega) (phaseran n y ph) h
  have b := wiener_khinchin (m := oddLen n) (by omega) y h
  have e : ∀ k ∈ Finset.range (oddLen n), ((‖fft (oddLen n) (fun t => (phaseran n y ph t : ℂ)) k‖ ^ 2 : ℝ) : ℂ) * E (oddLen n) (k * h) =
      ((‖fft (oddLen n) (fun t => (y t : ℂ)) k‖ ^ 2 : ℝ) : ℂ) * E (oddLen n) (k * h) := fun k hk => by
    rw [C116_spectrum hn y ph (Finset.mem_range.mp hk)]
  rw [Finset.sum_congr rfl e, ← b] at a
  exact_mod_cast a

/-- C116: the phase of every non-zero frequency of the surrogate is advanced by the phase drawn for it. -/
theorem C116_phase {n : ℕ} (hn : 0 < n) (y ph : ℕ → ℝ) {k : ℕ} (h0 : 0 < k) (hk : 2 * k < oddLen n) :
    fft (oddLen n) (fun t => (phaseran n y ph t : ℂ)) k =
      fft (oddLen n) (fun t => (y t : ℂ)) k * Complex.exp (2 * Real.pi * Complex.I * ph (k - 1)) := by
  rw [fft_surrogate hn y ph (by omega)]
  unfold randomised
  dsimp only
  rw [if_pos ⟨h0, by omega⟩]

/-- C116: the length used is the largest odd number not above the length given. -/
theorem C116_length {n : ℕ} (hn : 0 < n) : oddLen n % 2 = 1 ∧ oddLen n ≤ n ∧ n ≤ oddLen n + 1 := by
  unfold oddLen; split_ifs <;> omega

end Skyborn.Stats
