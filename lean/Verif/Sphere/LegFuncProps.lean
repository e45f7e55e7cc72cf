/-
`legendre(lat, ntrunc)`: what is returned (C312, C313).
-/
import Verif.Sphere.LegFunc

namespace Skyborn.Sphere.Leg

private theorem degrees_spec (θ : ℝ) (m : ℕ) (hm : 1 ≤ m) (start : ℕ) : ∀ (c n : ℕ) (s : (ℕ → ℝ) × (ℕ → ℝ)), m ≤ n → ∀ i,
    (degrees θ m start n c s).2 i = if start + (n - m) < i ∧ i ≤ start + (n - m) + c then pbar (m - 1) (i - start + m - 2) θ else s.2 i
  | 0, n, s, _, i => by rw [if_neg (by omega)]; rfl
  | c + 1, n, s, h, i => by
    unfold degrees
    dsimp only
    rw [degrees_spec θ m hm start c (n + 1) _ (by omega) i]
    dsimp only
    rw [lfpt_alfk (n - 1) (m - 1) (by omega)]
    by_cases h1 : i = start + n - m + 1
    · rw [if_neg (by omega), if_pos (by omega), h1, Function.update_self]
      congr 1; omega
    · rw [Function.update_of_ne h1]
      by_cases h2 : start + (n - m) < i ∧ i ≤ start + (n - m) + (c + 1)
      · rw [if_pos h2, if_pos (by omega)]
      · rw [if_neg h2, if_neg (by omega)]

private theorem start_eq (T m : ℕ) (hm : m ≤ T) : ∑ k ∈ Finset.range m, (T + 1 - k) + T + 2 - (m + 1) = ∑ k ∈ Finset.range (m + 1), (T + 1 - k) := by
  rw [Finset.sum_range_succ]; omega

theorem start_mono (T : ℕ) {a b : ℕ} (h : a ≤ b) : ∑ k ∈ Finset.range a, (T + 1 - k) ≤ ∑ k ∈ Finset.range b, (T + 1 - k) :=
  Finset.sum_le_sum_of_subset (by intro x; simp only [Finset.mem_range]; omega)

theorem place_lt {T m n : ℕ} (h : m ≤ n) (hn : n ≤ T) : Spec.place T m n < ∑ k ∈ Finset.range (m + 1), (T + 1 - k) := by
  unfold Spec.place
  rw [Finset.sum_range_succ]; omega

private theorem orders_spec (θ : ℝ) (T : ℕ) : ∀ (c m : ℕ) (s : (ℕ → ℝ) × (ℕ → ℝ)), m + c = T + 1 →
    (∀ a b, a < m → a ≤ b → b ≤ T → s.2 (Spec.place T a b + 1) = pbar a b θ) →
    ∀ a b, a ≤ b → b ≤ T → (orders θ T (m + 1) c (∑ k ∈ Finset.range m, (T + 1 - k)) s).2 (Spec.place T a b + 1) = pbar a b θ
  | 0, m, s, hm, hs, a, b, h1, h2 => hs a b (by omega) h1 h2
  | c + 1, m, s, hm, hs, a, b, h1, h2 => by
    unfold orders
    rw [start_eq T m (by omega)]
    refine orders_spec θ T c (m + 1) _ (by omega) (fun a b h3 h4 h5 => ?_) a b h1 h2
    rw [degrees_spec θ (m + 1) (by omega) _ _ (m + 1) _ le_rfl]
    rcases Nat.lt_or_ge a m with h' | h'
    · have := place_lt h4 h5
      have := start_mono T (show a + 1 ≤ m by omega)
      rw [if_neg (by omega)]
      exact hs a b h' h4 h5
    · have : a = m := by omega
      subst this
      have e : Spec.place T a b = ∑ k ∈ Finset.range a, (T + 1 - k) + (b - a) := rfl
      rw [if_pos (by omega), Nat.add_sub_cancel]
      congr 1; omega

theorem total (T : ℕ) : ∑ k ∈ Finset.range (T + 1), (T + 1 - k) = (T + 1) * (T + 2) / 2 := by
  have h : ∑ k ∈ Finset.range (T + 1), (T + 1 - k) = ∑ k ∈ Finset.range (T + 1), (k + 1) := by
    rw [← Finset.sum_range_reflect]
    refine Finset.sum_congr rfl fun k hk => ?_
    rw [Finset.mem_range] at hk; omega
  have h2 : ∀ N : ℕ, 2 * ∑ k ∈ Finset.range N, (k + 1) = N * (N + 1) := by
    intro N
    induction N with
    | zero => simp
    | succ N ih => rw [Finset.sum_range_succ, mul_add, ih]; ring
  have := h2 (T + 1)
  rw [h, ← show (T + 1) * (T + 1 + 1) = (T + 1) * (T + 2) from rfl, ← this]; omega

private theorem place_surj (T i : ℕ) : ∀ M, i < ∑ k ∈ Finset.range M, (T + 1 - k) → ∃ m n, m < M ∧ m ≤ n ∧ n ≤ T ∧ i = Spec.place T m n := by
  intro M
  induction M with
  | zero => intro h; simp at h
  | succ M ih =>
    intro h
    rcases Nat.lt_or_ge i (∑ k ∈ Finset.range M, (T + 1 - k)) with h' | h'
    · obtain ⟨m, n, h1, h2⟩ := ih h'
      exact ⟨m, n, by omega, h2⟩
    · rw [Finset.sum_range_succ] at h
      exact ⟨M, i - ∑ k ∈ Finset.range M, (T + 1 - k) + M, by omega, by omega, by omega, by unfold Spec.place; omega⟩

/-- C312: for every latitude from -90 to 90 and every truncation `T`, `legendre` returns `(T+1)(T+2)/2` numbers: the normalised associated
Legendre functions of all orders `0 <= m <= T` and degrees `m <= n <= T` at the colatitude of the point, ordered by order, then degree; nothing
else, and nothing depends on what was in memory before. -/
theorem C312_legendre (lat : ℝ) (T : ℕ) (cp0 leg0 : ℕ → ℝ) (h1 : -90 ≤ lat) (h2 : lat ≤ 90) :
    ∃ r, legendre lat T cp0 leg0 = some r ∧ r.length = (T + 1) * (T + 2) / 2 ∧
      (∀ m n, m ≤ n → n ≤ T → r[Spec.place T m n]? = some (pbar m n (Spec.colat lat))) ∧
      ∀ i < r.length, ∃ m n, m ≤ n ∧ n ≤ T ∧ i = Spec.place T m n := by
  refine ⟨_, by unfold legendre; rw [if_neg (not_not.2 ⟨h1, h2⟩), if_neg (by omega), Int.toNat_natCast], by simp, fun m n hmn hn => ?_, fun i hi => ?_⟩
  · have hlt := lt_of_lt_of_le (place_lt hmn hn) (start_mono T (show m + 1 ≤ T + 1 by omega))
    rw [total] at hlt
    rw [List.getElem?_map, List.getElem?_range hlt, Option.map_some]
    congr 1
    have hc : 1 / 2 * (4 * Real.arctan 1) - (4 * Real.arctan 1) / 180 * lat = Spec.colat lat := by
      rw [Real.arctan_one]; unfold Spec.colat; ring
    unfold getlegfunc
    rw [hc]
    have := orders_spec (Spec.colat lat) T (T + 1) 0 (cp0, leg0) (by omega) (fun a b h => by omega) m n hmn hn
    simpa using this
  · rw [List.length_map, List.length_range, ← total] at hi
    obtain ⟨m, n, -, h⟩ := place_surj T i (T + 1) hi
    exact ⟨m, n, h⟩

/-- C313: `legendre` fails exactly for latitudes beyond the poles and negative truncations. -/
theorem C313_errors (lat : ℝ) (T : ℤ) (cp0 leg0 : ℕ → ℝ) : legendre lat T cp0 leg0 = none ↔ lat < -90 ∨ 90 < lat ∨ T < 0 := by
  unfold legendre
  by_cases h1 : -90 ≤ lat ∧ lat ≤ 90
  · rw [if_neg (not_not.2 h1)]
    split_ifs with h2
    · simp [h2]
    · simp only [reduceCtorEq, false_iff]
      rintro (h | h | h)
      · linarith [h1.1]
      · linarith [h1.2]
      · exact h2 h
  · rw [if_pos h1]
    simp only [true_iff]
    by_contra h
    push Not at h
    exact h1 ⟨h.1, h.2.1⟩

/-- The hypotheses of C312 are met: the function of degree 1 and order 0 at 30 degrees north is `sqrt(3/2) / 2`. -/
example : ∃ r, legendre 30 1 (fun _ => 7) (fun _ => 7) = some r ∧ r.length = 3 ∧ r[1]? = some (Real.sqrt (3 / 2) * (1 / 2)) := by
  obtain ⟨r, h1, h2, h3, -⟩ := C312_legendre 30 1 (fun _ => 7) (fun _ => 7) (by norm_num) (by norm_num)
  refine ⟨r, h1, h2, ?_⟩
  have := h3 0 1 (by omega) le_rfl
  rw [show Spec.place 1 0 1 = 1 by simp [Spec.place]] at this
  rw [this]
  congr 1
  unfold pbar norm rod Spec.colat
  rw [show (90 - 30 : ℝ) * (Real.pi / 180) = Real.pi / 3 by ring, Real.cos_pi_div_three]
  norm_num
  ring

end Skyborn.Sphere.Leg
