import Verif.Spectral.Closed
import Mathlib.Analysis.SpecialFunctions.Complex.Circle

/-!
Properties of the spectral packing (C43-C47, C55-C57). Zonal wavenumber `m` and degree `n` are 0-based in the statements
(`0 ≤ m ≤ n ≤ T`), array indices are the 1-based ones of the Fortran arrays.
-/

namespace Skyborn.Spectral

open Skyborn

/-- Textbook position (0-based) of the coefficient `(m, n)` in a triangularly truncated array ordered by `m`, then `n`. -/
def Spec.index (T m n : ℕ) : ℕ := m * (2 * T + 3 - m) / 2 + (n - m)

theorem pos_eq_index {T m n : ℕ} (h1 : m ≤ n) (h2 : n ≤ T) : pos (T + 1) (m + 1) (n + 1) = Spec.index T m n + 1 := by
  have h := start_two (T + 1) (m + 1) (by omega) (by omega)
  simp only [Nat.add_sub_cancel] at h
  have : start (T + 1) (m + 1) = m * (2 * T + 3 - m) / 2 := by
    symm
    apply Nat.div_eq_of_eq_mul_left two_pos
    obtain ⟨d, rfl⟩ : ∃ d, T = m + d := ⟨T - m, by omega⟩
    rw [show 2 * (m + d) + 3 - m = m + 2 * d + 3 by omega]
    cases m with
    | zero => simp at h ⊢; omega
    | succ k =>
      rw [show k + 1 + 1 - 2 = k by omega] at h
      nlinarith
  unfold pos Spec.index
  rw [this]; omega

/-- C43: the position map is a bijection from the triangle `m ≤ n ≤ T` onto `0 .. (T+1)(T+2)/2 - 1`. -/
theorem C43_bijection (T : ℕ) :
    Set.BijOn (fun p : ℕ × ℕ => Spec.index T p.1 p.2) {p | p.1 ≤ p.2 ∧ p.2 ≤ T} (Set.Iio ((T + 1) * (T + 2) / 2)) := by
  refine ⟨?_, ?_, ?_⟩
  · rintro ⟨m, n⟩ ⟨h1, h2⟩
    have := pos_le (T1 := T + 1) (m := m + 1) (n := n + 1) (by omega) (by omega) (by omega)
    rw [pos_eq_index h1 h2] at this
    exact this
  · rintro ⟨m, n⟩ ⟨h1, h2⟩ ⟨m', n'⟩ ⟨h1', h2'⟩ h
    have h : Spec.index T m n = Spec.index T m' n' := h
    simp only at h1 h2 h1' h2'
    have := pos_inj (T1 := T + 1) (m := m + 1) (n := n + 1) (m' := m' + 1) (n' := n' + 1) (by omega) (by omega) (by omega)
      (by omega) (by omega) (by omega) (by rw [pos_eq_index h1 h2, pos_eq_index h1' h2', h])
    simp only [Prod.mk.injEq]; omega
  · intro k hk
    obtain ⟨m, n, h1, h2, h3, h4⟩ := pos_surj (T1 := T + 1) (k := k + 1) (by omega) (by simpa using hk)
    obtain ⟨m, rfl⟩ : ∃ j, m = j + 1 := ⟨m - 1, by omega⟩
    obtain ⟨n, rfl⟩ : ∃ j, n = j + 1 := ⟨n - 1, by omega⟩
    rw [pos_eq_index (by omega) (by omega)] at h4
    exact ⟨(m, n), ⟨by simp; omega, by simp; omega⟩, by simp; omega⟩

theorem getspecindx_eq (T : ℕ) :
    getspecindx T = (List.range (T + 1)).flatMap fun m => (List.range' m (T + 1 - m)).map fun n => (m, n) := by
  have h : ∀ M, ((List.range (M * (T + 1))).map fun k => (k / (T + 1), k % (T + 1))) =
      (List.range M).flatMap fun m => (List.range (T + 1)).map fun n => (m, n) := by
    intro M
    induction M with
    | zero => simp
    | succ M ih =>
      rw [show List.range (M + 1) = List.range M ++ [M] from List.range_succ, List.flatMap_append, ← ih, Nat.add_mul, Nat.one_mul, List.range_add, List.map_append, List.map_map]
      congr 1
      simp only [List.flatMap_cons, List.flatMap_nil, List.append_nil]
      apply List.map_congr_left
      intro n hn
      have hn := List.mem_range.mp hn
      simp only [Function.comp, Prod.mk.injEq]
      rw [Nat.mul_comm, Nat.mul_add_div (by omega), Nat.div_eq_of_lt hn, Nat.mul_add_mod, Nat.mod_eq_of_lt hn]
      simp
  unfold getspecindx
  rw [h, List.filter_flatMap]
  congr 1
  funext m
  rw [List.filter_map]
  by_cases hm : m ≤ T + 1
  · congr 1
    rw [show T + 1 = m + (T + 1 - m) by omega, List.range_add, List.filter_append, List.filter_eq_nil_iff.mpr, List.nil_append,
      show m + (T + 1 - m) - m = T + 1 - m by omega]
    · rw [List.filter_eq_self.mpr]
      · rw [List.range'_eq_map_range]
      · intro a ha
        obtain ⟨x, -, rfl⟩ := List.mem_map.mp ha
        simp only [Function.comp, decide_eq_true_eq]; push_cast; omega
    · intro a ha
      have := List.mem_range.mp ha
      simp only [Function.comp, decide_eq_true_eq]; omega
  · rw [show T + 1 - m = 0 by omega, List.range'_zero, List.map_nil, List.filter_eq_nil_iff.mpr]
    · rfl
    · intro a ha
      have := List.mem_range.mp ha
      simp only [Function.comp, decide_eq_true_eq]; omega

/-- C43: `getspecindx` lists exactly the `(T+1)(T+2)/2` pairs `(m, n)`, the pair `(m, n)` at its packed position. -/
theorem C43_getspecindx (T : ℕ) :
    (getspecindx T).length = (T + 1) * (T + 2) / 2 ∧
    ∀ m n, m ≤ n → n ≤ T → (getspecindx T)[Spec.index T m n]? = some (m, n) := by
  have hpre : ∀ m, m ≤ T + 1 → ((List.range m).flatMap fun m => (List.range' m (T + 1 - m)).map fun n => (m, n)).length =
      start (T + 1) (m + 1) := by
    intro m hm
    induction m with
    | zero => simp [start]
    | succ m ih =>
      rw [show List.range (m + 1) = List.range m ++ [m] from List.range_succ, List.flatMap_append, List.length_append,
        ih (by omega), start_succ (T1 := T + 1) (m := m + 1) (by omega) (by omega)]
      simp; omega
  constructor
  · rw [getspecindx_eq, hpre _ le_rfl, start_end]
  · intro m n h1 h2
    have hp := pos_eq_index h1 h2
    unfold pos at hp
    have hidx : Spec.index T m n = start (T + 1) (m + 1) + (n - m) := by omega
    rw [getspecindx_eq, hidx]
    obtain ⟨d, hd⟩ : ∃ d, T + 1 = m + 1 + d := ⟨T - m, by omega⟩
    have hsplit : List.range (T + 1) = List.range m ++ m :: (List.range d).map (m + 1 + ·) := by
      rw [hd, List.range_add, List.range_succ, List.append_assoc]; rfl
    conv_lhs => rw [hsplit]
    rw [List.flatMap_append, List.getElem?_append_right (by rw [hpre m (by omega)]; omega), hpre m (by omega),
      Nat.add_sub_cancel_left, List.flatMap_cons, List.getElem?_append_left (by simp; omega)]
    rw [List.getElem?_map, List.getElem?_range' (by omega)]
    simp; omega

/-- a packed array position inside the array is the position of some `(m, n)` -/
theorem exists_tri {T nt k i : ℕ} (h1 : 1 ≤ k) (h2 : k ≤ (T + 1) * (T + 2) / 2) (h3 : 1 ≤ i) (h4 : i ≤ nt) :
    ∃ m n, (i, m, n) ∈ Tri nt (T + 1) ∧ pos (T + 1) m n = k := by
  obtain ⟨m, n, a, b, c, e⟩ := pos_surj (T1 := T + 1) h1 h2
  exact ⟨m, n, mem_Tri.mpr ⟨⟨h3, h4⟩, a, b, c⟩, e⟩

variable {nlat nt T : ℕ}

/-- C43: unpacking then packing returns every coefficient, for every truncation that fits the grid and any number of fields. -/
theorem C43_roundtrip (hT : T + 1 ≤ nlat) (x : ℕ × ℕ → ℂ) :
    ∃ a b y, onedtotwod nlat ((T + 1) * (T + 2) / 2) nt x = some (a, b) ∧ twodtooned nlat T nt a b = some y ∧
      ∀ k i, 1 ≤ k → k ≤ (T + 1) * (T + 2) / 2 → 1 ≤ i → i ≤ nt → y (k, i) = x (k, i) := by
  have hw : waves ((T + 1) * (T + 2) / 2) = T + 1 := waves_specLen T
  obtain ⟨a, b, e, ha, hb⟩ := onedtotwod_closed (nlat := nlat) (N := (T + 1) * (T + 2) / 2) (nt := nt) (by rw [hw]; exact hT) x
  obtain ⟨y, e', hy⟩ := twodtooned_closed (nt := nt) hT a b
  refine ⟨a, b, y, e, e', fun k i h1 h2 h3 h4 => ?_⟩
  rw [hw] at ha hb
  obtain ⟨m, n, ht, rfl⟩ := exists_tri h1 h2 h3 h4
  have := hy.1 _ ht
  simp only [ha.1 _ ht, hb.1 _ ht, adS] at this
  rw [this]
  apply Complex.ext <;> simp <;> norm_num <;> ring

/-- C43: packing then unpacking keeps exactly the coefficients of the triangle `m ≤ n ≤ T` and zeroes the rest. -/
theorem C43_truncate (hT : T + 1 ≤ nlat) (a b : ℕ × ℕ × ℕ → ℝ) :
    ∃ y a' b', twodtooned nlat T nt a b = some y ∧ onedtotwod nlat ((T + 1) * (T + 2) / 2) nt y = some (a', b') ∧
      ∀ m n i, 1 ≤ i → i ≤ nt → a' (m + 1, n + 1, i) = (if m ≤ n ∧ n ≤ T then a (m + 1, n + 1, i) else 0) ∧
        b' (m + 1, n + 1, i) = (if m ≤ n ∧ n ≤ T then b (m + 1, n + 1, i) else 0) := by
  have hw : waves ((T + 1) * (T + 2) / 2) = T + 1 := waves_specLen T
  obtain ⟨y, e', hy⟩ := twodtooned_closed (nt := nt) hT a b
  obtain ⟨a', b', e, ha, hb⟩ := onedtotwod_closed (nlat := nlat) (N := (T + 1) * (T + 2) / 2) (nt := nt) (by rw [hw]; exact hT) y
  refine ⟨y, a', b', e', e, fun m n i h3 h4 => ?_⟩
  rw [hw] at ha hb
  by_cases h : m ≤ n ∧ n ≤ T
  · have ht : (i, m + 1, n + 1) ∈ Tri nt (T + 1) := mem_Tri.mpr ⟨⟨h3, h4⟩, by omega, by omega, by omega⟩
    have h1 := ha.1 _ ht
    have h2 := hb.1 _ ht
    simp only [hy.1 _ ht] at h1 h2
    simp only [adG] at h1 h2
    rw [if_pos h, if_pos h, h1, h2]
    constructor <;> simp <;> norm_num <;> ring
  · have hno : ∀ t ∈ Tri nt (T + 1), adG t ≠ (m + 1, n + 1, i) := by
      rintro ⟨i', m', n'⟩ ht' he
      rw [mem_Tri] at ht'
      simp only [adG, Prod.mk.injEq] at he
      omega
    rw [if_neg h, if_neg h]
    exact ⟨ha.2 _ hno, hb.2 _ hno⟩

/-- C43: coefficient `(m, n)` of the packed array is read from its textbook position, scaled by 2. -/
theorem C43_position (hT : T + 1 ≤ nlat) (x : ℕ × ℕ → ℂ) :
    ∃ a b, onedtotwod nlat ((T + 1) * (T + 2) / 2) nt x = some (a, b) ∧ ∀ m n i, m ≤ n → n ≤ T → 1 ≤ i → i ≤ nt →
      a (m + 1, n + 1, i) = 2 * (x (Spec.index T m n + 1, i)).re ∧ b (m + 1, n + 1, i) = 2 * (x (Spec.index T m n + 1, i)).im := by
  have hw : waves ((T + 1) * (T + 2) / 2) = T + 1 := waves_specLen T
  obtain ⟨a, b, e, ha, hb⟩ := onedtotwod_closed (nlat := nlat) (N := (T + 1) * (T + 2) / 2) (nt := nt) (by rw [hw]; exact hT) x
  refine ⟨a, b, e, fun m n i h1 h2 h3 h4 => ?_⟩
  rw [hw] at ha hb
  have ht : (i, m + 1, n + 1) ∈ Tri nt (T + 1) := mem_Tri.mpr ⟨⟨h3, h4⟩, by omega, by omega, by omega⟩
  have := ha.1 _ ht
  have := hb.1 _ ht
  simp only [adG, adS, pos_eq_index h1 h2] at *
  exact ⟨by assumption, by assumption⟩

example : (2 : ℕ) + 1 ≤ 4 ∧ Spec.index 2 1 2 = 4 ∧ getspecindx 2 = [(0, 0), (0, 1), (0, 2), (1, 1), (1, 2), (2, 2)] := by decide

/-! ## C44 -/

/-- C44: the truncation derived from `(T+1)(T+2)/2` coefficients is `T`. -/
theorem C44_truncation (T : ℕ) : ntruncOf ((T + 1) * (T + 2) / 2) = T := by
  have h : waves (specLen T) = T + 1 := waves_specLen T
  obtain ⟨k, h1, h2⟩ := exists_waves (specLen T)
  have : k = T + 1 := by rw [← waves_eq h1 h2]; exact h
  subst this
  have := waves_spec (specLen T) (T + 1) h1 h2
  rw [show (T + 1) * (T + 2) / 2 = specLen T from rfl, this]
  push_cast; ring

/-- C44: for an arbitrary number of coefficients `N`, the derived truncation is the largest `T ≥ -1` whose triangle fits. -/
theorem C44_largest (N : ℕ) : ∃ T1 : ℕ, ntruncOf N = (T1 : ℤ) - 1 ∧ T1 * (T1 + 1) / 2 ≤ N ∧ N < (T1 + 1) * (T1 + 2) / 2 := by
  obtain ⟨k, h1, h2⟩ := exists_waves N
  exact ⟨k, waves_spec N k h1 h2, h1, h2⟩

/-! ## C45 -/

/-- C45: applying the Laplacian and then its inverse restores every coefficient except the global mean (position 1 of each field),
which becomes zero. -/
theorem C45_invlap_lap (r : ℝ) (hr : r ≠ 0) (x init init' : ℕ × ℕ → ℂ) :
    ∃ y z, lap ((T + 1) * (T + 2) / 2) nt r x init = some y ∧ invlap ((T + 1) * (T + 2) / 2) nt r y init' = some z ∧
      ∀ k i, 1 ≤ k → k ≤ (T + 1) * (T + 2) / 2 → 1 ≤ i → i ≤ nt → z (k, i) = if k = 1 then 0 else x (k, i) := by
  have hw : waves ((T + 1) * (T + 2) / 2) = T + 1 := waves_specLen T
  obtain ⟨y, e, hy⟩ := lap_closed (N := (T + 1) * (T + 2) / 2) (nt := nt) r x init
  have hpos : 1 ≤ (T + 1) * (T + 2) / 2 := by
    rw [Nat.le_div_iff_mul_le two_pos]; nlinarith
  obtain ⟨z, e', hz⟩ := invlap_closed (N := (T + 1) * (T + 2) / 2) (nt := nt) hpos r y init'
  refine ⟨y, z, e, e', fun k i h1 h2 h3 h4 => ?_⟩
  rw [hw] at hy hz
  obtain ⟨m, n, ht, rfl⟩ := exists_tri h1 h2 h3 h4
  rw [hz i m n ht]
  have hp1 : pos (T + 1) 1 1 = 1 := by simp [pos, start]
  have ht' := mem_Tri.mp ht
  have hiff : (m = 1 ∧ n = 1) ↔ pos (T + 1) m n = 1 := by
    constructor
    · rintro ⟨rfl, rfl⟩; exact hp1
    · intro h
      exact pos_inj ht'.2.1 ht'.2.2.1 ht'.2.2.2 le_rfl le_rfl (by omega) (h.trans hp1.symm)
  by_cases h : m = 1 ∧ n = 1
  · rw [if_pos h, if_pos (hiff.mp h)]
  · rw [if_neg h, if_neg (fun hh => h (hiff.mpr hh))]
    have := hy.1 _ ht
    simp only [adS] at this
    rw [this, ← mul_assoc, ← Complex.ofReal_mul]
    have hn : (2 : ℝ) ≤ n := by
      have : 2 ≤ n := by omega
      exact_mod_cast this
    have : (-(r * r) / ((n : ℝ) * ((n : ℝ) - 1)) * (-(n : ℝ) * ((n : ℝ) - 1) * (1 / (r * r)))) = 1 := by
      have h1 : (n : ℝ) ≠ 0 := by linarith
      have h2 : (n : ℝ) - 1 ≠ 0 := by linarith
      field_simp
    rw [this]; simp

/-- C45: the same in the other order. -/
theorem C45_lap_invlap (r : ℝ) (hr : r ≠ 0) (x init init' : ℕ × ℕ → ℂ) :
    ∃ y z, invlap ((T + 1) * (T + 2) / 2) nt r x init = some y ∧ lap ((T + 1) * (T + 2) / 2) nt r y init' = some z ∧
      ∀ k i, 1 ≤ k → k ≤ (T + 1) * (T + 2) / 2 → 1 ≤ i → i ≤ nt → z (k, i) = if k = 1 then 0 else x (k, i) := by
  have hw : waves ((T + 1) * (T + 2) / 2) = T + 1 := waves_specLen T
  have hpos : 1 ≤ (T + 1) * (T + 2) / 2 := by
    rw [Nat.le_div_iff_mul_le two_pos]; nlinarith
  obtain ⟨y, e, hy⟩ := invlap_closed (N := (T + 1) * (T + 2) / 2) (nt := nt) hpos r x init
  obtain ⟨z, e', hz⟩ := lap_closed (N := (T + 1) * (T + 2) / 2) (nt := nt) r y init'
  refine ⟨y, z, e, e', fun k i h1 h2 h3 h4 => ?_⟩
  rw [hw] at hy hz
  obtain ⟨m, n, ht, rfl⟩ := exists_tri h1 h2 h3 h4
  have := hz.1 _ ht
  simp only [adS] at this
  rw [this, hy i m n ht]
  have hp1 : pos (T + 1) 1 1 = 1 := by simp [pos, start]
  have ht' := mem_Tri.mp ht
  have hiff : (m = 1 ∧ n = 1) ↔ pos (T + 1) m n = 1 := by
    constructor
    · rintro ⟨rfl, rfl⟩; exact hp1
    · intro h
      exact pos_inj ht'.2.1 ht'.2.2.1 ht'.2.2.2 le_rfl le_rfl (by omega) (h.trans hp1.symm)
  by_cases h : m = 1 ∧ n = 1
  · rw [if_pos h, if_pos (hiff.mp h), mul_zero]
  · rw [if_neg h, if_neg (fun hh => h (hiff.mpr hh)), ← mul_assoc, ← Complex.ofReal_mul]
    have hn : (2 : ℝ) ≤ n := by
      have : 2 ≤ n := by omega
      exact_mod_cast this
    have : (-(n : ℝ) * ((n : ℝ) - 1) * (1 / (r * r))) * (-(r * r) / ((n : ℝ) * ((n : ℝ) - 1))) = 1 := by
      have h1 : (n : ℝ) ≠ 0 := by linarith
      have h2 : (n : ℝ) - 1 ≠ 0 := by linarith
      field_simp
    rw [this]; simp

/-- C45: the Laplacian multiplies the coefficient of degree `n` by the eigenvalue `-n(n+1)/r²`. -/
theorem C45_eigenvalue (r : ℝ) (x init : ℕ × ℕ → ℂ) :
    ∃ y, lap ((T + 1) * (T + 2) / 2) nt r x init = some y ∧ ∀ m n i, m ≤ n → n ≤ T → 1 ≤ i → i ≤ nt →
      y (Spec.index T m n + 1, i) = ((-((n : ℝ) * ((n : ℝ) + 1)) / r ^ 2 : ℝ) : ℂ) * x (Spec.index T m n + 1, i) := by
  have hw : waves ((T + 1) * (T + 2) / 2) = T + 1 := waves_specLen T
  obtain ⟨y, e, hy⟩ := lap_closed (N := (T + 1) * (T + 2) / 2) (nt := nt) r x init
  refine ⟨y, e, fun m n i h1 h2 h3 h4 => ?_⟩
  rw [hw] at hy
  have ht : (i, m + 1, n + 1) ∈ Tri nt (T + 1) := mem_Tri.mpr ⟨⟨h3, h4⟩, by omega, by omega, by omega⟩
  have := hy.1 _ ht
  simp only [adS, pos_eq_index h1 h2] at this
  rw [this]
  congr 2
  push_cast
  ring

/-- C45: Laplacian and inverse Laplacian are linear. -/
theorem C45_linear (r c : ℝ) (x y i1 i2 i3 : ℕ × ℕ → ℂ) :
    (∃ u v w, lap ((T + 1) * (T + 2) / 2) nt r x i1 = some u ∧ lap ((T + 1) * (T + 2) / 2) nt r y i2 = some v ∧
      lap ((T + 1) * (T + 2) / 2) nt r (fun p => x p + c * y p) i3 = some w ∧
      ∀ k i, 1 ≤ k → k ≤ (T + 1) * (T + 2) / 2 → 1 ≤ i → i ≤ nt → w (k, i) = u (k, i) + c * v (k, i)) ∧
    (∃ u v w, invlap ((T + 1) * (T + 2) / 2) nt r x i1 = some u ∧ invlap ((T + 1) * (T + 2) / 2) nt r y i2 = some v ∧
      invlap ((T + 1) * (T + 2) / 2) nt r (fun p => x p + c * y p) i3 = some w ∧
      ∀ k i, 1 ≤ k → k ≤ (T + 1) * (T + 2) / 2 → 1 ≤ i → i ≤ nt → w (k, i) = u (k, i) + c * v (k, i)) := by
  have hw : waves ((T + 1) * (T + 2) / 2) = T + 1 := waves_specLen T
  have hpos : 1 ≤ (T + 1) * (T + 2) / 2 := by
    rw [Nat.le_div_iff_mul_le two_pos]; nlinarith
  constructor
  · obtain ⟨u, e1, h1⟩ := lap_closed (N := (T + 1) * (T + 2) / 2) (nt := nt) r x i1
    obtain ⟨v, e2, h2⟩ := lap_closed (N := (T + 1) * (T + 2) / 2) (nt := nt) r y i2
    obtain ⟨w, e3, h3⟩ := lap_closed (N := (T + 1) * (T + 2) / 2) (nt := nt) r (fun p => x p + c * y p) i3
    refine ⟨u, v, w, e1, e2, e3, fun k i k1 k2 k3 k4 => ?_⟩
    rw [hw] at h1 h2 h3
    obtain ⟨m, n, ht, rfl⟩ := exists_tri k1 k2 k3 k4
    have a1 := h1.1 _ ht
    have a2 := h2.1 _ ht
    have a3 := h3.1 _ ht
    simp only [adS] at a1 a2 a3
    rw [a1, a2, a3]; ring
  · obtain ⟨u, e1, h1⟩ := invlap_closed (N := (T + 1) * (T + 2) / 2) (nt := nt) hpos r x i1
    obtain ⟨v, e2, h2⟩ := invlap_closed (N := (T + 1) * (T + 2) / 2) (nt := nt) hpos r y i2
    obtain ⟨w, e3, h3⟩ := invlap_closed (N := (T + 1) * (T + 2) / 2) (nt := nt) hpos r (fun p => x p + c * y p) i3
    refine ⟨u, v, w, e1, e2, e3, fun k i k1 k2 k3 k4 => ?_⟩
    rw [hw] at h1 h2 h3
    obtain ⟨m, n, ht, rfl⟩ := exists_tri k1 k2 k3 k4
    rw [h1 i m n ht, h2 i m n ht, h3 i m n ht]
    split_ifs
    · simp
    · ring

/-! ## C46, C56 -/

theorem vec_pack (r : ℝ) (hr : r ≠ 0) {n : ℕ} (hn : 2 ≤ n) : ∃ f, vecFactor r n = some f ∧ packFactor r n * (f / 0.5) = 1 := by
  have h : (2 : ℝ) ≤ n := by exact_mod_cast hn
  have hp : (0 : ℝ) < (n : ℝ) * ((n : ℝ) - 1) := by nlinarith
  refine ⟨_, by rw [vecFactor, if_neg hp.ne'], ?_⟩
  unfold packFactor
  have hs : Real.sqrt ((n : ℝ) * ((n : ℝ) - 1)) ≠ 0 := (Real.sqrt_pos.mpr hp).ne'
  field_simp

/-- C46: vorticity and divergence coefficients survive the conversion to vector-harmonic coefficients and back, except the
degree-0 coefficient (position 1), which comes back non-finite. -/
theorem C46_roundtrip (hT : T + 1 ≤ nlat) (r : ℝ) (hr : r ≠ 0) (vrt div : ℕ × ℕ → ℂ) :
    ∃ br bi cr ci v d, onedtotwodVrtdiv nlat ((T + 1) * (T + 2) / 2) nt r vrt div = some (br, bi, cr, ci) ∧
      twodtoonedVrtdiv nlat T nt r br bi cr ci = some (v, d) ∧
      ∀ k i, 1 ≤ k → k ≤ (T + 1) * (T + 2) / 2 → 1 ≤ i → i ≤ nt →
        v (k, i) = (if k = 1 then none else some (vrt (k, i))) ∧ d (k, i) = (if k = 1 then none else some (div (k, i))) := by
  have hw : waves ((T + 1) * (T + 2) / 2) = T + 1 := waves_specLen T
  obtain ⟨br, bi, cr, ci, e, h1, h2, h3, h4⟩ :=
    onedtotwodVrtdiv_closed (nlat := nlat) (N := (T + 1) * (T + 2) / 2) (nt := nt) (by rw [hw]; exact hT) r vrt div
  obtain ⟨v, d, e', hv, hd⟩ := twodtoonedVrtdiv_closed (nt := nt) hT r br bi cr ci
  refine ⟨br, bi, cr, ci, v, d, e, e', fun k i k1 k2 k3 k4 => ?_⟩
  rw [hw] at h1 h2 h3 h4
  obtain ⟨m, n, ht, rfl⟩ := exists_tri k1 k2 k3 k4
  have a1 := hv.1 _ ht
  have a2 := hd.1 _ ht
  simp only [h1.1 _ ht, h2.1 _ ht, h3.1 _ ht, h4.1 _ ht, adS] at a1 a2
  rw [a1, a2]
  have hp1 : pos (T + 1) 1 1 = 1 := by simp [pos, start]
  have ht' := mem_Tri.mp ht
  have hiff : (m = 1 ∧ n = 1) ↔ pos (T + 1) m n = 1 := by
    constructor
    · rintro ⟨rfl, rfl⟩; exact hp1
    · intro h
      exact pos_inj ht'.2.1 ht'.2.2.1 ht'.2.2.2 le_rfl le_rfl (by omega) (h.trans hp1.symm)
  by_cases h : m = 1 ∧ n = 1
  · rw [if_pos (hiff.mp h), if_pos (hiff.mp h)]
    obtain ⟨rfl, rfl⟩ := h
    simp [vecFactor, scaleC]
  · rw [if_neg (fun hh => h (hiff.mpr hh)), if_neg (fun hh => h (hiff.mpr hh))]
    obtain ⟨f, hf, hpf⟩ := vec_pack r hr (show 2 ≤ n by omega)
    have key : ∀ t : ℝ, packFactor r n * (f * t / 0.5) = t := by
      intro t
      have : packFactor r n * (f * t / 0.5) = (packFactor r n * (f / 0.5)) * t := by ring
      rw [this, hpf, one_mul]
    have key' : ∀ t : ℝ, packFactor r n * (-f * t / 0.5) = -t := by
      intro t
      have : packFactor r n * (-f * t / 0.5) = -((packFactor r n * (f / 0.5)) * t) := by ring
      rw [this, hpf, one_mul]
    rw [hf]
    simp only [scaleC, Option.map_some, Option.bind_eq_bind, Option.bind_some, Option.pure_def, Option.some.injEq]
    constructor <;> apply Complex.ext <;>
      simp only [Complex.re_ofReal_mul, Complex.im_ofReal_mul, ← Complex.ofReal_neg, key, key', neg_mul, neg_neg] <;>
      simp only [← neg_mul, key', neg_neg]

/-- two buffers filled from the same values agree everywhere -/
theorem Filled.unique {ι α : Type} {ad : ℕ × ℕ × ℕ → ι} {g : ℕ × ℕ × ℕ → α} {init : ι → α}
    {S : Finset (ℕ × ℕ × ℕ)} {s s' : ι → α} (h : Filled ad g init S s) (h' : Filled ad g init S s') : s = s' := by
  funext x
  by_cases hx : ∃ t ∈ S, ad t = x
  · obtain ⟨t, ht, rfl⟩ := hx
    rw [h.1 t ht, h'.1 t ht]
  · push Not at hx
    rw [h.2 x hx, h'.2 x hx]

theorem waves_le_of_lt {N L : ℕ} (h : N < (L + 1) * (L + 2) / 2) : waves N ≤ L := by
  obtain ⟨k, h1, h2⟩ := exists_waves N
  rw [waves_eq h1 h2]
  by_contra hk
  have hk : L + 1 ≤ k := by omega
  have : (L + 1) * (L + 2) / 2 ≤ k * (k + 1) / 2 := Nat.div_le_div_right (Nat.mul_le_mul hk (by omega))
  omega

/-- C56: the single-component conversions give exactly the component arrays of the paired conversions, in both directions. -/
theorem C56_components (N : ℕ) (hN' : N < (nlat + 1) * (nlat + 2) / 2) (hT : T + 1 ≤ nlat) (r : ℝ) (vrt div : ℕ × ℕ → ℂ)
    (br bi cr ci : ℕ × ℕ × ℕ → Option ℝ) :
    (∃ a b c d, onedtotwodVrtdiv nlat N nt r vrt div = some (a, b, c, d) ∧ onedtotwodVrt nlat N nt r vrt = some (c, d) ∧
      onedtotwodDiv nlat N nt r div = some (a, b)) ∧
    (∃ v d, twodtoonedVrtdiv nlat T nt r br bi cr ci = some (v, d) ∧ twodtoonedVrt nlat T nt r cr ci = some v ∧
      twodtoonedDiv nlat T nt r br bi = some d) := by
  have hN := waves_le_of_lt hN'
  constructor
  · obtain ⟨a, b, c, d, e, h1, h2, h3, h4⟩ := onedtotwodVrtdiv_closed (nt := nt) hN r vrt div
    obtain ⟨c', d', e', h3', h4'⟩ := onedtotwodVrt_closed (nt := nt) hN r vrt
    obtain ⟨a', b', e'', h1', h2'⟩ := onedtotwodDiv_closed (nt := nt) hN r div
    refine ⟨a, b, c, d, e, ?_, ?_⟩
    · rw [e', h3.unique h3', h4.unique h4']
    · rw [e'', h1.unique h1', h2.unique h2']
  · obtain ⟨v, d, e, h1, h2⟩ := twodtoonedVrtdiv_closed (nt := nt) hT r br bi cr ci
    obtain ⟨v', e', h1'⟩ := twodtoonedVrt_closed (nt := nt) hT r cr ci
    obtain ⟨d', e'', h2'⟩ := twodtoonedDiv_closed (nt := nt) hT r br bi
    exact ⟨v, d, e, by rw [e', h1.unique h1'], by rw [e'', h2.unique h2']⟩

/-! ## C47 -/

/-- C47: the coefficient of degree `n` is multiplied by `smooth[n]`, whatever its zonal wavenumber. -/
theorem C47_factor (hT : T + 1 ≤ nlat) (x : ℕ × ℕ → ℂ) (smooth : ℕ → ℝ) (init : ℕ × ℕ → ℂ) :
    ∃ y, multsmoothfact nlat ((T + 1) * (T + 2) / 2) nt x smooth init = some y ∧
      ∀ m n i, m ≤ n → n ≤ T → 1 ≤ i → i ≤ nt →
        y (Spec.index T m n + 1, i) = x (Spec.index T m n + 1, i) * (smooth (n + 1) : ℝ) := by
  have hw : waves ((T + 1) * (T + 2) / 2) = T + 1 := waves_specLen T
  obtain ⟨y, e, hy⟩ := multsmoothfact_closed (nlat := nlat) (N := (T + 1) * (T + 2) / 2) (nt := nt) (by rw [hw]; exact hT) x smooth init
  refine ⟨y, e, fun m n i h1 h2 h3 h4 => ?_⟩
  rw [hw] at hy
  have ht : (i, m + 1, n + 1) ∈ Tri nt (T + 1) := mem_Tri.mpr ⟨⟨h3, h4⟩, by omega, by omega, by omega⟩
  have := hy.1 _ ht
  simp only [adS, pos_eq_index h1 h2] at this
  exact this

/-- C47: smoothing with all ones is the identity. -/
theorem C47_ones (hT : T + 1 ≤ nlat) (x init : ℕ × ℕ → ℂ) :
    ∃ y, multsmoothfact nlat ((T + 1) * (T + 2) / 2) nt x (fun _ => 1) init = some y ∧
      ∀ k i, 1 ≤ k → k ≤ (T + 1) * (T + 2) / 2 → 1 ≤ i → i ≤ nt → y (k, i) = x (k, i) := by
  have hw : waves ((T + 1) * (T + 2) / 2) = T + 1 := waves_specLen T
  obtain ⟨y, e, hy⟩ := multsmoothfact_closed (nlat := nlat) (N := (T + 1) * (T + 2) / 2) (nt := nt) (by rw [hw]; exact hT) x
    (fun _ => 1) init
  refine ⟨y, e, fun k i k1 k2 k3 k4 => ?_⟩
  rw [hw] at hy
  obtain ⟨m, n, ht, rfl⟩ := exists_tri k1 k2 k3 k4
  have := hy.1 _ ht
  simpa [adS] using this

/-- C47: smoothing twice multiplies the factors. -/
theorem C47_compose (hT : T + 1 ≤ nlat) (x : ℕ × ℕ → ℂ) (s s' : ℕ → ℝ) (i1 i2 i3 : ℕ × ℕ → ℂ) :
    ∃ y z w, multsmoothfact nlat ((T + 1) * (T + 2) / 2) nt x s i1 = some y ∧
      multsmoothfact nlat ((T + 1) * (T + 2) / 2) nt y s' i2 = some z ∧
      multsmoothfact nlat ((T + 1) * (T + 2) / 2) nt x (fun n => s n * s' n) i3 = some w ∧
      ∀ k i, 1 ≤ k → k ≤ (T + 1) * (T + 2) / 2 → 1 ≤ i → i ≤ nt → z (k, i) = w (k, i) := by
  have hw : waves ((T + 1) * (T + 2) / 2) = T + 1 := waves_specLen T
  have hle : waves ((T + 1) * (T + 2) / 2) ≤ nlat := by rw [hw]; exact hT
  obtain ⟨y, e1, h1⟩ := multsmoothfact_closed (nt := nt) hle x s i1
  obtain ⟨z, e2, h2⟩ := multsmoothfact_closed (nt := nt) hle y s' i2
  obtain ⟨w, e3, h3⟩ := multsmoothfact_closed (nt := nt) hle x (fun n => s n * s' n) i3
  refine ⟨y, z, w, e1, e2, e3, fun k i k1 k2 k3 k4 => ?_⟩
  rw [hw] at h1 h2 h3
  obtain ⟨m, n, ht, rfl⟩ := exists_tri k1 k2 k3 k4
  have a1 := h1.1 _ ht
  have a2 := h2.1 _ ht
  have a3 := h3.1 _ ht
  simp only [adS] at a1 a2 a3
  rw [a2, a1, a3]; push_cast; ring

/-- C47: smoothing commutes with the Laplacian. -/
theorem C47_commutes_lap (hT : T + 1 ≤ nlat) (r : ℝ) (x : ℕ × ℕ → ℂ) (s : ℕ → ℝ) (i1 i2 i3 i4 : ℕ × ℕ → ℂ) :
    ∃ y z y' z', multsmoothfact nlat ((T + 1) * (T + 2) / 2) nt x s i1 = some y ∧ lap ((T + 1) * (T + 2) / 2) nt r y i2 = some z ∧
      lap ((T + 1) * (T + 2) / 2) nt r x i3 = some y' ∧ multsmoothfact nlat ((T + 1) * (T + 2) / 2) nt y' s i4 = some z' ∧
      ∀ k i, 1 ≤ k → k ≤ (T + 1) * (T + 2) / 2 → 1 ≤ i → i ≤ nt → z (k, i) = z' (k, i) := by
  have hw : waves ((T + 1) * (T + 2) / 2) = T + 1 := waves_specLen T
  have hle : waves ((T + 1) * (T + 2) / 2) ≤ nlat := by rw [hw]; exact hT
  obtain ⟨y, e1, h1⟩ := multsmoothfact_closed (nt := nt) hle x s i1
  obtain ⟨z, e2, h2⟩ := lap_closed (N := (T + 1) * (T + 2) / 2) (nt := nt) r y i2
  obtain ⟨y', e3, h3⟩ := lap_closed (N := (T + 1) * (T + 2) / 2) (nt := nt) r x i3
  obtain ⟨z', e4, h4⟩ := multsmoothfact_closed (nt := nt) hle y' s i4
  refine ⟨y, z, y', z', e1, e2, e3, e4, fun k i k1 k2 k3 k4 => ?_⟩
  rw [hw] at h1 h2 h3 h4
  obtain ⟨m, n, ht, rfl⟩ := exists_tri k1 k2 k3 k4
  have a1 := h1.1 _ ht
  have a2 := h2.1 _ ht
  have a3 := h3.1 _ ht
  have a4 := h4.1 _ ht
  simp only [adS] at a1 a2 a3 a4
  rw [a2, a1, a4, a3]; ring

/-! ## C55: memory safety for any coefficient count -/

/-- C55: for every number of coefficients `N`, triangular or not, below the `(nlat+1)(nlat+2)/2` of truncation `nlat` (so that the
derived truncation is at most `nlat - 1`), no routine accesses an array outside its bounds. -/
theorem C55_in_bounds (N : ℕ) (hN' : N < (nlat + 1) * (nlat + 2) / 2) (r : ℝ) (x y init : ℕ × ℕ → ℂ) (s : ℕ → ℝ) :
    (onedtotwod nlat N nt x).isSome ∧ (onedtotwodVrtdiv nlat N nt r x y).isSome ∧ (onedtotwodVrt nlat N nt r x).isSome ∧
    (onedtotwodDiv nlat N nt r x).isSome ∧ (lap N nt r x init).isSome ∧ (1 ≤ N → (invlap N nt r x init).isSome) ∧
    (multsmoothfact nlat N nt x s init).isSome := by
  have hN := waves_le_of_lt hN'
  obtain ⟨_, _, e1, -⟩ := onedtotwod_closed (nt := nt) hN x
  obtain ⟨_, _, _, _, e2, -⟩ := onedtotwodVrtdiv_closed (nt := nt) hN r x y
  obtain ⟨_, _, e3, -⟩ := onedtotwodVrt_closed (nt := nt) hN r x
  obtain ⟨_, _, e4, -⟩ := onedtotwodDiv_closed (nt := nt) hN r x
  obtain ⟨_, e5, -⟩ := lap_closed (N := N) (nt := nt) r x init
  obtain ⟨_, e7, -⟩ := multsmoothfact_closed (nt := nt) hN x s init
  refine ⟨by simp [e1], by simp [e2], by simp [e3], by simp [e4], by simp [e5], fun h => ?_, by simp [e7]⟩
  obtain ⟨_, e6, -⟩ := invlap_closed (nt := nt) h r x init
  simp [e6]

example : waves 7 = 3 ∧ 7 < (3 + 1) * (3 + 2) / 2 := ⟨waves_eq (by decide) (by decide), by decide⟩

/-! ## C57: spectral interpolation -/

/-- Value at longitude `lon` of the real field with coefficients `c m n` (`m ≥ 0`; the coefficient of `-m` is the conjugate) and
Legendre functions `P m n`: `∑_n c(0,n)P(0,n) + 2 Re ∑_{m≥1} ∑_n c(m,n) P(m,n) e^{i m lon}`. -/
noncomputable def Spec.synthesis (T : ℕ) (lon : ℝ) (c : ℕ → ℕ → ℂ) (P : ℕ → ℕ → ℝ) : ℝ :=
  (∑ n ∈ Finset.Icc 0 T, c 0 n * (P 0 n : ℂ)).re +
    ∑ m ∈ Finset.Icc 1 T, 2 * ((∑ n ∈ Finset.Icc m T, c m n * (P m n : ℂ)) * Complex.exp ((m : ℝ) * lon * Complex.I)).re

/-- C57: `specintrp` evaluates the spherical-harmonic series at the given longitude and never leaves its arrays. -/
theorem C57_specintrp (T : ℕ) (lon : ℝ) (dat : ℕ → ℂ) (pnm : ℕ → ℝ) :
    specintrp lon T dat pnm =
      some (Spec.synthesis T lon (fun m n => dat (Spec.index T m n + 1)) (fun m n => pnm (Spec.index T m n + 1))) := by
  obtain ⟨⟨scrm, st⟩, e, -, hsc⟩ := doLoopM_inv (lo := 1) (hi := T + 1) (by omega) (s := ((fun _ => (0 : ℂ)), 0))
    (f := fun m (st : (ℕ → ℂ) × ℕ) => do
      let s0 ← wr (T + 1) st.1 m 0
      let s1 ← doLoopM 1 (T + 1 - m + 1) s0 fun n s => do
        let d ← rd (specLen T) dat (st.2 + n)
        let p ← rd (specLen T) pnm (st.2 + n)
        let old ← rd (T + 1) s m
        wr (T + 1) s m (old + d * (p : ℂ))
      return (s1, st.2 + (T + 1) - m + 1))
    (fun m st => st.2 = start (T + 1) m ∧ ∀ m', 1 ≤ m' → m' < m →
      st.1 m' = ∑ n ∈ Finset.Icc m' (T + 1), dat (pos (T + 1) m' n) * (pnm (pos (T + 1) m' n) : ℂ))
    ⟨(start_one _).symm, by intros; omega⟩
    (by
      rintro m ⟨s, st⟩ hm1 hm2 ⟨hst, hs⟩
      simp only at hst hs
      subst hst
      obtain ⟨s', e', h1, h2⟩ := doLoopM_inv (lo := 1) (hi := T + 1 - m + 1) (by omega) (s := Function.update s m 0)
        (f := fun n s => do
          let d ← rd (specLen T) dat (start (T + 1) m + n)
          let p ← rd (specLen T) pnm (start (T + 1) m + n)
          let old ← rd (T + 1) s m
          wr (T + 1) s m (old + d * (p : ℂ)))
        (fun n s => (∀ m', 1 ≤ m' → m' < m →
            s m' = ∑ n ∈ Finset.Icc m' (T + 1), dat (pos (T + 1) m' n) * (pnm (pos (T + 1) m' n) : ℂ)) ∧
          s m = ∑ k ∈ Finset.Ico m (m + (n - 1)), dat (pos (T + 1) m k) * (pnm (pos (T + 1) m k) : ℂ))
        ⟨by
          intro m' h1 h2
          rw [Function.update_of_ne (by omega)]; exact hs m' h1 h2, by simp⟩
        (by
          intro n s hn1 hn2 ⟨h1, h2⟩
          have hle : start (T + 1) m + n ≤ specLen T := by
            have := pos_le (T1 := T + 1) (m := m) (n := m + n - 1) hm1 (by omega) (by omega)
            unfold pos at this
            change _ ≤ specLen T at this
            omega
          simp only [rd_ok (show 1 ≤ start (T + 1) m + n by omega) hle, rd_ok hm1 hm2, wr_ok hm1 hm2, Option.bind_eq_bind,
            Option.bind_some]
          refine ⟨_, rfl, ?_, ?_⟩
          · intro m' h1' h2'
            rw [Function.update_of_ne (by omega)]; exact h1 m' h1' h2'
          · rw [Function.update_self, h2, show m + (n + 1 - 1) = m + (n - 1) + 1 by omega, Finset.sum_Ico_succ_top (by omega)]
            rw [show pos (T + 1) m (m + (n - 1)) = start (T + 1) m + n by unfold pos; omega])
      refine ⟨(s', start (T + 1) m + (T + 1) - m + 1), ?_, (start_succ hm1 hm2).symm, ?_⟩
      · simp only [wr_ok hm1 hm2, Option.bind_eq_bind, Option.bind_some] at e' ⊢
        rw [e']; rfl
      · intro m' h1' h2'
        by_cases hmm : m' = m
        · subst hmm
          show s' m' = _
          rw [h2]
          apply Finset.sum_congr _ fun _ _ => rfl
          ext x; simp only [Finset.mem_Ico, Finset.mem_Icc]; omega
        · exact h1 m' h1' (by omega))
  have hsc' : ∀ m, m ≤ T → scrm (m + 1) = ∑ n ∈ Finset.Icc m T, dat (Spec.index T m n + 1) * (pnm (Spec.index T m n + 1) : ℂ) := by
    intro m hm
    have h := hsc (m + 1) (by omega) (by omega)
    simp only at h
    rw [h]
    have : Finset.Icc (m + 1) (T + 1) = (Finset.Icc m T).map (addRightEmbedding 1) := by
      rw [Finset.map_add_right_Icc]
    rw [this, Finset.sum_map]
    apply Finset.sum_congr rfl
    intro n hn
    rw [Finset.mem_Icc] at hn
    rw [addRightEmbedding_apply, pos_eq_index hn.1 hn.2]
  have e2 : specintrp lon T dat pnm = doLoopM 2 (T + 1) (scrm 1).re fun m ob => do
      let c ← rd (T + 1) scrm m
      let a := ((m : ℝ) - 1) * lon
      return ob + 2 * (c.re * Real.cos a - c.im * Real.sin a) := by
    unfold specintrp
    dsimp only at e ⊢
    rw [e]
    simp only [Option.bind_eq_bind, Option.bind_some, rd_ok (show 1 ≤ 1 by omega) (show 1 ≤ T + 1 by omega)]
  rw [e2]
  obtain ⟨ob, e3, h3⟩ := doLoopM_inv (lo := 2) (hi := T + 1) (by omega) (s := (scrm 1).re)
    (f := fun m ob => do
      let c ← rd (T + 1) scrm m
      let a := ((m : ℝ) - 1) * lon
      return ob + 2 * (c.re * Real.cos a - c.im * Real.sin a))
    (fun m ob => ob = (scrm 1).re + ∑ k ∈ Finset.Ico 1 (m - 1), 2 * (scrm (k + 1) * Complex.exp ((k : ℝ) * lon * Complex.I)).re)
    (by simp)
    (by
      intro m ob h1 h2 hob
      simp only [rd_ok (show 1 ≤ m by omega) h2, Option.bind_eq_bind, Option.bind_some]
      refine ⟨_, rfl, ?_⟩
      rw [hob, show m + 1 - 1 = (m - 1) + 1 by omega, Finset.sum_Ico_succ_top (by omega), ← add_assoc]
      congr 1
      rw [show m - 1 + 1 = m by omega, ← Complex.ofReal_mul, Complex.mul_re, Complex.exp_ofReal_mul_I_re,
        Complex.exp_ofReal_mul_I_im, Nat.cast_sub (by omega)]
      push_cast; ring)
  rw [e3, h3]
  congr 1
  unfold Spec.synthesis
  rw [hsc' 0 (by omega), show T + 1 + 1 - 1 = T + 1 by omega]
  congr 1
  rw [show Finset.Ico 1 (T + 1) = Finset.Icc 1 T from by ext; simp]
  apply Finset.sum_congr rfl
  intro m hm
  rw [Finset.mem_Icc] at hm
  rw [hsc' m hm.2]

/-- C57: the interpolated value is periodic in longitude. -/
theorem C57_periodic (T : ℕ) (lon : ℝ) (dat : ℕ → ℂ) (pnm : ℕ → ℝ) :
    specintrp (lon + 2 * Real.pi) T dat pnm = specintrp lon T dat pnm := by
  rw [C57_specintrp, C57_specintrp]
  congr 1
  unfold Spec.synthesis
  congr 1
  apply Finset.sum_congr rfl
  intro m _
  congr 3
  have : ((m : ℝ) : ℂ) * ((lon + 2 * Real.pi : ℝ) : ℂ) * Complex.I =
      ((m : ℝ) : ℂ) * (lon : ℂ) * Complex.I + (m : ℤ) * (2 * Real.pi * Complex.I) := by
    push_cast; ring
  rw [this, Complex.exp_add, Complex.exp_int_mul_two_pi_mul_I, mul_one]

end Skyborn.Spectral
