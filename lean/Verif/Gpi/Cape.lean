/-
The CAPE routine (tropical_cyclone_potential_intensity.f90:1275-1595).
-/
import Verif.Gpi.Api
import Mathlib.Tactic.Linarith
import Mathlib.Tactic.Positivity
import Mathlib.Tactic.FieldSimp
import Mathlib.Algebra.BigOperators.Intervals

namespace Skyborn.Gpi

open Classical

/-! ### Specification -/

/-- The buoyancies `d` (excess of virtual temperature) of a parcel lifted from `(t, r, p)` through the environment, without entrained condensate for `sig = 0`.
Below 50 mb only; dry adiabat up to the condensation level, above it a saturated parcel with the entropy of the parcel within the tolerance of the
iteration (0.001 K, times the derivative of the entropy, divided by the smallest relaxation factor 0.3). -/
structure Spec.Lifted (e : Env) (sig t r p : ℝ) (d : ℕ → ℝ) : Prop where
  high : ∀ l, 1 ≤ l → l ≤ e.n → e.p l < 50 → d l = 0
  dry : ∀ l, 1 ≤ l → l ≤ e.n → 50 ≤ e.p l → condensation t r p ≤ e.p l →
    d l = virtualTemp (t * (e.p l / p) ^ (rd / cpd)) r - virtualTemp (e.t l) (e.r l)
  moist : ∀ l, 1 ≤ l → l ≤ e.n → 50 ≤ e.p l → e.p l < condensation t r p → ∃ T : ℝ, 0 < T ∧ satPressure (T - 273.15) < e.p l ∧
    |reversibleEntropy t r p - moistEntropy r (e.p l) T (satPressure (T - 273.15))| ≤ 0.001 / 0.3 * moistRate r (e.p l) T (satPressure (T - 273.15)) ∧
    d l = moistTemp sig r (T, satMixing (satPressure (T - 273.15)) (e.p l)) - virtualTemp (e.t l) (e.r l)

/-- The energy released up to level `k`: the trapezoidal sum over the layers, in terms of relative pressure differences, with the layer between the parcel and
the first level. -/
noncomputable def Spec.energy (e : Env) (p : ℝ) (d : ℕ → ℝ) (k : ℕ) : ℝ :=
  (∑ l ∈ Finset.Ico 1 k, rd * (d l + d (l + 1)) * (e.p l - e.p (l + 1)) / (e.p l + e.p (l + 1))) + rd * (p - e.p 1) / (p + e.p 1) * d 1

/-- `k` is the highest level with positive buoyancy. -/
def Spec.Top (n : ℕ) (d : ℕ → ℝ) (k : ℕ) : Prop := 1 ≤ k ∧ k ≤ n ∧ 0 < d k ∧ ∀ l, k < l → l ≤ n → d l ≤ 0

/-- The pressures are positive and fall from level to level. -/
def Spec.Falling (n : ℕ) (p : ℕ → ℝ) : Prop := (∀ l, 1 ≤ l → l ≤ n → 0 < p l) ∧ ∀ l, 1 ≤ l → l < n → p (l + 1) < p l

/-! ### Lemmas -/

theorem eps_pos : 0 < eps := by unfold eps rd rv; norm_num

theorem satPressure_nonneg (t : ℝ) : 0 ≤ satPressure t := by
  unfold satPressure
  split_ifs
  · exact le_rfl
  · positivity

theorem satPressure_pos {t : ℝ} (h : 243.5 + t ≠ 0) : 0 < satPressure t := by
  unfold satPressure
  rw [if_neg h]
  positivity

theorem neutral_spec (d : ℕ → ℝ) (n : ℕ) : (neutral d n = 1 ∧ ∀ l, 1 < l → l ≤ n → d l ≤ 0) ∨ (2 ≤ neutral d n ∧ Spec.Top n d (neutral d n)) := by
  induction n with
  | zero => exact Or.inl ⟨rfl, fun l a b => by omega⟩
  | succ n ih =>
    rw [neutral]
    split_ifs with h
    · rcases Nat.eq_zero_or_pos n with rfl | g
      · exact Or.inl ⟨rfl, fun l a b => by omega⟩
      · exact Or.inr ⟨by omega, by omega, le_rfl, h, fun l a b => by omega⟩
    · rcases ih with ⟨a, b⟩ | ⟨a, b⟩
      · refine Or.inl ⟨a, fun l c e => ?_⟩
        rcases Nat.lt_or_ge n l with g | g
        · rw [show l = n + 1 by omega]
          exact not_lt.mp h
        · exact b l c g
      · refine Or.inr ⟨a, b.1, by have := b.2.1; omega, b.2.2.1, fun l c e => ?_⟩
        rcases Nat.lt_or_ge n l with g | g
        · rw [show l = n + 1 by omega]
          exact not_lt.mp h
        · exact b.2.2.2 l c g

theorem areas_eq (e : Env) (p : ℝ) (d : ℕ → ℝ) (k : ℕ) : (areas e p d k).1 - (areas e p d k).2 = Spec.energy e p d k := by
  unfold areas Spec.energy
  dsimp only
  set f := fun level => (d level + d (level - 1)) * layerFactor e.p level
  have h1 : ∀ l : List ℕ, (l.map fun l => max (f l) 0).sum - (l.map fun l => -min (f l) 0).sum = (l.map f).sum := by
    intro l
    induction l with
    | nil => simp
    | cons a l ih =>
      simp only [List.map_cons, List.sum_cons]
      have := max_add_min (f a) 0
      linarith
  have h2 : ((List.range' 2 (k - 1)).map f).sum = ∑ l ∈ Finset.Ico 1 k, rd * (d l + d (l + 1)) * (e.p l - e.p (l + 1)) / (e.p l + e.p (l + 1)) := by
    rw [Finset.sum_Ico_eq_sum_range, List.range'_eq_map_range, List.map_map, Finset.sum_range]
    rw [← List.sum_ofFn, List.ofFn_eq_map]
    congr 1
    rw [← List.map_coe_finRange_eq_range, List.map_map]
    refine List.map_congr_left fun i _ => ?_
    simp only [Function.comp, f, layerFactor]
    rw [show 2 + (i : ℕ) - 1 = 1 + i by omega, show 1 + (i : ℕ) + 1 = 2 + i by omega]
    ring
  have := h1 (List.range' 2 (k - 1))
  rw [h2] at this
  have m := max_add_min (d 1) 0
  have : ∀ b : ℝ, b * max (d 1) 0 + b * min (d 1) 0 = b * d 1 := by
    intro b
    rw [← mul_add, m, add_zero]
  have := this (rd * (p - e.p 1) / (p + e.p 1))
  linarith

theorem newton_spec {r p s : ℝ} (hr : 0 ≤ r) (left : ℕ) : ∀ (count : ℕ) (t : ℝ) (c : ℝ × ℝ), newton r p s left count t (satPressure (t - 273.15)) = some c →
    ∃ T : ℝ, 0 < T ∧ satPressure (T - 273.15) < p ∧ |s - moistEntropy r p T (satPressure (T - 273.15))| ≤ 0.001 / 0.3 * moistRate r p T (satPressure (T - 273.15)) ∧
      c = (T, satMixing (satPressure (T - 273.15)) p) := by
  induction left with
  | zero => intro _ _ _ h; cases h
  | succ left ih =>
    intro count t c h
    rw [newton] at h
    obtain ⟨a, ha, hae⟩ : ∃ a : ℝ, 0.3 ≤ |a| ∧ (if count + 1 < 3 then (0.3 : ℝ) else 1) = a := by
      refine ⟨_, ?_, rfl⟩
      split_ifs
      · rw [abs_of_pos (by norm_num)]
      · rw [abs_one]; norm_num
    rw [hae] at h
    dsimp only at h
    split_ifs at h with h1 h2 h3
    · push Not at h1
      refine ⟨t, h1.1, h1.2, ?_, (Option.some.inj h).symm⟩
      have hes := satPressure_nonneg (t - 273.15)
      have hq : 0 ≤ satMixing (satPressure (t - 273.15)) p := by
        unfold satMixing
        have := eps_pos
        have : 0 < p - satPressure (t - 273.15) := by linarith
        positivity
      have hrate : 0 < moistRate r p t (satPressure (t - 273.15)) := by
        unfold moistRate
        have h0 := h1.1
        have : 0 < cpd + r * cl := by unfold cpd cl; nlinarith
        have h5 : 0 ≤ (alv0 + cpvmcl * (t - 273.15)) * (alv0 + cpvmcl * (t - 273.15)) * satMixing (satPressure (t - 273.15)) p * (1 / rv) / (t * t) := by
          have h6 := mul_self_nonneg (alv0 + cpvmcl * (t - 273.15))
          have : 0 < 1 / rv := by unfold rv; norm_num
          positivity
        exact div_pos (by linarith) h0
      rw [add_sub_cancel_left] at h2
      rw [abs_div, abs_of_pos hrate, div_le_iff₀ hrate, abs_mul] at h2
      have := abs_nonneg (s - moistEntropy r p t (satPressure (t - 273.15)))
      have h7 := (mul_le_mul_of_nonneg_right ha this).trans h2
      rw [show (0.001 : ℝ) / 0.3 * moistRate r p t (satPressure (t - 273.15)) = 0.001 * moistRate r p t (satPressure (t - 273.15)) / 0.3 by ring]
      rw [le_div_iff₀ (by norm_num)]
      linarith
    · exact ih _ _ _ h

theorem moist_spec (e : Env) (sig r lcl s : ℝ) (left : ℕ) : ∀ (level : ℕ) (d d' : ℕ → ℝ), (∀ l, level ≤ l → l + 1 < level + left → e.p (l + 1) < e.p l) →
    moistLoop e sig r lcl s left level d = some d' → ∀ l,
      (level ≤ l → l < level + left → 50 ≤ e.p l → e.p l < lcl → ∃ c, newton r (e.p l) s 500 0 (e.t l) (satPressure (e.t l - 273.15)) = some c ∧
        d' l = moistTemp sig r c - virtualTemp (e.t l) (e.r l)) ∧
      (¬ (level ≤ l ∧ l < level + left ∧ 50 ≤ e.p l ∧ e.p l < lcl) → d' l = d l) := by
  induction left with
  | zero =>
    intro level d d' _ h l
    cases h
    exact ⟨fun a b => by omega, fun _ => rfl⟩
  | succ left ih =>
    intro level d d' hm h l
    have hm' : ∀ l, level + 1 ≤ l → l + 1 < level + 1 + left → e.p (l + 1) < e.p l := fun l a b => hm l (by omega) (by omega)
    rw [moistLoop] at h
    split_ifs at h with h1 h2
    · cases h
      -- all further levels are below 50 mb as well
      have key : ∀ k, level + k < level + (left + 1) → e.p (level + k) < 50 := by
        intro k
        induction k with
        | zero => intro _; exact h1
        | succ k ih2 =>
          intro hk
          exact (hm (level + k) (by omega) (by omega)).trans (ih2 (by omega))
      refine ⟨fun a b c => absurd (key (l - level) (by omega)) (not_lt.mpr ?_), fun _ => rfl⟩
      rw [show level + (l - level) = l by omega]
      exact c
    · cases hn : newton r (e.p level) s 500 0 (e.t level) (satPressure (e.t level - 273.15)) with
      | none =>
        rw [hn] at h
        cases h
      | some c =>
        rw [hn] at h
        dsimp only at h
        have := ih (level + 1) _ d' hm' h l
        rcases Nat.lt_trichotomy l level with g | g | g
        · refine ⟨fun a => by omega, fun _ => ?_⟩
          rw [this.2 (by omega), Function.update_of_ne (by omega)]
        · subst g
          refine ⟨fun _ _ _ _ => ⟨c, hn, ?_⟩, fun k => absurd ⟨le_rfl, by omega, not_lt.mp h1, h2⟩ k⟩
          rw [this.2 (by omega), Function.update_self]
        · refine ⟨fun a b x y => this.1 (by omega) (by omega) x y, fun k => ?_⟩
          rw [this.2 (by
            rintro ⟨a, b, x, y⟩
            exact k ⟨by omega, by omega, x, y⟩), Function.update_of_ne (by omega)]
    · have := ih (level + 1) _ d' hm' h l
      rcases Nat.lt_trichotomy l level with g | g | g
      · exact ⟨fun a => by omega, fun _ => this.2 (by omega)⟩
      · subst g
        exact ⟨fun _ _ _ y => absurd y h2, fun _ => this.2 (by omega)⟩
      · refine ⟨fun a b x y => this.1 (by omega) (by omega) x y, fun k => this.2 ?_⟩
        rintro ⟨a, b, x, y⟩
        exact k ⟨by omega, by omega, x, y⟩

/-! ### Properties -/

/-- C190: CAPE is never negative, and its status is 0, 1 or 2. -/
theorem C190_nonneg {e : Env} {sig t r p : ℝ} {c : Cape} (h : cape e sig t r p = some c) : 0 ≤ c.value ∧ (c.flag = 0 ∨ c.flag = 1 ∨ c.flag = 2) := by
  unfold cape at h
  split_ifs at h
  · cases h
    exact ⟨le_rfl, Or.inl rfl⟩
  · split at h
    · cases h
      exact ⟨le_rfl, Or.inr (Or.inr rfl)⟩
    · unfold integrate at h
      dsimp only at h
      split_ifs at h
      · cases h
        exact ⟨le_rfl, Or.inr (Or.inl rfl)⟩
      · cases h
        exact ⟨le_max_right _ _, Or.inr (Or.inl rfl)⟩
      · cases h
        exact ⟨le_max_right _ _, Or.inr (Or.inl rfl)⟩

/-- C190: a parcel colder than 200 K or drier than 1e-6 is refused with status 0 and no energy, no other parcel is. -/
theorem C190_refused {e : Env} {sig t r p : ℝ} {c : Cape} (h : cape e sig t r p = some c) : c.flag = 0 ↔ r < 1.0e-6 ∨ t < 200 := by
  unfold cape at h
  split_ifs at h with h1
  · cases h
    simp [h1]
  · refine ⟨fun g => ?_, fun g => absurd g h1⟩
    split at h
    · cases h
      cases g
    · unfold integrate at h
      dsimp only at h
      split_ifs at h
      all_goals
        cases h
        cases g

theorem cape_lifted {e : Env} {sig t r p : ℝ} {c : Cape} (hp : Spec.Falling e.n e.p) (h : cape e sig t r p = some c) (hf : c.flag = 1) :
    ∃ d, Spec.Lifted e sig t r p d ∧ integrate e p d = some c := by
  unfold cape at h
  split_ifs at h with h1
  · cases h
    cases hf
  · push Not at h1
    cases hm : moistLoop e sig r (condensation t r p) (reversibleEntropy t r p) e.n 1 (dryDiff e t r p (condensation t r p)) with
    | none =>
      rw [hm] at h
      cases h
      cases hf
    | some d =>
      rw [hm] at h
      have key := moist_spec _ _ _ _ _ _ _ _ _ (fun l a b => hp.2 l a (by omega)) hm
      refine ⟨d, ⟨fun l a b g => ?_, fun l a b g k => ?_, fun l a b g k => ?_⟩, h⟩
      · rw [(key l).2 (fun x => absurd x.2.2.1 (not_le.mpr g)), dryDiff, if_neg (fun x => absurd x.1 (not_le.mpr g))]
      · rw [(key l).2 (fun x => absurd x.2.2.2 (not_lt.mpr k)), dryDiff, if_pos ⟨g, k⟩]
        rfl
      · obtain ⟨x, hx, e2⟩ := (key l).1 a (by omega) g k
        obtain ⟨T, h0, h2, h3, rfl⟩ := newton_spec (by linarith [h1.1]) _ _ _ _ hx
        exact ⟨T, h0, h2, h3, e2⟩

/-- C190: with status 1 the value is the buoyant energy of the lifted parcel up to the level where its buoyancy vanishes for good (linear in pressure between
levels), or zero; temperature and pressure of this level are reported. -/
theorem C190_energy {e : Env} {sig t r p : ℝ} {c : Cape} (hp : Spec.Falling e.n e.p) (h : cape e sig t r p = some c) (hf : c.flag = 1) :
    ∃ d, Spec.Lifted e sig t r p d ∧
      (((∀ l, 1 < l → l ≤ e.n → d l ≤ 0) ∧ c.value = 0 ∧ c.tout = e.t 1 ∧ c.lout = 0) ∨
      (∃ k, 2 ≤ k ∧ k = e.n ∧ Spec.Top e.n d k ∧ c.value = max (Spec.energy e p d k) 0 ∧ c.tout = e.t k ∧ c.lout = e.p k) ∨
      ∃ k x, 2 ≤ k ∧ k < e.n ∧ Spec.Top e.n d k ∧ 0 < x ∧ x ≤ 1 ∧ (1 - x) * d k + x * d (k + 1) = 0 ∧ c.lout = (1 - x) * e.p k + x * e.p (k + 1) ∧
        c.tout = (1 - x) * e.t k + x * e.t (k + 1) ∧
        c.value = max (Spec.energy e p d k + rd * d k * (e.p k - c.lout) / (e.p k + c.lout)) 0) := by
  obtain ⟨d, hd, hi⟩ := cape_lifted hp h hf
  refine ⟨d, hd, ?_⟩
  unfold integrate at hi
  dsimp only at hi
  have hsub := areas_eq e p d (neutral d e.n)
  rcases neutral_spec d e.n with ⟨a, b⟩ | ⟨a, b⟩
  · rw [if_pos a] at hi
    cases hi
    exact Or.inl ⟨b, rfl, rfl, rfl⟩
  · generalize neutral d e.n = k at hi a b hsub
    rw [if_neg (by omega)] at hi
    rcases Nat.lt_or_ge k e.n with g | g
    · rw [if_pos g] at hi
      split_ifs at hi with h2
      cases hi
      have hk := b.2.2.1
      have hk' := b.2.2.2 (k + 1) (by omega) (by omega)
      have hden : 0 < d k - d (k + 1) := by linarith
      have hpp := hp.2 k (by omega) g
      have hq : crossing e d k = (1 - d k / (d k - d (k + 1))) * e.p k + d k / (d k - d (k + 1)) * e.p (k + 1) := by
        unfold crossing
        field_simp
        ring
      refine Or.inr (Or.inr ⟨k, d k / (d k - d (k + 1)), a, g, b, by positivity, ?_, ?_, hq, ?_, ?_⟩)
      · rw [div_le_one hden]
        linarith
      · field_simp
        ring
      · dsimp only
        rw [hq]
        have : e.p k - e.p (k + 1) ≠ 0 := by linarith
        field_simp
        ring
      · dsimp only
        rw [← hsub]
        congr 1
        ring
    · rw [if_neg (by omega)] at hi
      cases hi
      refine Or.inr (Or.inl ⟨k, a, le_antisymm b.2.1 g, b, ?_, rfl, rfl⟩)
      dsimp only
      rw [← hsub, add_zero]

/-- C190: with status 1 the outflow level is zero or the pressure of a point of the column, and the outflow temperature lies between temperatures of the column. -/
theorem C190_outflow {e : Env} {sig t r p : ℝ} {c : Cape} (hn : 1 ≤ e.n) (hp : Spec.Falling e.n e.p) (h : cape e sig t r p = some c) (hf : c.flag = 1) {lo hi : ℝ}
    (ht : ∀ l, 1 ≤ l → l ≤ e.n → lo ≤ e.t l ∧ e.t l ≤ hi) : lo ≤ c.tout ∧ c.tout ≤ hi ∧ (c.lout = 0 ∨ e.p e.n ≤ c.lout ∧ c.lout ≤ e.p 1) := by
  have mono : ∀ a b, 1 ≤ a → a ≤ b → b ≤ e.n → e.p b ≤ e.p a := by
    intro a b h1 h2
    induction b, h2 using Nat.le_induction with
    | base => intro _; exact le_rfl
    | succ b h3 ih => intro h4; exact (hp.2 b (by omega) (by omega)).le.trans (ih (by omega))
  obtain ⟨d, -, h1⟩ := C190_energy hp h hf
  rcases h1 with ⟨-, -, a, b⟩ | ⟨k, k2, rfl, -, -, a, b⟩ | ⟨k, x, k2, kn, -, x0, x1, -, b, a, -⟩
  · rw [a, b]
    exact ⟨(ht 1 le_rfl hn).1, (ht 1 le_rfl hn).2, Or.inl rfl⟩
  · rw [a, b]
    exact ⟨(ht _ hn le_rfl).1, (ht _ hn le_rfl).2, Or.inr ⟨le_rfl, mono 1 _ le_rfl hn le_rfl⟩⟩
  · rw [a, b]
    have t1 := ht k (by omega) (by omega)
    have t2 := ht (k + 1) (by omega) (by omega)
    have p1 := mono 1 k le_rfl (by omega) (by omega)
    have p2 := mono k (k + 1) (by omega) (by omega) (by omega)
    have p3 := mono (k + 1) e.n (by omega) (by omega) le_rfl
    refine ⟨by nlinarith, by nlinarith, Or.inr ⟨by nlinarith, by nlinarith⟩⟩

end Skyborn.Gpi
