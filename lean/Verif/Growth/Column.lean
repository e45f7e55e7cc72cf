/-
Remapping a profile to the solver levels: the two implementations (`interp_pressure_1d` for one profile, the loop of the compiled kernel for many)
give the same numbers, those on the broken line through the profile.
-/
import Verif.Growth.Baroc
import Verif.Growth.BarotProps
import Verif.Interp.Pressure1DProps
import Mathlib.Tactic.LinearCombination

namespace Skyborn.Growth

open Classical

/-! ### Specification -/

/-- Strictly increasing or strictly decreasing. -/
def Spec.Strict (n : ℕ) (p : ℕ → ℝ) : Prop := (∀ i, 1 ≤ i → i + 1 ≤ n → p i < p (i + 1)) ∨ ∀ i, 1 ≤ i → i + 1 ≤ n → p (i + 1) < p i

/-- `y` is the value at pressure `x` of the broken line through `(p 1, v 1), .., (p n, v n)`, whose pieces are straight in pressure or in the logarithm
of pressure. -/
def Spec.Broken (log : Bool) (n : ℕ) (p v : ℕ → ℝ) (x y : ℝ) : Prop :=
  ∃ j, 1 ≤ j ∧ j + 1 ≤ n ∧ min (p j) (p (j + 1)) ≤ x ∧ x ≤ max (p j) (p (j + 1)) ∧
    Interp.Spec.OnLine log (p j) (v j) (p (j + 1)) (v (j + 1)) x y

/-! ### Broken lines -/

theorem strict_lt {n : ℕ} {p : ℕ → ℝ} (h : ∀ i, 1 ≤ i → i + 1 ≤ n → p i < p (i + 1)) {i j : ℕ} (h1 : 1 ≤ i) (hij : i < j) (h2 : j ≤ n) : p i < p j := by
  induction j, hij using Nat.le_induction with
  | base => exact h i h1 h2
  | succ j hij ih => exact (ih (by omega)).trans (h j (by omega) h2)

theorem strict_le {n : ℕ} {p : ℕ → ℝ} (h : ∀ i, 1 ≤ i → i + 1 ≤ n → p i < p (i + 1)) {i j : ℕ} (h1 : 1 ≤ i) (hij : i ≤ j) (h2 : j ≤ n) : p i ≤ p j := by
  rcases Nat.lt_or_eq_of_le hij with g | g
  · exact (strict_lt h h1 g h2).le
  · rw [g]

theorem strict_reverse {n : ℕ} {p : ℕ → ℝ} (h : ∀ i, 1 ≤ i → i + 1 ≤ n → p (i + 1) < p i) :
    ∀ i, 1 ≤ i → i + 1 ≤ n → p (n + 1 - i) < p (n + 1 - (i + 1)) := by
  intro i h1 h2
  have := h (n - i) (by omega) (by omega)
  rwa [show n - i + 1 = n + 1 - i by omega, show n - i = n + 1 - (i + 1) by omega] at this

theorem broken_congr {log : Bool} {n : ℕ} {p v p' v' : ℕ → ℝ} {x y : ℝ} (hp : ∀ i, 1 ≤ i → i ≤ n → p' i = p i) (hv : ∀ i, 1 ≤ i → i ≤ n → v' i = v i)
    (h : Spec.Broken log n p v x y) : Spec.Broken log n p' v' x y := by
  obtain ⟨j, j1, j2, h⟩ := h
  refine ⟨j, j1, j2, ?_⟩
  rw [hp j j1 (by omega), hp (j + 1) (by omega) j2, hv j j1 (by omega), hv (j + 1) (by omega) j2]
  exact h

theorem broken_reverse {log : Bool} {n : ℕ} {p v : ℕ → ℝ} {x y : ℝ} (h : Spec.Broken log n p v x y) :
    Spec.Broken log n (fun i => p (n + 1 - i)) (fun i => v (n + 1 - i)) x y := by
  obtain ⟨j, j1, j2, a, b, c⟩ := h
  refine ⟨n - j, by omega, by omega, ?_⟩
  dsimp only
  rw [show n + 1 - (n - j) = j + 1 by omega, show n + 1 - (n - j + 1) = j by omega, min_comm, max_comm]
  exact ⟨a, b, c.symm⟩

theorem broken_reverse_iff {log : Bool} {n : ℕ} {p v : ℕ → ℝ} {x y : ℝ} :
    Spec.Broken log n (fun i => p (n + 1 - i)) (fun i => v (n + 1 - i)) x y ↔ Spec.Broken log n p v x y := by
  refine ⟨fun h => ?_, broken_reverse⟩
  have := broken_reverse h
  refine broken_congr (fun i h1 h2 => ?_) (fun i h1 h2 => ?_) this
  · rw [show n + 1 - (n + 1 - i) = i by omega]
  · rw [show n + 1 - (n + 1 - i) = i by omega]

theorem onLine_left {log : Bool} {p0 x0 p1 x1 v : ℝ} (hp : log = true → 0 < p0 ∧ 0 < p1) (hne : p0 ≠ p1)
    (h : Interp.Spec.OnLine log p0 x0 p1 x1 p0 v) : v = x0 :=
  Interp.onLine_unique hp hne h (by unfold Interp.Spec.OnLine; ring)

theorem onLine_right {log : Bool} {p0 x0 p1 x1 v : ℝ} (hp : log = true → 0 < p0 ∧ 0 < p1) (hne : p0 ≠ p1)
    (h : Interp.Spec.OnLine log p0 x0 p1 x1 p1 v) : v = x1 :=
  Interp.onLine_unique hp hne h (by unfold Interp.Spec.OnLine; ring)

theorem broken_unique_inc {log : Bool} {n : ℕ} {p v : ℕ → ℝ} (hs : ∀ i, 1 ≤ i → i + 1 ≤ n → p i < p (i + 1)) (hpos : ∀ i, 1 ≤ i → i ≤ n → 0 < p i) {x y z : ℝ}
    (hy : Spec.Broken log n p v x y) (hz : Spec.Broken log n p v x z) : y = z := by
  have main : ∀ {a b : ℕ} {y z : ℝ}, 1 ≤ a → a < b → b + 1 ≤ n → x ≤ p (a + 1) → p b ≤ x →
      Interp.Spec.OnLine log (p a) (v a) (p (a + 1)) (v (a + 1)) x y → Interp.Spec.OnLine log (p b) (v b) (p (b + 1)) (v (b + 1)) x z → y = z := by
    intro a b y z a1 hab b2 h1 h2 c d
    have e : p (a + 1) = p b := le_antisymm (strict_le hs (by omega) hab (by omega)) (h2.trans h1)
    have ei : a + 1 = b := by
      rcases Nat.lt_or_eq_of_le (Nat.succ_le_of_lt hab) with g | g
      · exact absurd e (strict_lt hs (by omega) g (by omega)).ne
      · exact g
    have ex : x = p (a + 1) := le_antisymm h1 (e ▸ h2)
    subst ei
    rw [ex] at c d
    have n1 := hs a a1 (by omega)
    have n2 := hs (a + 1) (by omega) b2
    rw [onLine_right (fun _ => ⟨hpos a a1 (by omega), hpos (a + 1) (by omega) (by omega)⟩) n1.ne c,
      onLine_left (fun _ => ⟨hpos (a + 1) (by omega) (by omega), hpos (a + 1 + 1) (by omega) b2⟩) n2.ne d]
  obtain ⟨a, a1, a2, a3, a4, a5⟩ := hy
  obtain ⟨b, b1, b2, b3, b4, b5⟩ := hz
  rw [min_eq_left (hs a a1 a2).le] at a3
  rw [max_eq_right (hs a a1 a2).le] at a4
  rw [min_eq_left (hs b b1 b2).le] at b3
  rw [max_eq_right (hs b b1 b2).le] at b4
  rcases Nat.lt_trichotomy a b with h | h | h
  · exact main a1 h b2 a4 b3 a5 b5
  · subst h
    exact Interp.onLine_unique (fun _ => ⟨hpos a a1 (by omega), hpos (a + 1) (by omega) a2⟩) (hs a a1 a2).ne a5 b5
  · exact (main b1 h a2 b4 a3 b5 a5).symm

/-- The broken line has one value at a pressure. -/
theorem broken_unique {log : Bool} {n : ℕ} {p v : ℕ → ℝ} (hs : Spec.Strict n p) (hpos : ∀ i, 1 ≤ i → i ≤ n → 0 < p i) {x y z : ℝ}
    (hy : Spec.Broken log n p v x y) (hz : Spec.Broken log n p v x z) : y = z := by
  rcases hs with hs | hs
  · exact broken_unique_inc hs hpos hy hz
  · exact broken_unique_inc (n := n) (strict_reverse hs) (fun i h1 h2 => hpos _ (by omega) (by omega)) (broken_reverse hy) (broken_reverse hz)

/-- Between the first and the last pressure there is a bracket. -/
theorem exists_bracket {n : ℕ} (hn : 2 ≤ n) (p : ℕ → ℝ) {x : ℝ} (h1 : min (p 1) (p n) ≤ x) (h2 : x ≤ max (p 1) (p n)) :
    ∃ j, 1 ≤ j ∧ j + 1 ≤ n ∧ min (p j) (p (j + 1)) ≤ x ∧ x ≤ max (p j) (p (j + 1)) := by
  induction n, hn using Nat.le_induction with
  | base => exact ⟨1, le_rfl, le_rfl, h1, h2⟩
  | succ n hn ih =>
    by_cases h : min (p 1) (p n) ≤ x ∧ x ≤ max (p 1) (p n)
    · obtain ⟨j, j1, j2, h⟩ := ih h.1 h.2
      exact ⟨j, j1, by omega, h⟩
    · refine ⟨n, by omega, le_rfl, ?_, ?_⟩
      · simp only [min_le_iff, le_max_iff] at h h1 h2 ⊢
        by_contra hc
        push Not at hc h
        rcases h1 with g | g
        · have := h (Or.inl g)
          linarith [this.2]
        · linarith
      · simp only [min_le_iff, le_max_iff] at h h1 h2 ⊢
        by_contra hc
        push Not at hc h
        rcases h2 with g | g
        · have := h (Or.inr hc.1.le)
          linarith [this.1]
        · linarith

theorem coord_ne {log : Bool} {a b : ℝ} (ha : 0 < a) (hb : 0 < b) (h : a ≠ b) : Interp.Spec.coord log b - Interp.Spec.coord log a ≠ 0 := by
  rcases lt_or_gt_of_ne h with g | g
  · have := Interp.coord_lt (u := log) (fun _ => ha) g; linarith
  · have := Interp.coord_lt (u := log) (fun _ => hb) g; linarith

theorem strict_ne {n : ℕ} {p : ℕ → ℝ} (hs : Spec.Strict n p) {i : ℕ} (h1 : 1 ≤ i) (h2 : i + 1 ≤ n) : p i ≠ p (i + 1) := by
  rcases hs with hs | hs
  · exact (hs i h1 h2).ne
  · exact (hs i h1 h2).ne'

theorem broken_exists {log : Bool} {n : ℕ} (hn : 2 ≤ n) {p : ℕ → ℝ} (v : ℕ → ℝ) (hs : Spec.Strict n p) (hpos : ∀ i, 1 ≤ i → i ≤ n → 0 < p i) {x : ℝ}
    (h1 : min (p 1) (p n) ≤ x) (h2 : x ≤ max (p 1) (p n)) : ∃ y, Spec.Broken log n p v x y := by
  obtain ⟨j, j1, j2, h⟩ := exists_bracket hn p h1 h2
  have hc := coord_ne (log := log) (hpos j j1 (by omega)) (hpos (j + 1) (by omega) j2) (strict_ne hs j1 j2)
  refine ⟨v j + (v (j + 1) - v j) * (Interp.Spec.coord log x - Interp.Spec.coord log (p j)) / (Interp.Spec.coord log (p (j + 1)) - Interp.Spec.coord log (p j)),
    j, j1, j2, h.1, h.2, ?_⟩
  unfold Interp.Spec.OnLine
  field_simp
  ring

/-- Values of a positive profile are positive. -/
theorem broken_pos {log : Bool} {n : ℕ} {p v : ℕ → ℝ} (hs : Spec.Strict n p) (hpos : ∀ i, 1 ≤ i → i ≤ n → 0 < p i)
    (hv : ∀ i, 1 ≤ i → i ≤ n → 0 < v i) {x y : ℝ} (h : Spec.Broken log n p v x y) : 0 < y := by
  obtain ⟨j, j1, j2, a, b, c⟩ := h
  have p1 := hpos j j1 (by omega)
  have p2 := hpos (j + 1) (by omega) j2
  have v1 := hv j j1 (by omega)
  have v2 := hv (j + 1) (by omega) j2
  rcases lt_or_gt_of_ne (strict_ne hs j1 j2) with g | g
  · rw [min_eq_left g.le] at a
    rw [max_eq_right g.le] at b
    exact lt_of_lt_of_le (lt_min v2 v1) (c.symm.between (fun _ => p1) a b g).1
  · rw [min_eq_right g.le] at a
    rw [max_eq_left g.le] at b
    exact lt_of_lt_of_le (lt_min v1 v2) (c.between (fun _ => p2) a b g).1

/-- A constant added to the profile is added to its values. -/
theorem broken_add {log : Bool} {n : ℕ} {p v : ℕ → ℝ} {x y : ℝ} (c : ℝ) (h : Spec.Broken log n p v x y) :
    Spec.Broken log n p (fun i => v i + c) x (y + c) := by
  obtain ⟨j, j1, j2, a, b, d⟩ := h
  refine ⟨j, j1, j2, a, b, ?_⟩
  unfold Interp.Spec.OnLine at d ⊢
  linear_combination d

/-- A constant profile is constant. -/
theorem broken_const {log : Bool} {n : ℕ} {p : ℕ → ℝ} {v : ℕ → ℝ} {c : ℝ} (hs : Spec.Strict n p) (hpos : ∀ i, 1 ≤ i → i ≤ n → 0 < p i)
    (hv : ∀ i, 1 ≤ i → i ≤ n → v i = c) {x y : ℝ} (h : Spec.Broken log n p v x y) : y = c := by
  obtain ⟨j, j1, j2, a, b, d⟩ := h
  rw [hv j j1 (by omega), hv (j + 1) (by omega) j2] at d
  exact Interp.onLine_unique (fun _ => ⟨hpos j j1 (by omega), hpos (j + 1) (by omega) j2⟩) (strict_ne hs j1 j2) d (by unfold Interp.Spec.OnLine; ring)

/-! ### The loop of the compiled kernel -/

theorem walk_spec {nin : ℕ} {p : ℕ → ℝ} {t : ℝ} {j : ℕ} (hj : j ≤ nin - 1) (hpj : p j ≤ t) :
    j ≤ walk nin p t j ∧ walk nin p t j ≤ nin - 1 ∧ p (walk nin p t j) ≤ t ∧ (walk nin p t j = nin - 1 ∨ t ≤ p (walk nin p t j + 1)) := by
  induction j using walk.induct nin p t with
  | case1 j h ih =>
    rw [walk, if_pos h]
    obtain ⟨a, b, c, d⟩ := ih (by omega) h.2.le
    exact ⟨by omega, b, c, d⟩
  | case2 j h =>
    rw [walk, if_neg h]
    refine ⟨le_rfl, hj, hpj, ?_⟩
    by_contra hc
    push Not at hc
    exact h ⟨by omega, hc.2⟩

theorem levelValue_onLine {log : Bool} {p v : ℕ → ℝ} {t : ℝ} {j : ℕ} (h1 : 0 < p j) (h2 : 0 < p (j + 1)) (hne : p j ≠ p (j + 1)) :
    Interp.Spec.OnLine log (p j) (v j) (p (j + 1)) (v (j + 1)) t (levelValue p v (if log then 2 else 1) t j) := by
  have hc := coord_ne (log := log) h1 h2 hne
  unfold levelValue
  split
  · rename_i e
    unfold Interp.Spec.OnLine
    rw [e]
    ring
  · split
    · rename_i e
      unfold Interp.Spec.OnLine
      rw [e]
    · cases log
      · rw [if_pos (by simp)]
        simp only [Interp.Spec.coord, Interp.Spec.OnLine, Bool.false_eq_true, if_false] at hc ⊢
        field_simp
        ring
      · rw [if_neg (by simp)]
        simp only [Interp.Spec.coord, Interp.Spec.OnLine, if_true] at hc ⊢
        field_simp
        ring

/-- The kernel remaps to the broken line. -/
theorem interpNoExtrap_spec {log : Bool} {nin : ℕ} (hn : 2 ≤ nin) {sp : ℕ → ℝ} (sv : ℕ → ℝ) (hs : Spec.Strict nin sp) (hpos : ∀ i, 1 ≤ i → i ≤ nin → 0 < sp i)
    {nout : ℕ} {tp : ℕ → ℝ} (ht : ∀ i, 1 ≤ i → i + 1 ≤ nout → tp i < tp (i + 1))
    (hr : ∀ i, 1 ≤ i → i ≤ nout → min (sp 1) (sp nin) ≤ tp i ∧ tp i ≤ max (sp 1) (sp nin)) :
    ∃ out, interpNoExtrap nin sp sv nout tp (if log then 2 else 1) = some out ∧ ∀ i, 1 ≤ i → i ≤ nout → Spec.Broken log nin sp sv (tp i) (out i) := by
  have tpos : ∀ i, 1 ≤ i → i ≤ nout → 0 < tp i := fun i h1 h2 =>
    lt_of_lt_of_le (lt_min (hpos 1 le_rfl (by omega)) (hpos nin (by omega) le_rfl)) (hr i h1 h2).1
  unfold interpNoExtrap
  rw [if_neg (by omega)]
  dsimp only
  -- the reordered profile
  obtain ⟨p, v, ep, ev, hp, hq, hrng, hb⟩ : ∃ p v : ℕ → ℝ, (if sp 1 > sp nin then fun i => sp (nin - i + 1) else sp) = p ∧
      (if sp 1 > sp nin then fun i => sv (nin - i + 1) else sv) = v ∧ (∀ i, 1 ≤ i → i + 1 ≤ nin → p i < p (i + 1)) ∧
      (∀ i, 1 ≤ i → i ≤ nin → 0 < p i) ∧ (∀ i, 1 ≤ i → i ≤ nout → p 1 ≤ tp i ∧ tp i ≤ p nin) ∧
      ∀ x y, Spec.Broken log nin p v x y → Spec.Broken log nin sp sv x y := by
    rcases hs with hs | hs
    · have hlt := strict_lt hs (i := 1) (j := nin) le_rfl (by omega) le_rfl
      refine ⟨sp, sv, if_neg (by linarith), if_neg (by linarith), hs, hpos, fun i h1 h2 => ?_, fun x y h => h⟩
      have := hr i h1 h2
      rwa [min_eq_left hlt.le, max_eq_right hlt.le] at this
    · have hlt := strict_lt (strict_reverse hs) (i := 1) (j := nin) le_rfl (by omega) le_rfl
      rw [show nin + 1 - 1 = nin by omega, show nin + 1 - nin = 1 by omega] at hlt
      refine ⟨fun i => sp (nin - i + 1), fun i => sv (nin - i + 1), if_pos hlt, if_pos hlt, fun i h1 h2 => ?_, fun i h1 h2 => hpos _ (by omega) (by omega),
        fun i h1 h2 => ?_, fun x y h => ?_⟩
      · have := strict_reverse hs i h1 h2
        rwa [show nin + 1 - i = nin - i + 1 by omega, show nin + 1 - (i + 1) = nin - (i + 1) + 1 by omega] at this
      · have := hr i h1 h2
        rw [min_eq_right hlt.le, max_eq_left hlt.le] at this
        dsimp only
        rwa [show nin - 1 + 1 = nin by omega, show nin - nin + 1 = 1 by omega]
      · refine broken_reverse_iff.mp (broken_congr (fun i h1 h2 => ?_) (fun i h1 h2 => ?_) h)
        · rw [show nin + 1 - i = nin - i + 1 by omega]
        · rw [show nin + 1 - i = nin - i + 1 by omega]
  rw [ep, ev]
  rw [if_neg (by
    rintro ⟨i, h1, h2, h3⟩
    exact absurd (hp i h1 (by omega)) (not_lt.mpr h3)), if_neg (by
    rintro ⟨i, h1, h2, h3⟩
    exact absurd (ht i h1 (by omega)) (not_lt.mpr h3)), if_neg (by
    rintro ⟨-, ⟨i, h1, h2, h3⟩ | ⟨i, h1, h2, h3⟩⟩
    · exact absurd (hq i h1 h2) (not_lt.mpr h3)
    · exact absurd (tpos i h1 h2) (not_lt.mpr h3))]
  obtain ⟨s, e, hs⟩ := doLoopM_inv (lo := 1) (hi := nout) (by omega) (s := ((1, fun _ => 0) : ℕ × (ℕ → ℝ)))
    (f := fun i s => if tp i < p 1 ∨ tp i > p nin then none
      else some (walk nin p (tp i) s.1, Function.update s.2 i (levelValue p v (if log then 2 else 1) (tp i) (walk nin p (tp i) s.1))))
    (fun i s => (1 ≤ s.1 ∧ s.1 ≤ nin - 1) ∧ (i ≤ nout → p s.1 ≤ tp i) ∧ ∀ k, 1 ≤ k → k < i → Spec.Broken log nin p v (tp k) (s.2 k))
    ⟨⟨le_rfl, by omega⟩, fun h => (hrng 1 le_rfl h).1, fun k _ _ => by omega⟩ (by
      rintro i s h1 h2 ⟨⟨a, b⟩, c, d⟩
      have hi := hrng i h1 h2
      obtain ⟨w1, w2, w3, w4⟩ := walk_spec b (c h2)
      refine ⟨_, if_neg (by
        rintro (g | g)
        · linarith [hi.1]
        · linarith [hi.2]), ⟨⟨by dsimp only; omega, w2⟩, fun h => ?_, fun k k1 k2 => ?_⟩⟩
      · exact w3.trans (ht i h1 h).le
      · dsimp only
        by_cases hk : k = i
        · subst hk
          rw [Function.update_self]
          have hub : tp k ≤ p (walk nin p (tp k) s.1 + 1) := by
            rcases w4 with g | g
            · rw [g, show nin - 1 + 1 = nin by omega]
              exact hi.2
            · exact g
          set j := walk nin p (tp k) s.1
          have hj := hp j (by omega) (by omega)
          refine ⟨j, by omega, by omega, ?_, ?_, levelValue_onLine (hq j (by omega) (by omega)) (hq (j + 1) (by omega) (by omega)) hj.ne⟩
          · rwa [min_eq_left hj.le]
          · rwa [max_eq_right hj.le]
        · rw [Function.update_of_ne hk]
          exact d k k1 (by omega))
  rw [e]
  exact ⟨s.2, rfl, fun i h1 h2 => hb _ _ (hs.2.2 i h1 (by omega))⟩

/-! ### The kernel reads levels 1 .. n -/

theorem finalize_congr {n : ℕ} {g g' : ℕ → Option ℝ} (h : ∀ i, 1 ≤ i → i ≤ n → g i = g' i) (window : ℕ) : finalizeBaroc n g window = finalizeBaroc n g' window := by
  have hm : ∀ i, 1 ≤ i → i ≤ n → runningMean n g window i = runningMean n g' window i := by
    intro i h1 h2
    unfold runningMean
    split
    · exact h i h1 h2
    · dsimp only
      have : windowSum (max 1 (i - window / 2)) (min n (i + window / 2)) g = windowSum (max 1 (i - window / 2)) (min n (i + window / 2)) g' :=
        doLoop_congr fun j s j1 j2 => by rw [h j ((le_max_left _ _).trans j1) (j2.trans (min_le_left _ _))]
      rw [this]
  have ht : lastTurn n (runningMean n g window) = lastTurn n (runningMean n g' window) := by
    refine doLoop_congr fun j s j1 j2 => ?_
    rw [hm j j1 (by omega), hm (j + 1) (by omega) (by omega)]
  unfold finalizeBaroc
  dsimp only
  rw [ht]
  by_cases h0 : lastTurn n (runningMean n g' window) = 0
  · rw [if_pos h0, if_pos h0]
  · rw [if_neg h0, if_neg h0]
    obtain ⟨-, h1⟩ := lastTurn_spec n (runningMean n g' window)
    obtain ⟨⟨a, b⟩, -⟩ := h1 h0
    have : peak (lastTurn n (runningMean n g' window) + 1) (runningMean n g window) = peak (lastTurn n (runningMean n g' window) + 1) (runningMean n g' window) := by
      refine doLoop_congr fun j s j1 j2 => ?_
      rw [hm j j1 (by omega)]
    rw [this]

theorem tri_congr {n : ℕ} {d d' l l' r r' : ℕ → ℝ} (hd : ∀ i, 1 ≤ i → i ≤ n → d i = d' i) (hl : ∀ i, 1 ≤ i → i + 1 ≤ n → l i = l' i)
    (hr : ∀ i, 1 ≤ i → i + 1 ≤ n → r i = r' i) (i j : ℕ) (i1 : 1 ≤ i) (i2 : i ≤ n) (j1 : 1 ≤ j) (j2 : j ≤ n) : tri d l r i j = tri d' l' r' i j := by
  unfold tri
  split
  · exact hd i i1 i2
  · split
    · exact hl j j1 (by omega)
    · split
      · exact hr i i1 (by omega)
      · rfl

theorem spectrum_congr (qz : Solver) {n : ℕ} (hn : 3 ≤ n) {u w z u' w' z' : ℕ → ℝ} (hu : ∀ i, 1 ≤ i → i ≤ n → u i = u' i)
    (hw : ∀ i, 1 ≤ i → i ≤ n → w i = w' i) (hz : ∀ i, 1 ≤ i → i + 1 ≤ n → z i = z' i) (f beta factor : ℝ) :
    barocSpectrum qz n u w z f beta factor = barocSpectrum qz n u' w' z' f beta factor := by
  funext k
  unfold barocSpectrum
  dsimp only
  refine maxImag_congr qz ?_ ?_
  · refine tri_congr (fun i h1 h2 => ?_) (fun i h1 h2 => ?_) fun i h1 h2 => ?_
    · rw [hu i h1 h2]
      congr 2
      unfold barocADiag
      by_cases e1 : i = 1
      · rw [if_pos e1, if_pos e1, hu 1 le_rfl (by omega), hu 2 (by omega) (by omega), hw 1 le_rfl (by omega), hz 1 le_rfl (by omega)]
      · rw [if_neg e1, if_neg e1]
        by_cases e2 : i = n
        · rw [if_pos e2, if_pos e2, hu n (by omega) le_rfl, hu (n - 1) (by omega) (by omega), hw n (by omega) le_rfl, hz (n - 1) (by omega) (by omega)]
        · rw [if_neg e2, if_neg e2, hu i h1 h2, hu (i - 1) (by omega) (by omega), hu (i + 1) (by omega) (by omega), hw i h1 h2,
            hz (i - 1) (by omega) (by omega), hz i h1 (by omega)]
    · unfold barocALower
      rw [hu (i + 1) (by omega) h2, hw (i + 1) (by omega) h2, hz i h1 h2]
    · unfold barocAUpper
      rw [hu i h1 (by omega), hw i h1 (by omega), hz i h1 h2]
  · refine tri_congr (fun i h1 h2 => ?_) (fun i h1 h2 => ?_) fun i h1 h2 => ?_
    · congr 1
      unfold barocBDiag
      by_cases e1 : i = 1
      · rw [if_pos e1, if_pos e1, hw 1 le_rfl (by omega), hz 1 le_rfl (by omega)]
      · rw [if_neg e1, if_neg e1]
        by_cases e2 : i = n
        · rw [if_pos e2, if_pos e2, hw n (by omega) le_rfl, hz (n - 1) (by omega) (by omega)]
        · rw [if_neg e2, if_neg e2, hw i h1 h2, hz (i - 1) (by omega) (by omega), hz i h1 (by omega)]
    · unfold barocBLower
      rw [hw (i + 1) (by omega) h2, hz i h1 h2]
    · unfold barocBUpper
      rw [hw i h1 (by omega), hz i h1 h2]

/-- The kernel reads levels `1 .. n` of its arrays. -/
theorem dbaroc_congr (qz : Solver) {n : ℕ} {u theta p t u' theta' p' t' : ℕ → ℝ} (hu : ∀ i, 1 ≤ i → i ≤ n → u i = u' i)
    (hth : ∀ i, 1 ≤ i → i ≤ n → theta i = theta' i) (hp : ∀ i, 1 ≤ i → i ≤ n → p i = p' i) (ht : ∀ i, 1 ≤ i → i ≤ n → t i = t' i)
    (f beta : ℝ) (window mode count : ℕ) (len : ℝ) :
    dbaroc qz n u theta p t f beta window mode count len = dbaroc qz n u' theta' p' t' f beta window mode count len := by
  unfold dbaroc
  by_cases hn : n < 3
  · rw [if_pos hn, if_pos hn]
  · rw [if_neg hn, if_neg hn]
    push Not at hn
    have hr : ∀ i, 1 ≤ i → i ≤ n → rho p t i = rho p' t' i := fun i h1 h2 => by rw [rho, rho, hp i h1 h2, ht i h1 h2]
    have hw : ∀ i, 1 ≤ i → i ≤ n → dz2 n p i = dz2 n p' i := by
      intro i h1 h2
      unfold dz2
      by_cases e1 : i = 1
      · rw [if_pos e1, if_pos e1, hp 1 le_rfl (by omega), hp 2 (by omega) (by omega)]
      · rw [if_neg e1, if_neg e1]
        by_cases e2 : i = n
        · rw [if_pos e2, if_pos e2, hp n (by omega) le_rfl, hp (n - 1) (by omega) (by omega)]
        · rw [if_neg e2, if_neg e2, hp i h1 h2, hp (i + 1) (by omega) (by omega), hp (i - 1) (by omega) (by omega)]
    have hz : ∀ i, 1 ≤ i → i + 1 ≤ n → nz theta p t i = nz theta' p' t' i := by
      intro i h1 h2
      unfold nz
      rw [hth i h1 (by omega), hth (i + 1) (by omega) h2, hr i h1 (by omega)]
    dsimp only
    rw [spectrum_congr qz hn hu hw hz]
    have hcond : ((∃ i, 1 ≤ i ∧ i ≤ n ∧ (dz2 n p i = 0 ∨ t i = 0)) ∨ (∃ i, 1 ≤ i ∧ i ≤ n - 1 ∧ (rho p t i * theta i = 0 ∨ nz theta p t i = 0))) ↔
        ((∃ i, 1 ≤ i ∧ i ≤ n ∧ (dz2 n p' i = 0 ∨ t' i = 0)) ∨ (∃ i, 1 ≤ i ∧ i ≤ n - 1 ∧ (rho p' t' i * theta' i = 0 ∨ nz theta' p' t' i = 0))) := by
      refine or_congr (exists_congr fun i => and_congr_right fun h1 => and_congr_right fun h2 => ?_)
        (exists_congr fun i => and_congr_right fun h1 => and_congr_right fun h2 => ?_)
      · rw [hw i h1 h2, ht i h1 h2]
      · rw [hr i h1 (by omega), hth i h1 (by omega), hz i h1 (by omega)]
    simp only [hcond]

/-! ### The Python routine -/

/-- `[v 1, .., v n]` as a list. -/
def listOf (n : ℕ) (v : ℕ → ℝ) : List (Option ℝ) := (List.range n).map fun i => some (v (i + 1))

theorem levels_listOf (n : ℕ) (p v : ℕ → ℝ) : Interp.Spec.levels none (listOf n v) (listOf n p) = (List.range n).map fun i => (p (i + 1), v (i + 1)) := by
  have := Interp.levels_clean (mv := none) ((List.range n).map fun i => (p (i + 1), v (i + 1))) (by simp)
  rw [List.map_map, List.map_map] at this
  exact this

theorem targets_listOf : ∀ (l : List ℝ), Interp.Spec.targets none (l.map some) = l
  | [] => rfl
  | a :: l => by rw [List.map_cons, Interp.Spec.targets, if_neg (by simp), targets_listOf l]

theorem pairwise_range {R : ℝ → ℝ → Prop} {n : ℕ} {p : ℕ → ℝ} (h : ∀ i j, 1 ≤ i → i < j → j ≤ n → R (p i) (p j)) :
    ((List.range n).map fun i => p (i + 1)).Pairwise R := by
  rw [List.pairwise_map]
  refine List.Pairwise.imp_of_mem ?_ List.pairwise_lt_range
  intro a b _ hb hab
  exact h (a + 1) (b + 1) (by omega) (by omega) (by have := List.mem_range.mp hb; omega)

theorem strict_gt {n : ℕ} {p : ℕ → ℝ} (h : ∀ i, 1 ≤ i → i + 1 ≤ n → p (i + 1) < p i) {i j : ℕ} (h1 : 1 ≤ i) (hij : i < j) (h2 : j ≤ n) : p j < p i := by
  have := strict_lt (strict_reverse h) (i := n + 1 - j) (j := n + 1 - i) (by omega) (by omega) (by omega)
  rwa [show n + 1 - (n + 1 - j) = j by omega, show n + 1 - (n + 1 - i) = i by omega] at this

theorem range_split {n j : ℕ} (h1 : 1 ≤ j) (h2 : j + 1 ≤ n) {α : Type} (f : ℕ → α) :
    ∃ l₁ l₂, (List.range n).map (fun i => f (i + 1)) = l₁ ++ f j :: f (j + 1) :: l₂ := by
  refine ⟨((List.range n).map (fun i => f (i + 1))).take (j - 1), ((List.range n).map (fun i => f (i + 1))).drop (j + 1), ?_⟩
  set L := (List.range n).map (fun i => f (i + 1)) with hL
  have len : L.length = n := by rw [hL, List.length_map, List.length_range]
  have e1 : L.drop (j - 1) = f j :: L.drop j := by
    rw [List.drop_eq_getElem_cons (by omega), show j - 1 + 1 = j by omega]
    congr 1
    simp only [hL, List.getElem_map, List.getElem_range]
    rw [show j - 1 + 1 = j by omega]
  have e2 : L.drop j = f (j + 1) :: L.drop (j + 1) := by
    rw [List.drop_eq_getElem_cons (by omega)]
    congr 1
    simp only [hL, List.getElem_map, List.getElem_range]
  rw [← e2, ← e1, List.take_append_drop]

/-- The arguments are in order. -/
theorem interp1d_good {log : Bool} {n : ℕ} (hn : 2 ≤ n) {p : ℕ → ℝ} (v : ℕ → ℝ) (hs : Spec.Strict n p) (hpos : ∀ i, 1 ≤ i → i ≤ n → 0 < p i)
    (hsm : ∀ i, 1 ≤ i → i ≤ n → p i < Interp.spvl ∧ v i < Interp.spvl)
    {m : ℕ} {tp : ℕ → ℝ} (ht : ∀ i, 1 ≤ i → i + 1 ≤ m → tp i < tp (i + 1)) (tpos : ∀ i, 1 ≤ i → i ≤ m → 0 < tp i) :
    Interp.Spec.Good (listOf n v) (listOf n p) (listOf m tp) log none ∧ Interp.Spec.Directed (listOf n v) (listOf n p) none := by
  have hL := levels_listOf n p v
  have hfst : ((List.range n).map fun i => (p (i + 1), v (i + 1))).map Prod.fst = (List.range n).map fun i => p (i + 1) := by
    rw [List.map_map]; rfl
  have hT : Interp.Spec.targets none (listOf m tp) = (List.range m).map fun i => tp (i + 1) := by
    have := targets_listOf ((List.range m).map fun i => tp (i + 1))
    rw [List.map_map] at this
    exact this
  have hinc : (∀ i, 1 ≤ i → i + 1 ≤ n → p i < p (i + 1)) ↔ ((List.range n).map fun i => p (i + 1)).Pairwise (· < ·) := by
    constructor
    · intro h
      exact pairwise_range fun i j a b c => strict_lt h a b c
    · intro h i h1 h2
      have := List.pairwise_iff_getElem.mp h (i - 1) i (by simp; omega) (by simp; omega) (by omega)
      simp only [List.getElem_map, List.getElem_range] at this
      rwa [show i - 1 + 1 = i by omega] at this
  have hg : Interp.Spec.Good (listOf n v) (listOf n p) (listOf m tp) log none := by
    refine ⟨by simp [listOf], by rw [hL]; simpa using hn, ?_, ?_, fun _ => ⟨?_, ?_⟩, ?_⟩
    · rw [hL, hfst]
      rcases hs with h | h
      · exact Or.inl (pairwise_range fun i j a b c => strict_lt h a b c)
      · exact Or.inr (pairwise_range fun i j a b c => strict_gt h a b c)
    · rw [hT]
      exact Or.inl (pairwise_range fun i j a b c => strict_lt ht a b c)
    · rw [hL]
      intro q hq
      obtain ⟨i, hi, rfl⟩ := List.mem_map.mp hq
      exact hpos _ (by omega) (by have := List.mem_range.mp hi; omega)
    · rw [hT]
      intro q hq
      obtain ⟨i, hi, rfl⟩ := List.mem_map.mp hq
      exact tpos _ (by omega) (by have := List.mem_range.mp hi; omega)
    · intro r hr
      rcases hr with hr | hr
      · obtain ⟨i, hi, e⟩ := List.mem_map.mp hr
        rw [← Option.some.inj e]
        exact (hsm (i + 1) (by omega) (by have := List.mem_range.mp hi; omega)).1
      · obtain ⟨i, hi, e⟩ := List.mem_map.mp hr
        rw [← Option.some.inj e]
        exact (hsm (i + 1) (by omega) (by have := List.mem_range.mp hi; omega)).2
  have hdir : Interp.Spec.Directed (listOf n v) (listOf n p) none := by
    obtain ⟨k, rfl⟩ := Nat.exists_eq_add_of_le' hn
    refine ⟨p 1, p 2, (List.range k).map fun i => some (p (i + 1 + 1 + 1)), ?_, by simp, by simp, ?_⟩
    · rw [listOf, List.range_succ_eq_map, List.map_cons, List.map_map, List.range_succ_eq_map, List.map_cons, List.map_map]
      rfl
    · rw [hL, hfst, ← hinc]
      constructor
      · intro h
        rcases hs with g | g
        · exact g
        · exact absurd h (not_lt.mpr (g 1 le_rfl (by omega)).le)
      · intro h
        exact h 1 le_rfl (by omega)
  exact ⟨hg, hdir⟩

/-- `interp_pressure_1d` remaps to the broken line. -/
theorem interp1d_spec {log : Bool} {n : ℕ} (hn : 2 ≤ n) {p : ℕ → ℝ} (v : ℕ → ℝ) (hs : Spec.Strict n p) (hpos : ∀ i, 1 ≤ i → i ≤ n → 0 < p i)
    (hsm : ∀ i, 1 ≤ i → i ≤ n → p i < Interp.spvl ∧ v i < Interp.spvl)
    {m : ℕ} {tp : ℕ → ℝ} (ht : ∀ i, 1 ≤ i → i + 1 ≤ m → tp i < tp (i + 1))
    (hr : ∀ i, 1 ≤ i → i ≤ m → min (p 1) (p n) ≤ tp i ∧ tp i ≤ max (p 1) (p n)) :
    ∃ out : ℕ → ℝ, Interp.interpPressure1d (listOf n v) (listOf n p) (listOf m tp) log false none = .ok (listOf m out) ∧
      ∀ i, 1 ≤ i → i ≤ m → Spec.Broken log n p v (tp i) (out i) := by
  have hL := levels_listOf n p v
  have tpos : ∀ i, 1 ≤ i → i ≤ m → 0 < tp i := fun i h1 h2 =>
    lt_of_lt_of_le (lt_min (hpos 1 le_rfl (by omega)) (hpos n (by omega) le_rfl)) (hr i h1 h2).1
  obtain ⟨hg, hdir⟩ := interp1d_good (log := log) hn v hs hpos hsm ht tpos
  obtain ⟨out, e, hlen, -, hv⟩ := Interp.C66_interpolation (extrapolate := false) hg hdir
  have hlen : out.length = m := by rw [hlen]; simp [listOf]
  have key : ∀ i, 1 ≤ i → i ≤ m → ∃ y, out[i - 1]? = some (some y) ∧ Spec.Broken log n p v (tp i) y := by
    intro i h1 h2
    obtain ⟨j, j1, j2, a, b⟩ := exists_bracket hn p (hr i h1 h2).1 (hr i h1 h2).2
    obtain ⟨l₁, l₂, hl⟩ := range_split j1 j2 fun i => (p i, v i)
    obtain ⟨y, hy, hon, -⟩ := (hv (i - 1) (tp i) (by
      rw [listOf, List.getElem?_map, List.getElem?_range (by omega), Option.map_some, show i - 1 + 1 = i by omega]) (by simp)).1 l₁ _ _ _ _ l₂
        (by rw [hL]; exact hl) a b
    exact ⟨y, hy, j, j1, j2, a, b, hon⟩
  choose f hf hb using key
  refine ⟨fun i => if h : 1 ≤ i ∧ i ≤ m then f i h.1 h.2 else 0, ?_, fun i h1 h2 => ?_⟩
  · rw [e]
    congr 1
    refine List.ext_getElem (by rw [hlen]; simp [listOf]) fun i h1 h2 => ?_
    simp only [listOf, List.getElem_map, List.getElem_range]
    have hi : i + 1 ≤ m := by omega
    rw [dif_pos ⟨by omega, hi⟩]
    have := hf (i + 1) (by omega) hi
    rw [show i + 1 - 1 = i by omega, List.getElem?_eq_getElem h1] at this
    exact Option.some.inj this
  · dsimp only
    rw [dif_pos ⟨h1, h2⟩]
    exact hb i h1 h2

end Skyborn.Growth
