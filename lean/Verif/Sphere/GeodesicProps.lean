/-
Properties of `getgeodesicpts` (model: Sphere/Geodesic).
-/
import Verif.Sphere.Geodesic
import Mathlib.Tactic.IntervalCases

namespace Skyborn.Sphere.Geodesic

open Spec (Corner Face dot project Mesh point)

/-! ## The icosahedron -/

/-- Scalar product of corners that are joined. -/
noncomputable def g : ℝ := Real.sqrt 5 / 5

theorem g_pos : 0 < g := by unfold g; have := s5_pos; positivity

theorem g_lt : g < 9 / 20 := by unfold g; have := s5_lt; linarith

theorem dot_comm' (p q : P3) : dot p q = dot q p := by unfold dot; ring

theorem dot_add (p q r : P3) : dot p (q + r) = dot p q + dot p r := by unfold dot; simp only [Prod.fst_add, Prod.snd_add]; ring

theorem dot_smul (p q : P3) (t : ℝ) : dot p (t • q) = t * dot p q := by unfold dot; simp only [Prod.smul_fst, Prod.smul_snd, smul_eq_mul]; ring

theorem add_dot (p q r : P3) : dot (q + r) p = dot q p + dot r p := by rw [dot_comm', dot_add, dot_comm' p q, dot_comm' p r]

theorem smul_dot (p q : P3) (t : ℝ) : dot (t • q) p = t * dot q p := by rw [dot_comm', dot_smul, dot_comm' p q]

private theorem table (d : ℕ) (hd : d ≤ 9) :
    4 / 5 * Real.cos (Real.pi * d / 5) + (if d % 2 = 0 then 1 else -1) / 5 =
      if d = 0 then 1 else if d = 5 then -1 else if d ≤ 2 ∨ 8 ≤ d then g else -g := by
  have c3 : Real.cos (Real.pi * (3 : ℕ) / 5) = -((Real.sqrt 5 - 1) / 4) := by
    rw [← cos2, ← Real.cos_pi_sub]; congr 1; push_cast; ring
  have c4 : Real.cos (Real.pi * (4 : ℕ) / 5) = -((1 + Real.sqrt 5) / 4) := by
    rw [← cos1, ← Real.cos_pi_sub]; congr 1; push_cast; ring
  have hc : ∀ a b : ℕ, a + b = 10 → Real.cos (Real.pi * a / 5) = Real.cos (Real.pi * b / 5) := by
    intro a b h
    have : (a : ℝ) = 10 - b := by have : (a : ℝ) + b = 10 := by exact_mod_cast h
                                  linarith
    rw [this, ← Real.cos_two_pi_sub]; congr 1; ring
  have c1 : Real.cos (Real.pi * (1 : ℕ) / 5) = (1 + Real.sqrt 5) / 4 := by rw [← cos1]; congr 1; push_cast; ring
  have c2 : Real.cos (Real.pi * (2 : ℕ) / 5) = (Real.sqrt 5 - 1) / 4 := by rw [← cos2]; congr 1; push_cast; ring
  have c5 : Real.cos (Real.pi * (5 : ℕ) / 5) = -1 := by rw [← Real.cos_pi]; congr 1; push_cast; ring
  have c0 : Real.cos (Real.pi * (0 : ℕ) / 5) = 1 := by simp
  unfold g
  interval_cases d
  · rw [c0]; norm_num
  · rw [c1]; norm_num; ring
  · rw [c2]; norm_num; ring
  · rw [c3]; norm_num; ring
  · rw [c4]; norm_num; ring
  · rw [c5]; norm_num
  · rw [hc 6 4 rfl, c4]; norm_num; ring
  · rw [hc 7 3 rfl, c3]; norm_num; ring
  · rw [hc 8 2 rfl, c2]; norm_num; ring
  · rw [hc 9 1 rfl, c1]; norm_num; ring

private theorem ring_dot (e f : Fin 10) (h : f.val ≤ e.val) : dot (Corner.ring e).at (Corner.ring f).at =
    if e.val - f.val = 0 then 1 else if e.val - f.val = 5 then -1 else if e.val - f.val ≤ 2 ∨ 8 ≤ e.val - f.val then g else -g := by
  rw [← table (e.val - f.val) (by omega)]
  have hs := s5
  have hp := s5_pos
  have hz : (if e.val % 2 = 1 then (1 : ℝ) else -1) * (if f.val % 2 = 1 then (1 : ℝ) else -1) = if (e.val - f.val) % 2 = 0 then 1 else -1 := by
    have := e.isLt; have := f.isLt
    rcases Nat.mod_two_eq_zero_or_one e.val with h1 | h1 <;> rcases Nat.mod_two_eq_zero_or_one f.val with h2 | h2
    · rw [if_neg (by omega), if_neg (by omega), if_pos (by omega)]; norm_num
    · rw [if_neg (by omega), if_pos (by omega), if_neg (by omega)]; norm_num
    · rw [if_pos (by omega), if_neg (by omega), if_neg (by omega)]; norm_num
    · rw [if_pos (by omega), if_pos (by omega), if_pos (by omega)]; norm_num
  have hc : Real.cos (Real.pi * ((e.val - f.val : ℕ) : ℝ) / 5) = Real.cos (Real.pi * e.val / 5) * Real.cos (Real.pi * f.val / 5)
      + Real.sin (Real.pi * e.val / 5) * Real.sin (Real.pi * f.val / 5) := by
    rw [← Real.cos_sub, Nat.cast_sub h]; congr 1; ring
  rw [hc, ← hz]
  have h4 : (2 / Real.sqrt 5) * (2 / Real.sqrt 5) = 4 / 5 := by rw [div_mul_div_comm, hs]; norm_num
  have h1 : (1 / Real.sqrt 5) * (1 / Real.sqrt 5) = 1 / 5 := by rw [div_mul_div_comm, hs]; norm_num
  unfold dot Spec.Corner.at
  dsimp only
  generalize (if e.val % 2 = 1 then (1 : ℝ) else -1) = z1
  generalize (if f.val % 2 = 1 then (1 : ℝ) else -1) = z2
  rw [show z1 / Real.sqrt 5 = z1 * (1 / Real.sqrt 5) by ring, show z2 / Real.sqrt 5 = z2 * (1 / Real.sqrt 5) by ring]
  generalize 2 / Real.sqrt 5 = a at *
  generalize 1 / Real.sqrt 5 = b at *
  linear_combination (Real.cos (Real.pi * e.val / 5) * Real.cos (Real.pi * f.val / 5)
      + Real.sin (Real.pi * e.val / 5) * Real.sin (Real.pi * f.val / 5)) * h4 + z1 * z2 * h1

private theorem pole_ring (e : Fin 10) : dot Corner.north.at (Corner.ring e).at = (if e.val % 2 = 1 then 1 else -1) * g ∧
    dot Corner.south.at (Corner.ring e).at = -(if e.val % 2 = 1 then 1 else -1) * g := by
  have h : ∀ z : ℝ, z / Real.sqrt 5 = z * g := by
    intro z; unfold g; rw [← inv5]; ring
  unfold dot Spec.Corner.at
  simp only [h]
  constructor <;> ring

theorem corner_self (A : Corner) : dot A.at A.at = 1 := by
  cases A with
  | north => simp [dot, Spec.Corner.at]
  | south => simp [dot, Spec.Corner.at]
  | ring e => rw [ring_dot e e le_rfl, if_pos (by omega)]

theorem corner_le {A B : Corner} (h : A ≠ B) : dot A.at B.at ≤ g := by
  have h0 := g_pos
  have hr : ∀ e f : Fin 10, f.val ≤ e.val → e ≠ f → dot (Corner.ring e).at (Corner.ring f).at ≤ g := by
    intro e f hf hne
    rw [ring_dot e f hf, if_neg (by intro h'; exact hne (Fin.ext (by omega)))]
    split_ifs <;> linarith
  have hp : ∀ e : Fin 10, dot Corner.north.at (Corner.ring e).at ≤ g ∧ dot Corner.south.at (Corner.ring e).at ≤ g := by
    intro e
    rw [(pole_ring e).1, (pole_ring e).2]
    constructor <;> split_ifs <;> linarith
  have hns : dot Corner.north.at Corner.south.at ≤ g := by unfold dot Spec.Corner.at; norm_num; linarith
  rcases A with _ | _ | e <;> rcases B with _ | _ | f
  · exact absurd rfl h
  · exact hns
  · exact (hp f).1
  · rw [dot_comm']; exact hns
  · exact absurd rfl h
  · exact (hp f).2
  · rw [dot_comm']; exact (hp e).1
  · rw [dot_comm']; exact (hp e).2
  · have hne : e ≠ f := fun h' => h (by rw [h'])
    rcases le_total f.val e.val with h' | h'
    · exact hr e f h' hne
    · rw [dot_comm']; exact hr f e h' hne.symm

private theorem ring_near (e f : Fin 10) (h : f = e + 1 ∨ f = e + 2) : dot (Corner.ring e).at (Corner.ring f).at = g := by
  have hv : f.val = (e.val + 1) % 10 ∨ f.val = (e.val + 2) % 10 := by
    rcases h with rfl | rfl
    · left; rw [Fin.val_add]; rfl
    · right; rw [Fin.val_add]; rfl
  have := e.isLt
  rcases le_total f.val e.val with h' | h'
  · rw [ring_dot e f h', if_neg (by omega), if_neg (by omega), if_pos (by omega)]
  · rw [dot_comm', ring_dot f e h', if_neg (by omega), if_neg (by omega), if_pos (by omega)]

theorem par_add_two (e : Fin 10) : (e + 2).val % 2 = e.val % 2 := by rw [Fin.val_add, show ((2 : Fin 10)).val = 2 from rfl]; omega

private theorem cap_pole (e : Fin 10) : dot (Corner.ring e).at (if e.val % 2 = 1 then Corner.north else Corner.south).at = g := by
  rw [dot_comm']
  split_ifs with h
  · rw [(pole_ring e).1, if_pos h, one_mul]
  · rw [(pole_ring e).2, if_neg h]; ring

theorem face_dot {A B C : Corner} (h : Face A B C) : dot A.at B.at = g ∧ dot A.at C.at = g ∧ dot B.at C.at = g := by
  cases h with
  | cap e =>
    refine ⟨cap_pole e, ring_near e _ (Or.inr rfl), ?_⟩
    rw [dot_comm', ← par_add_two e]
    exact cap_pole (e + 2)
  | belt e =>
    refine ⟨ring_near e _ (Or.inl rfl), ring_near e _ (Or.inr rfl), ring_near (e + 1) _ (Or.inl ?_)⟩
    rw [add_assoc]; rfl

theorem ne_of_dot {A B : Corner} (h : dot A.at B.at = g) : A ≠ B := by
  rintro rfl
  rw [corner_self] at h
  linarith [g_lt]

/-- Weight of a corner in a sum over the corners of a face. -/
def wt (A B C : Corner) (a b c : ℕ) (V : Corner) : ℕ := (if V = A then a else 0) + (if V = B then b else 0) + if V = C then c else 0

/-- The sum. -/
noncomputable def comb (A B C : Corner) (a b c : ℕ) : P3 := (a : ℝ) • A.at + (b : ℝ) • B.at + (c : ℝ) • C.at

/-- Sum of the products with the corners of a face. -/
private theorem normal {A B C : Corner} (h : Face A B C) (V : Corner) :
    (V = A ∨ V = B ∨ V = C) ∧ dot A.at V.at + dot B.at V.at + dot C.at V.at = 1 + 2 * g ∨
      (V ≠ A ∧ V ≠ B ∧ V ≠ C) ∧ dot A.at V.at + dot B.at V.at + dot C.at V.at < 1 + 2 * g := by
  obtain ⟨h1, h2, h3⟩ := face_dot h
  by_cases hA : V = A
  · left; subst hA; refine ⟨Or.inl rfl, ?_⟩
    rw [corner_self, dot_comm' B.at, dot_comm' C.at, h1, h2]; ring
  by_cases hB : V = B
  · left; subst hB; refine ⟨Or.inr (Or.inl rfl), ?_⟩
    rw [corner_self, dot_comm' C.at, h1, h3]; ring
  by_cases hC : V = C
  · left; subst hC; refine ⟨Or.inr (Or.inr rfl), ?_⟩
    rw [corner_self, h2, h3]; ring
  right
  refine ⟨⟨hA, hB, hC⟩, ?_⟩
  have := corner_le (Ne.symm hA)
  have := corner_le (Ne.symm hB)
  have := corner_le (Ne.symm hC)
  linarith [g_lt]

private theorem dot_comb (p : P3) (A B C : Corner) (a b c : ℕ) : dot p (comb A B C a b c) = a * dot p A.at + b * dot p B.at + c * dot p C.at := by
  unfold comb; rw [dot_add, dot_add, dot_smul, dot_smul, dot_smul]

/-- Product of the normal of one face with a point of another. -/
private theorem normal_comb {A B C A' B' C' : Corner} (h : Face A B C) (a b c : ℕ) :
    dot (A.at + B.at + C.at) (comb A' B' C' a b c) ≤ (1 + 2 * g) * (a + b + c : ℕ) ∧
    (dot (A.at + B.at + C.at) (comb A' B' C' a b c) = (1 + 2 * g) * (a + b + c : ℕ) →
      (a = 0 ∨ A' = A ∨ A' = B ∨ A' = C) ∧ (b = 0 ∨ B' = A ∨ B' = B ∨ B' = C) ∧ (c = 0 ∨ C' = A ∨ C' = B ∨ C' = C)) := by
  have key : ∀ V : Corner, ∀ n : ℕ, 0 ≤ (n : ℝ) * (1 + 2 * g - dot (A.at + B.at + C.at) V.at) ∧
      ((n : ℝ) * (1 + 2 * g - dot (A.at + B.at + C.at) V.at) = 0 → n = 0 ∨ V = A ∨ V = B ∨ V = C) := by
    intro V n
    rw [add_dot, add_dot]
    rcases normal h V with ⟨h1, h2⟩ | ⟨h1, h2⟩
    · exact ⟨by rw [h2]; simp, fun _ => Or.inr h1⟩
    · refine ⟨mul_nonneg (by positivity) (by linarith), fun h3 => Or.inl ?_⟩
      rcases mul_eq_zero.1 h3 with h4 | h4
      · exact_mod_cast h4
      · linarith
  obtain ⟨k1, k2⟩ := key A' a
  obtain ⟨k3, k4⟩ := key B' b
  obtain ⟨k5, k6⟩ := key C' c
  rw [dot_comb]
  push_cast
  refine ⟨by linarith, fun h => ⟨k2 ?_, k4 ?_, k6 ?_⟩⟩ <;> linarith

private theorem normal_self {A B C : Corner} (h : Face A B C) (a b c : ℕ) :
    dot (A.at + B.at + C.at) (comb A B C a b c) = (1 + 2 * g) * (a + b + c : ℕ) := by
  obtain ⟨h1, h2, h3⟩ := face_dot h
  rw [dot_comb, add_dot, add_dot, add_dot, add_dot, add_dot, add_dot, corner_self, corner_self, corner_self, dot_comm' B.at A.at, dot_comm' C.at A.at,
    dot_comm' C.at B.at, h1, h2, h3]
  push_cast; ring

private theorem weight_eq {A B C A' B' C' : Corner} (h : Face A B C) {a b c a' b' c' : ℕ} (hs : a + b + c = a' + b' + c')
    (e : comb A B C a b c = comb A' B' C' a' b' c')
    (ha : a' = 0 ∨ A' = A ∨ A' = B ∨ A' = C) (hb : b' = 0 ∨ B' = A ∨ B' = B ∨ B' = C) (hc : c' = 0 ∨ C' = A ∨ C' = B ∨ C' = C)
    (V : Corner) (hV : V = A ∨ V = B ∨ V = C) : wt A B C a b c V = wt A' B' C' a' b' c' V := by
  obtain ⟨h1, h2, h3⟩ := face_dot h
  have hin : ∀ W : Corner, (W = A ∨ W = B ∨ W = C) → dot V.at W.at = g + (1 - g) * (if V = W then 1 else 0) := by
    intro W hW
    split_ifs with hVW
    · subst hVW; rw [corner_self]; ring
    · rw [mul_zero, add_zero]
      rcases hV with rfl | rfl | rfl <;> rcases hW with rfl | rfl | rfl
      all_goals first | exact absurd rfl hVW | assumption | (rw [dot_comm']; assumption)
  have hin' : ∀ (W : Corner) (n : ℕ), (n = 0 ∨ W = A ∨ W = B ∨ W = C) →
      (n : ℝ) * dot V.at W.at = g * n + (1 - g) * ((if V = W then n else 0 : ℕ) : ℝ) := by
    intro W n hW
    rcases hW with rfl | hW
    · simp
    · rw [hin W hW]; split_ifs <;> push_cast <;> ring
  have e' := congrArg (dot V.at) e
  rw [dot_comb, dot_comb, hin' A a (Or.inr (Or.inl rfl)), hin' B b (Or.inr (Or.inr (Or.inl rfl))), hin' C c (Or.inr (Or.inr (Or.inr rfl))),
    hin' A' a' ha, hin' B' b' hb, hin' C' c' hc] at e'
  have hs' : (a : ℝ) + b + c = a' + b' + c' := by exact_mod_cast hs
  have hg := g_lt
  have : (1 - g) * ((wt A B C a b c V : ℝ) - wt A' B' C' a' b' c' V) = 0 := by
    unfold wt
    push_cast at e' ⊢
    linear_combination e' - g * hs'
  rcases mul_eq_zero.1 this with h4 | h4
  · linarith
  · have : (wt A B C a b c V : ℝ) = wt A' B' C' a' b' c' V := by linarith
    exact_mod_cast this

/-- Points of faces in the same direction are sums with the same weights. -/
theorem comb_unique {A B C A' B' C' : Corner} (h : Face A B C) (h' : Face A' B' C') {a b c a' b' c' : ℕ} (hn : 0 < a + b + c)
    (hs : a + b + c = a' + b' + c') {t : ℝ} (ht : 0 < t) (e : comb A B C a b c = t • comb A' B' C' a' b' c') (V : Corner) :
    wt A B C a b c V = wt A' B' C' a' b' c' V := by
  have hN : (0 : ℝ) < (1 + 2 * g) * (a + b + c : ℕ) := by have := g_pos; have : (0 : ℝ) < (a + b + c : ℕ) := by exact_mod_cast hn
                                                          positivity
  have e1 := congrArg (dot (A.at + B.at + C.at)) e
  rw [normal_self h, dot_smul] at e1
  have e2 := congrArg (dot (A'.at + B'.at + C'.at)) e
  rw [dot_smul, normal_self h', ← hs] at e2
  obtain ⟨u1, u2⟩ := normal_comb (A' := A') (B' := B') (C' := C') h a' b' c'
  obtain ⟨u3, u4⟩ := normal_comb (A' := A) (B' := B) (C' := C) h' a b c
  rw [← hs] at u1 u2
  generalize (1 + 2 * g) * ((a + b + c : ℕ) : ℝ) = K at *
  have t1 : t ≤ 1 := by nlinarith
  have t2 : 1 ≤ t := by nlinarith
  obtain rfl : t = 1 := le_antisymm t1 t2
  rw [one_smul] at e
  rw [one_mul] at e1 e2
  obtain ⟨p1, p2, p3⟩ := u2 e1.symm
  obtain ⟨q1, q2, q3⟩ := u4 e2
  by_cases hV : V = A ∨ V = B ∨ V = C
  · exact weight_eq h hs e p1 p2 p3 V hV
  by_cases hV' : V = A' ∨ V = B' ∨ V = C'
  · exact (weight_eq h' hs.symm e.symm q1 q2 q3 V hV').symm
  push Not at hV hV'
  unfold wt
  simp [hV, hV']

end Skyborn.Sphere.Geodesic
