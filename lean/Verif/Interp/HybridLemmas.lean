/-
Lemmas about the kernels of `Verif.Interp.Hybrid`: the vertical search, the interpolation formulas and closed forms of the column loops.
-/
import Verif.Interp.Hybrid
import Mathlib.Tactic.Ring
import Mathlib.Tactic.Linarith
import Mathlib.Tactic.FieldSimp
import Mathlib.Tactic.Positivity

namespace Skyborn.Hybrid

/-! ### Specification vocabulary -/

namespace Spec

/-- Levels `1..n` are strictly increasing, or strictly decreasing. -/
def Strict (n : ℕ) (p : ℕ → ℝ) : Prop :=
  (∀ k, 1 ≤ k → k < n → p k < p (k + 1)) ∨ (∀ k, 1 ≤ k → k < n → p (k + 1) < p k)

/-- The vertical coordinate in which an interpolation method is linear (pressure in Pa). -/
noncomputable def coord : Method → ℝ → ℝ
  | .linear => fun p => p
  | .log => Real.log
  | .loglog => fun p => Real.log (Real.log (p / 100 + 2.72))

/-- Pressures for which the coordinate is defined. -/
def Dom : Method → ℝ → Prop
  | .linear => fun _ => True
  | .log => fun p => 0 < p
  | .loglog => fun p => 0 ≤ p

/-- `(t, v)` lies on the line through `(s, x)` and `(s', x')`. -/
def OnLine (s x s' x' t v : ℝ) : Prop := (v - x) * (s' - s) = (x' - x) * (t - s)

/-- `t` lies between `a` and `b`. -/
def Between (a b t : ℝ) : Prop := min a b ≤ t ∧ t ≤ max a b

end Spec

open Spec

/-! ### Loops that write -/

theorem loop_write {n : ℕ} {d : ℕ → ℝ} {f : ℕ → (ℕ → ℝ) → Option (ℕ → ℝ)} (v : ℕ → ℝ)
    (h : ∀ k d, 1 ≤ k → k ≤ n → f k d = wr n d k (v k)) :
    doLoopM 1 n d f = some (fun k => if 1 ≤ k ∧ k ≤ n then v k else d k) := by
  obtain ⟨s, e, hs⟩ := doLoopM_inv (lo := 1) (hi := n) (by omega) (s := d) (f := f)
    (fun j s => s = fun k => if 1 ≤ k ∧ k < j then v k else d k) (by
      funext k; rw [if_neg (by omega)])
    (by
      rintro j s h1 h2 rfl
      rw [h j _ h1 h2, wr_ok h1 h2]
      refine ⟨_, rfl, ?_⟩
      funext k
      by_cases hk : k = j
      · subst hk; rw [Function.update_self, if_pos (by omega)]
      · rw [Function.update_of_ne hk]
        by_cases hkj : 1 ≤ k ∧ k < j
        · rw [if_pos hkj, if_pos (by omega)]
        · rw [if_neg hkj, if_neg (by omega)])
  rw [e, hs]
  congr 1
  funext k
  by_cases hk : 1 ≤ k ∧ k ≤ n
  · rw [if_pos hk, if_pos (by omega)]
  · rw [if_neg hk, if_neg (by omega)]

/-- A loop that writes `v k` at position `pos k`, keeping its own position counter. -/
theorem loop_writeAt {no nout c step : ℕ} {d : ℕ → ℝ} {f : ℕ → (ℕ → ℝ) × ℕ → Option ((ℕ → ℝ) × ℕ)} (v : ℕ → ℝ) (hst : 1 ≤ step)
    (hb : ∀ k, 1 ≤ k → k ≤ no → 1 ≤ c + (k - 1) * step ∧ c + (k - 1) * step ≤ nout)
    (h : ∀ k d q, 1 ≤ k → k ≤ no → f k (d, q) = (wr nout d q (v k)).bind fun d' => some (d', q + step)) :
    ∃ d' q', doLoopM 1 no (d, c) f = some (d', q') ∧ (∀ k, 1 ≤ k → k ≤ no → d' (c + (k - 1) * step) = v k) ∧
      ∀ q, (∀ k, 1 ≤ k → k ≤ no → q ≠ c + (k - 1) * step) → d' q = d q := by
  obtain ⟨s, e, hs1, hs2, -⟩ := doLoopM_inv (lo := 1) (hi := no) (by omega) (s := (d, c)) (f := f)
    (fun j s => (∀ k, 1 ≤ k → k < j → s.1 (c + (k - 1) * step) = v k) ∧
      (∀ q, (∀ k, 1 ≤ k → k < j → q ≠ c + (k - 1) * step) → s.1 q = d q) ∧ s.2 = c + (j - 1) * step)
    ⟨by intro k h1 h2; omega, by intro q _; rfl, by simp⟩
    (by
      rintro j ⟨d1, q1⟩ h1 h2 ⟨i1, i2, i3⟩
      simp only at i1 i2 i3
      subst i3
      rw [h j d1 _ h1 h2, wr_ok (hb j h1 h2).1 (hb j h1 h2).2]
      refine ⟨_, rfl, ?_, ?_, ?_⟩
      · intro k hk1 hk2
        simp only
        by_cases hk : k = j
        · subst hk; rw [Function.update_self]
        · have hne : c + (k - 1) * step ≠ c + (j - 1) * step := by
            intro hc
            have : (k - 1) * step = (j - 1) * step := by omega
            have := Nat.eq_of_mul_eq_mul_right (by omega) this
            omega
          rw [Function.update_of_ne hne]
          exact i1 k hk1 (by omega)
      · intro q hq
        simp only
        rw [Function.update_of_ne (hq j h1 (by omega))]
        exact i2 q fun k hk1 hk2 => hq k hk1 (by omega)
      · simp only
        have : j + 1 - 1 = (j - 1) + 1 := by omega
        rw [this, Nat.add_mul]; omega)
  refine ⟨s.1, s.2, by rw [e], fun k h1 h2 => hs1 k h1 (by omega), fun q hq => hs2 q fun k h1 h2 => hq k h1 (by omega)⟩

/-! ### The vertical search -/

/-- Order in the direction of the levels. -/
def dle (asc : Bool) (a b : ℝ) : Prop := if asc then a ≤ b else b ≤ a

/-- `kp` is an acceptable bracketing pair for `t`. -/
def Valid (asc : Bool) (n : ℕ) (p : ℕ → ℝ) (t : ℝ) (kp : ℕ) : Prop :=
  1 ≤ kp ∧ kp < n ∧ (kp = 1 ∨ dle asc (p kp) t) ∧ (kp = n - 1 ∨ dle asc t (p (kp + 1)))

theorem locateLoop_spec (t : ℝ) (n : ℕ) (p : ℕ → ℝ) (asc : Bool) : ∀ m low high, high - low ≤ m → 1 ≤ low → low ≤ high → high < n →
    ∃ kp, locateLoop t n p asc low high = some kp ∧ low ≤ kp ∧ kp ≤ high ∧ (kp = low ∨ dle asc (p kp) t) ∧
      (kp = high ∨ dle asc t (p (kp + 1))) := by
  intro m
  induction m with
  | zero =>
    intro low high hm h1 h2 h3
    have : low = high := by omega
    subst this
    rw [locateLoop, dif_neg (by omega)]
    exact ⟨low, rfl, le_rfl, le_rfl, Or.inl rfl, Or.inl rfl⟩
  | succ m ih =>
    intro low high hm h1 h2 h3
    rw [locateLoop]
    by_cases hlt : low < high
    · rw [dif_pos hlt]
      simp only []
      rw [rd_ok (by omega) (by omega)]
      simp only []
      by_cases hc : (if asc then t ≤ p (low + (high - low) / 2 + 1) else p (low + (high - low) / 2 + 1) ≤ t)
      · rw [if_pos hc]
        obtain ⟨kp, e, a1, a2, a3, a4⟩ := ih low (low + (high - low) / 2) (by omega) h1 (by omega) (by omega)
        refine ⟨kp, e, a1, by omega, a3, ?_⟩
        rcases a4 with a4 | a4
        · right; rw [a4]; exact hc
        · exact Or.inr a4
      · rw [if_neg hc]
        obtain ⟨kp, e, a1, a2, a3, a4⟩ := ih (low + (high - low) / 2 + 1) high (by omega) (by omega) (by omega) h3
        refine ⟨kp, e, by omega, a2, ?_, a4⟩
        rcases a3 with a3 | a3
        · right
          rw [a3]
          unfold dle
          cases asc
          · simp only [Bool.false_eq_true, if_false] at hc ⊢; exact le_of_lt (not_le.1 hc)
          · simp only [if_true] at hc ⊢; exact le_of_lt (not_le.1 hc)
        · exact Or.inr a3
    · rw [dif_neg hlt]
      exact ⟨low, rfl, le_rfl, h2, Or.inl rfl, Or.inl (by omega)⟩

theorem locate_small {t : ℝ} {n : ℕ} {p : ℕ → ℝ} {asc : Bool} (h : n < 2) : locate t n p asc = some 0 := by
  rw [locate, if_pos h]

theorem locate_range (t : ℝ) {n : ℕ} (p : ℕ → ℝ) (asc : Bool) (hn : 2 ≤ n) :
    ∃ kp, locate t n p asc = some kp ∧ 1 ≤ kp ∧ kp < n ∧ ((∀ k, 1 ≤ k → k < n → dle asc (p k) (p (k + 1))) → Valid asc n p t kp) := by
  rw [locate, if_neg (by omega), rd_ok (by omega) (by omega), rd_ok (by omega) (by omega)]
  simp only [Option.bind_eq_bind, Option.bind_some]
  have key : ∀ b : Bool, b = asc → ∃ kp, locateLoop t n p b 1 (n - 1) = some kp ∧ 1 ≤ kp ∧ kp < n ∧
      ((∀ k, 1 ≤ k → k < n → dle asc (p k) (p (k + 1))) → Valid asc n p t kp) := by
    rintro b rfl
    obtain ⟨kp, e, a1, a2, a3, a4⟩ := locateLoop_spec t n p b (n - 1) 1 (n - 1) (by omega) le_rfl (by omega) (by omega)
    exact ⟨kp, e, a1, by omega, fun _ => ⟨a1, by omega, a3, a4⟩⟩
  cases asc
  · simp only [Bool.false_eq_true, if_false]
    by_cases h1 : p 1 ≤ t
    · rw [if_pos h1]
      refine ⟨1, rfl, le_rfl, by omega, fun hm => ⟨le_rfl, by omega, Or.inl rfl, Or.inr ?_⟩⟩
      have := hm 1 le_rfl (by omega)
      simp only [dle, Bool.false_eq_true, if_false] at this ⊢
      linarith
    · rw [if_neg h1]
      by_cases h2 : t ≤ p (n - 1)
      · rw [if_pos h2]
        exact ⟨n - 1, rfl, by omega, by omega, fun _ => ⟨by omega, by omega, Or.inr (by simpa [dle] using h2), Or.inl rfl⟩⟩
      · rw [if_neg h2]; exact key false rfl
  · simp only [if_true]
    by_cases h1 : t ≤ p 1
    · rw [if_pos h1]
      refine ⟨1, rfl, le_rfl, by omega, fun hm => ⟨le_rfl, by omega, Or.inl rfl, Or.inr ?_⟩⟩
      have := hm 1 le_rfl (by omega)
      simp only [dle, if_true] at this ⊢
      linarith
    · rw [if_neg h1]
      by_cases h2 : p (n - 1) ≤ t
      · rw [if_pos h2]
        exact ⟨n - 1, rfl, by omega, by omega, fun _ => ⟨by omega, by omega, Or.inr (by simpa [dle] using h2), Or.inl rfl⟩⟩
      · rw [if_neg h2]; exact key true rfl

/-- The downward walk of the plain column kernel. -/
theorem walk_spec (t : ℝ) (n : ℕ) (p : ℕ → ℝ) : ∀ h, 1 ≤ h → h ≤ n →
    ∃ kp, walk t n p h = some kp ∧ 1 ≤ kp ∧ kp ≤ h ∧ (kp = 1 ∨ p kp ≤ t) ∧ (kp = h ∨ t < p (kp + 1)) := by
  intro h
  induction h with
  | zero => intro h1; omega
  | succ h ih =>
    intro h1 h2
    cases h with
    | zero => exact ⟨1, rfl, le_rfl, le_rfl, Or.inl rfl, Or.inl rfl⟩
    | succ h =>
      rw [walk, rd_ok (by omega) h2]
      simp only [Option.bind_eq_bind, Option.bind_some]
      by_cases hc : t < p (h + 2)
      · rw [if_pos hc]
        obtain ⟨kp, e, a1, a2, a3, a4⟩ := ih (by omega) (by omega)
        refine ⟨kp, e, a1, by omega, a3, Or.inr ?_⟩
        rcases a4 with a4 | a4
        · rw [a4]; exact hc
        · exact a4
      · rw [if_neg hc]
        exact ⟨h + 2, rfl, by omega, le_rfl, Or.inr (not_lt.1 hc), Or.inl rfl⟩

/-- Strict order between any two levels. -/
theorem strict_lt {n : ℕ} {p : ℕ → ℝ} {asc : Bool} (hm : ∀ k, 1 ≤ k → k < n → if asc then p k < p (k + 1) else p (k + 1) < p k) :
    ∀ i j, 1 ≤ i → i < j → j ≤ n → if asc then p i < p j else p j < p i := by
  intro i j h1 h2
  induction j with
  | zero => omega
  | succ j ih =>
    intro hj
    have hstep := hm j (by omega) (by omega)
    rcases Nat.lt_or_ge i j with h | h
    · have := ih h (by omega)
      cases asc
      · simp only [Bool.false_eq_true, if_false] at *; linarith
      · simp only [if_true] at *; linarith
    · have : i = j := by omega
      subst this; exact hstep

/-- Two acceptable pairs for the same `t` are equal or share the level at `t`. -/
theorem valid_two {n : ℕ} {p : ℕ → ℝ} {asc : Bool} {t : ℝ}
    (hm : ∀ k, 1 ≤ k → k < n → if asc then p k < p (k + 1) else p (k + 1) < p k) {i j : ℕ} (hi : Valid asc n p t i) (hj : Valid asc n p t j)
    (hij : i < j) : j = i + 1 ∧ t = p (i + 1) := by
  obtain ⟨i1, i2, i3, i4⟩ := hi
  obtain ⟨j1, j2, j3, j4⟩ := hj
  have a := i4.resolve_left (by omega)
  have b := j3.resolve_left (by omega)
  have hle : j = i + 1 ∨ i + 1 < j := by omega
  rcases hle with h | h
  · subst h
    refine ⟨rfl, ?_⟩
    cases asc
    · simp only [dle, Bool.false_eq_true, if_false] at a b; linarith
    · simp only [dle, if_true] at a b; linarith
  · exfalso
    have := strict_lt hm (i + 1) j (by omega) h (by omega)
    cases asc
    · simp only [dle, Bool.false_eq_true, if_false] at a b this; linarith
    · simp only [dle, if_true] at a b this; linarith

/-! ### Interpolation formulas -/

/-- The coordinate of a method in the unit of the kernels (hPa). -/
noncomputable def kcoord : Method → ℝ → ℝ
  | .linear => fun p => p
  | .log => Real.log
  | .loglog => doubleLog

theorem doubleLog_lt {p q : ℝ} (hp : 0 ≤ p) (h : p < q) : doubleLog p < doubleLog q := by
  unfold doubleLog
  have h1 : (0 : ℝ) < Real.log (p + 2.72) := Real.log_pos (by norm_num; linarith)
  exact Real.log_lt_log h1 (Real.log_lt_log (by norm_num; linarith) (by linarith))

theorem kcoord_lt {m : Method} {p q : ℝ} (hp : Dom m p) (h : p < q) : kcoord m p < kcoord m q := by
  cases m
  · exact h
  · exact Real.log_lt_log hp h
  · exact doubleLog_lt hp h

theorem kcoord_ne {m : Method} {p q : ℝ} (hp : Dom m p) (hq : Dom m q) (h : p ≠ q) : kcoord m p ≠ kcoord m q := by
  rcases lt_or_gt_of_ne h with h | h
  · exact ne_of_lt (kcoord_lt hp h)
  · exact ne_of_gt (kcoord_lt hq h)

theorem interpValue_eq (m : Method) {xl xu t pl pu spv : ℝ} (hpl : Dom m pl) (hpu : Dom m pu) (ht : Dom m t) :
    interpValue m.intyp xl xu t pl pu spv = xl + (xu - xl) * (kcoord m t - kcoord m pl) / (kcoord m pu - kcoord m pl) := by
  cases m
  · simp [interpValue, Method.intyp, interpLinear, kcoord]
  · simp only [interpValue, Method.intyp, interpLog, kcoord]
    norm_num
    rw [Real.log_div (ne_of_gt ht) (ne_of_gt hpl), Real.log_div (ne_of_gt hpu) (ne_of_gt hpl)]
  · simp [interpValue, Method.intyp, interpLoglog, kcoord]

theorem interpValue_left (m : Method) {xl xu pl pu spv : ℝ} (hpl : Dom m pl) (hpu : Dom m pu) :
    interpValue m.intyp xl xu pl pl pu spv = xl := by
  rw [interpValue_eq m hpl hpu hpl]; simp

theorem interpValue_right (m : Method) {xl xu pl pu spv : ℝ} (hpl : Dom m pl) (hpu : Dom m pu) (hne : pl ≠ pu) :
    interpValue m.intyp xl xu pu pl pu spv = xu := by
  rw [interpValue_eq m hpl hpu hpu, mul_div_assoc, div_self (sub_ne_zero.2 (kcoord_ne hpl hpu hne).symm)]; ring

theorem pairValue_ok {intyp n : ℕ} {x p : ℕ → ℝ} {spv t : ℝ} {kp : ℕ} (h1 : 1 ≤ kp) (h2 : kp < n) :
    pairValue intyp n x p spv t kp = some (interpValue intyp (x kp) (x (kp + 1)) t (p kp) (p (kp + 1)) spv) := by
  rw [pairValue, rd_ok h1 (by omega), rd_ok (by omega) (by omega), rd_ok h1 (by omega), rd_ok (by omega) (by omega)]
  rfl

/-- Any two acceptable pairs give the same value. -/
theorem pairValue_unique (m : Method) {n : ℕ} {x p : ℕ → ℝ} {asc : Bool} {t spv : ℝ}
    (hm : ∀ k, 1 ≤ k → k < n → if asc then p k < p (k + 1) else p (k + 1) < p k) (hd : ∀ k, 1 ≤ k → k ≤ n → Dom m (p k)) {i j : ℕ}
    (hi : Valid asc n p t i) (hj : Valid asc n p t j) : pairValue m.intyp n x p spv t i = pairValue m.intyp n x p spv t j := by
  have key : ∀ i j, Valid asc n p t i → Valid asc n p t j → i < j → pairValue m.intyp n x p spv t i = pairValue m.intyp n x p spv t j := by
    intro i j hi hj hij
    obtain ⟨e, ht⟩ := valid_two hm hi hj hij
    have hi1 := hi.1
    have hi2 := hi.2.1
    have hj2 := hj.2.1
    subst e
    rw [pairValue_ok hi1 hi2, pairValue_ok (by omega) hj2, ht,
      interpValue_right m (hd _ hi1 (by omega)) (hd _ (by omega) (by omega)), interpValue_left m (hd _ (by omega) (by omega)) (hd _ (by omega) (by omega))]
    have := hm i hi1 (by omega)
    cases asc
    · simp only [Bool.false_eq_true, if_false] at this; exact (ne_of_lt this).symm
    · simp only [if_true] at this; exact ne_of_lt this
  rcases lt_trichotomy i j with h | h | h
  · exact key i j hi hj h
  · rw [h]
  · exact (key j i hj hi h).symm

/-! ### Closed forms of the columns -/

/-- Value of one requested level: search plus interpolation, or the below-ground rule. -/
noncomputable def levelValue (bel : Below) (intyp n : ℕ) (x p : ℕ → ℝ) (spv t psmb tbot phis : ℝ) : ℝ :=
  let asc := decide (p 1 ≤ p n)
  if p (lowestIdx n asc) < t then (belowValue bel intyp n x p spv t psmb tbot phis asc).getD spv
  else match locate t n p asc with
    | none => spv
    | some kp => if kp < 1 then spv else interpValue intyp (x kp) (x (kp + 1)) t (p kp) (p (kp + 1)) spv

theorem levelsAscending_eq {n : ℕ} {p : ℕ → ℝ} (hn : 1 ≤ n) : levelsAscending n p = some (decide (p 1 ≤ p n)) := by
  rw [levelsAscending, rd_ok le_rfl hn, rd_ok hn le_rfl]; rfl

theorem lowestIdx_range {n : ℕ} (hn : 1 ≤ n) (asc : Bool) : 1 ≤ lowestIdx n asc ∧ lowestIdx n asc ≤ n := by
  unfold lowestIdx; cases asc <;> simp <;> omega

theorem belowValue_ok {bel : Below} (hb : bel ≠ .nodePair) {intyp n : ℕ} {x p : ℕ → ℝ} {spv t psmb tbot phis : ℝ} {asc : Bool} (hn : 1 ≤ n) :
    ∃ v, belowValue bel intyp n x p spv t psmb tbot phis asc = some v := by
  obtain ⟨h1, h2⟩ := lowestIdx_range hn asc
  cases bel with
  | missing => exact ⟨_, rfl⟩
  | nodePair => exact absurd rfl hb
  | temperature => rw [belowValue, rd_ok h1 h2, rd_ok h1 h2]; exact ⟨_, rfl⟩
  | geopotential => rw [belowValue, rd_ok h1 h2]; exact ⟨_, rfl⟩
  | other => rw [belowValue, rd_ok h1 h2]; exact ⟨_, rfl⟩

theorem intyp_ok (m : Method) : m.intyp = 1 ∨ m.intyp = 2 ∨ m.intyp = 3 := by cases m <;> simp [Method.intyp]

/-- Closed form of the ECMWF column kernel. -/
theorem columnEcmwf_eq (m : Method) {n : ℕ} (hn : 1 ≤ n) (x a b : ℕ → ℝ) (p0mb : ℝ) (no : ℕ) (lev : ℕ → ℝ) {ps spv : ℝ} (hps : ps ≠ spv)
    {bel : Below} (hb : bel ≠ .nodePair) (tbot phis : ℝ) (d : ℕ → ℝ) :
    columnEcmwf n x a b p0mb no lev m.intyp ps spv bel tbot phis d = some (fun k => if 1 ≤ k ∧ k ≤ no then
      levelValue bel m.intyp n x (buildPressures a b p0mb (ps * 0.01)) spv (lev k) (ps * 0.01) tbot phis else d k) := by
  obtain ⟨h1, h2⟩ := lowestIdx_range hn (decide (buildPressures a b p0mb (ps * 0.01) 1 ≤ buildPressures a b p0mb (ps * 0.01) n))
  rw [columnEcmwf, if_neg hps]
  simp only []
  rw [levelsAscending_eq hn]
  simp only [Option.bind_eq_bind, Option.bind_some]
  rw [rd_ok h1 h2]
  simp only [Option.bind_some]
  rw [if_pos (intyp_ok m)]
  apply loop_write
  intro k d hk1 hk2
  rw [rd_ok hk1 hk2]
  simp only [Option.bind_some]
  unfold levelValue
  simp only []
  by_cases hc : buildPressures a b p0mb (ps * 0.01)
      (lowestIdx n (decide (buildPressures a b p0mb (ps * 0.01) 1 ≤ buildPressures a b p0mb (ps * 0.01) n))) < lev k
  · rw [if_pos hc, if_pos hc]
    obtain ⟨v, hv⟩ := belowValue_ok hb (intyp := m.intyp) (x := x) (p := buildPressures a b p0mb (ps * 0.01)) (spv := spv) (t := lev k)
      (psmb := ps * 0.01) (tbot := tbot) (phis := phis)
      (asc := decide (buildPressures a b p0mb (ps * 0.01) 1 ≤ buildPressures a b p0mb (ps * 0.01) n)) hn
    rw [hv]; rfl
  · rw [if_neg hc, if_neg hc]
    rcases Nat.lt_or_ge n 2 with h | h
    · rw [locate_small h]; rfl
    · obtain ⟨kp, e, b1, b2, -⟩ := locate_range (lev k) (buildPressures a b p0mb (ps * 0.01))
        (decide (buildPressures a b p0mb (ps * 0.01) 1 ≤ buildPressures a b p0mb (ps * 0.01) n)) h
      rw [e]
      simp only [Option.bind_some]
      rw [if_neg (by omega), if_neg (by omega), pairValue_ok b1 b2]
      rfl

theorem dle_of_strict {n : ℕ} {p : ℕ → ℝ} {asc : Bool} (hm : ∀ k, 1 ≤ k → k < n → if asc then p k < p (k + 1) else p (k + 1) < p k) :
    ∀ k, 1 ≤ k → k < n → dle asc (p k) (p (k + 1)) := by
  intro k h1 h2
  have := hm k h1 h2
  cases asc
  · simp only [dle, Bool.false_eq_true, if_false] at *; exact le_of_lt this
  · simp only [dle, if_true] at *; exact le_of_lt this

theorem neverIncreases_spec {no : ℕ} {lev : ℕ → ℝ} (h : neverIncreases no lev = true) : ∀ k, 2 ≤ k → k ≤ no → lev k ≤ lev (k - 1) := by
  intro k h1 h2
  rw [neverIncreases, List.all_eq_true] at h
  have := h k (by rw [List.mem_range'_1]; omega)
  simpa using this

theorem antitone_of_step {no : ℕ} {lev : ℕ → ℝ} (h : ∀ k, 2 ≤ k → k ≤ no → lev k ≤ lev (k - 1)) :
    ∀ i j, 1 ≤ i → i ≤ j → j ≤ no → lev j ≤ lev i := by
  intro i j h1 h2
  induction j with
  | zero => omega
  | succ j ih =>
    intro hj
    rcases Nat.lt_or_ge i (j + 1) with hh | hh
    · have a := ih (by omega) (by omega)
      have b := h (j + 1) (by omega) hj
      simp only [Nat.add_sub_cancel] at b
      linarith
    · have : i = j + 1 := by omega
      rw [this]

/-- Closed form of the plain column kernel (walking or searching), on strictly monotonic levels. -/
theorem columnNodes_eq (m : Method) {n : ℕ} (hn : 1 ≤ n) (x a b : ℕ → ℝ) (p0mb : ℝ) (no : ℕ) (lev : ℕ → ℝ) {ps spv : ℝ} (hps : ps ≠ spv)
    (hs : Strict n (buildPressures a b p0mb (ps * 0.01))) (hd : ∀ k, 1 ≤ k → k ≤ n → Dom m (buildPressures a b p0mb (ps * 0.01) k))
    (tbot phis : ℝ) (d : ℕ → ℝ) :
    columnNodes n x a b p0mb no lev m.intyp ps spv false d = some (fun k => if 1 ≤ k ∧ k ≤ no then
      levelValue .missing m.intyp n x (buildPressures a b p0mb (ps * 0.01)) spv (lev k) (ps * 0.01) tbot phis else d k) := by
  rw [columnNodes, if_neg hps]
  simp only []
  rw [levelsAscending_eq hn]
  simp only [Option.bind_eq_bind, Option.bind_some]
  generalize hp : buildPressures a b p0mb (ps * 0.01) = p at *
  generalize hasc : decide (p 1 ≤ p n) = asc at *
  obtain ⟨h1, h2⟩ := lowestIdx_range hn asc
  rw [rd_ok h1 h2]
  simp only [Option.bind_some]
  rw [if_pos (intyp_ok m)]
  have hmono : ∀ k, 1 ≤ k → k < n → if asc then p k < p (k + 1) else p (k + 1) < p k := by
    rcases hs with hs | hs
    · rcases Nat.lt_or_ge n 2 with hn2 | hn2
      · intro k _ _; omega
      have := strict_lt (asc := true) (n := n) (p := p) (by simpa using hs) 1 n le_rfl (by omega) le_rfl
      simp only [if_true] at this
      have ha : asc = true := by rw [← hasc]; exact decide_eq_true (le_of_lt this)
      rw [ha]; simpa using hs
    · rcases Nat.lt_or_ge n 2 with hn2 | hn2
      · intro k _ _; omega
      have := strict_lt (asc := false) (n := n) (p := p) (by simpa using hs) 1 n le_rfl (by omega) le_rfl
      simp only [Bool.false_eq_true, if_false] at this
      have ha : asc = false := by rw [← hasc]; exact decide_eq_false (not_le.2 this)
      rw [ha]; simpa using hs
  have hloc : ∀ t, 2 ≤ n → ∃ kp, locate t n p asc = some kp ∧ 1 ≤ kp ∧ kp < n ∧ Valid asc n p t kp := by
    intro t h
    obtain ⟨kp, e, b1, b2, b3⟩ := locate_range t p asc h
    exact ⟨kp, e, b1, b2, b3 (dle_of_strict hmono)⟩
  have hlv : ∀ t, ¬ p (lowestIdx n asc) < t → 2 ≤ n → ∀ kp, Valid asc n p t kp →
      pairValue m.intyp n x p spv t kp = some (levelValue .missing m.intyp n x p spv t (ps * 0.01) tbot phis) := by
    intro t ht h kp hv
    obtain ⟨k', e, b1, b2, b3⟩ := hloc t h
    rw [pairValue_unique m hmono hd hv b3, pairValue_ok b1 b2, levelValue]
    rw [hasc, if_neg ht, e]
    simp only []
    rw [if_neg (by omega)]
  have hlb : ∀ t, p (lowestIdx n asc) < t → levelValue .missing m.intyp n x p spv t (ps * 0.01) tbot phis = spv := by
    intro t ht
    rw [levelValue]
    rw [hasc, if_pos ht]; rfl
  have hl0 : ∀ t, ¬ p (lowestIdx n asc) < t → n < 2 → levelValue .missing m.intyp n x p spv t (ps * 0.01) tbot phis = spv := by
    intro t ht h
    rw [levelValue]
    rw [hasc, if_neg ht, locate_small h]; rfl
  obtain ⟨s, e, hs1, hs2⟩ := doLoopM_inv (lo := 1) (hi := no) (by omega) (s := (d, lowestPair n asc))
    (f := fun k s => (rd no lev k).bind fun t =>
      if p (lowestIdx n asc) < t then
        if (false : Bool) = true then
          (pairValue m.intyp n x p spv t (lowestPair n asc)).bind fun v => (wr no s.1 k v).bind fun d => some (d, s.2)
        else (wr no s.1 k spv).bind fun d => some (d, s.2)
      else if (asc && neverIncreases no lev) = true then
        (walk t n p s.2).bind fun kp =>
          if kp < 1 then (wr no s.1 k spv).bind fun d => some (d, kp)
          else (pairValue m.intyp n x p spv t kp).bind fun v => (wr no s.1 k v).bind fun d => some (d, kp)
      else
        (locate t n p asc).bind fun kp =>
          if kp < 1 then (wr no s.1 k spv).bind fun d => some (d, s.2)
          else (pairValue m.intyp n x p spv t kp).bind fun v => (wr no s.1 k v).bind fun d => some (d, s.2))
    (fun j s => (s.1 = fun k => if 1 ≤ k ∧ k < j then levelValue .missing m.intyp n x p spv (lev k) (ps * 0.01) tbot phis else d k) ∧
      ((asc && neverIncreases no lev) = true → s.2 ≤ n - 1 ∧ (2 ≤ n → 1 ≤ s.2) ∧
        (s.2 = n - 1 ∨ ∃ i, 1 ≤ i ∧ i < j ∧ lev i < p (s.2 + 1))))
    ⟨by funext k; rw [if_neg (by omega)], by
      intro hu
      have ha : asc = true := by revert hu; cases asc <;> simp
      rw [ha]
      simp only [lowestPair, if_true]
      exact ⟨le_rfl, by omega, Or.inl trivial⟩⟩
    (by
      rintro j ⟨d1, hint⟩ hj1 hj2 ⟨i1, i2⟩
      simp only at i1 i2
      subst i1
      have fin : ∀ v, v = levelValue .missing m.intyp n x p spv (lev j) (ps * 0.01) tbot phis →
          Function.update (fun k => if 1 ≤ k ∧ k < j then levelValue .missing m.intyp n x p spv (lev k) (ps * 0.01) tbot phis else d k) j v
            = fun k => if 1 ≤ k ∧ k < j + 1 then levelValue .missing m.intyp n x p spv (lev k) (ps * 0.01) tbot phis else d k := by
        rintro v rfl
        funext k
        by_cases hk : k = j
        · subst hk; rw [Function.update_self, if_pos (by omega)]
        · rw [Function.update_of_ne hk]
          by_cases hkj : 1 ≤ k ∧ k < j
          · rw [if_pos hkj, if_pos (by omega)]
          · rw [if_neg hkj, if_neg (by omega)]
      have wk : ∀ (q : ℕ), (q = n - 1 ∨ ∃ i, 1 ≤ i ∧ i < j ∧ lev i < p (q + 1)) →
          (q = n - 1 ∨ ∃ i, 1 ≤ i ∧ i < j + 1 ∧ lev i < p (q + 1)) := by
        rintro q (h | ⟨i, h1, h2, h3⟩)
        · exact Or.inl h
        · exact Or.inr ⟨i, h1, by omega, h3⟩
      rw [rd_ok hj1 hj2]
      simp only [Option.bind_some]
      by_cases hc : p (lowestIdx n asc) < lev j
      · rw [if_pos hc, if_neg (by simp), wr_ok hj1 hj2]
        refine ⟨_, rfl, fin _ (hlb _ hc).symm, fun hu => ?_⟩
        obtain ⟨u1, u2, u3⟩ := i2 hu
        exact ⟨u1, u2, wk _ u3⟩
      · rw [if_neg hc]
        by_cases hu : (asc && neverIncreases no lev) = true
        · rw [if_pos hu]
          obtain ⟨u1, u2, u3⟩ := i2 hu
          have ha : asc = true := by revert hu; cases asc <;> simp
          have hni : neverIncreases no lev = true := by revert hu; cases asc <;> simp
          rcases Nat.lt_or_ge n 2 with hn2 | hn2
          · have : hint = 0 := by omega
            subst this
            rw [walk]
            simp only [Option.bind_some]
            rw [if_pos (by omega), wr_ok hj1 hj2]
            exact ⟨_, rfl, fin _ (hl0 _ hc hn2).symm, fun _ => ⟨by omega, by omega, Or.inl (by simp only; omega)⟩⟩
          · obtain ⟨kp, e, w1, w2, w3, w4⟩ := walk_spec (lev j) n p hint (u2 hn2) (by omega)
            have hv : Valid asc n p (lev j) kp := by
              refine ⟨w1, by clear u3; omega, ?_, ?_⟩
              · rw [ha]; simpa [dle] using w3
              · rcases w4 with w4 | w4
                · rcases u3 with u3 | ⟨i, q1, q2, q3⟩
                  · left; omega
                  · right
                    have := antitone_of_step (neverIncreases_spec hni) i j q1 (by omega) hj2
                    rw [ha, w4]; simp only [dle, if_true]; linarith
                · right; rw [ha]; simp only [dle, if_true]; exact le_of_lt w4
            rw [e]
            simp only [Option.bind_some]
            rw [if_neg (by omega), hlv _ hc hn2 kp hv]
            simp only [Option.bind_some]
            rw [wr_ok hj1 hj2]
            refine ⟨_, rfl, fin _ rfl, fun _ => ⟨by simp only; clear u3; omega, fun _ => w1, ?_⟩⟩
            simp only
            rcases w4 with w4 | w4
            · rw [w4]; exact wk _ u3
            · exact Or.inr ⟨j, hj1, by omega, w4⟩
        · rw [if_neg hu]
          rcases Nat.lt_or_ge n 2 with hn2 | hn2
          · rw [locate_small hn2]
            simp only [Option.bind_some]
            rw [if_pos (by omega), wr_ok hj1 hj2]
            exact ⟨_, rfl, fin _ (hl0 _ hc hn2).symm, fun h => absurd h hu⟩
          · obtain ⟨kp, e, b1, b2, b3⟩ := hloc (lev j) hn2
            rw [e]
            simp only [Option.bind_some]
            rw [if_neg (by omega), hlv _ hc hn2 kp b3]
            simp only [Option.bind_some]
            rw [wr_ok hj1 hj2]
            exact ⟨_, rfl, fin _ rfl, fun h => absurd h hu⟩)
  rw [e]
  simp only [Option.bind_some]
  rw [hs1]
  congr 1
  funext k
  by_cases hk : 1 ≤ k ∧ k ≤ no
  · rw [if_pos hk, if_pos (by omega)]
  · rw [if_neg hk, if_neg (by omega)]

end Skyborn.Hybrid
