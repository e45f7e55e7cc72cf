/-
Lemmas about the model of `interp_pressure_1d`: the binary searches, the value at one output point, and the shape of the result.
-/
import Verif.Interp.Pressure1D
import Mathlib.Tactic.FieldSimp
import Mathlib.Tactic.Ring

namespace Skyborn.Interp

/-- Strictly descending list. -/
def Desc (l : List ℝ) : Prop := ∀ i j (hi : i < l.length) (hj : j < l.length), i < j → l[j] < l[i]

theorem desc_of_chain {l : List ℝ} (h : l.IsChain (· > ·)) : Desc l := by
  have h2 := (List.isChain_iff_pairwise.mp h)
  rw [List.pairwise_iff_getElem] at h2
  exact fun i j hi hj hij => h2 i j hi hj hij

theorem locExact_spec {t : ℝ} {lv : List ℝ} (hd : Desc lv) : ∀ (k low high : ℕ), high + 1 - low = k → 1 ≤ low → high ≤ lv.length →
    (∀ i (hi : i < lv.length), i + 1 < low → lv[i] ≠ t) → (∀ i (hi : i < lv.length), high < i + 1 → lv[i] ≠ t) →
    ∃ e, locExact t lv low high = some e ∧
      ((∃ (he : e - 1 < lv.length), 0 < e ∧ lv[e - 1] = t) ∨ (e = 0 ∧ ∀ i (hi : i < lv.length), lv[i] ≠ t)) := by
  intro k
  induction k using Nat.strong_induction_on with
  | _ k ih =>
    intro low high hk h1 h2 hlo hhi
    rw [locExact]
    by_cases hle : low ≤ high
    · rw [dif_pos hle]
      obtain ⟨m, hm⟩ : ∃ m, low + (high - low) / 2 = m + 1 := ⟨low + (high - low) / 2 - 1, by omega⟩
      split
      · omega
      rename_i m' hm'
      have : m' = m := by omega
      subst this
      have hml : m' < lv.length := by omega
      rw [List.getElem?_eq_getElem hml]
      dsimp only
      by_cases ht : t = lv[m']
      · rw [if_pos ht]
        exact ⟨m' + 1, rfl, Or.inl ⟨by simpa using hml, by omega, by simpa using ht.symm⟩⟩
      · rw [if_neg ht]
        by_cases hlt : lv[m'] < t
        · rw [if_pos hlt]
          refine ih (m' + 1 - low) (by omega) low m' rfl h1 (by omega) hlo ?_
          intro i hi him
          rcases Nat.lt_or_ge m' i with h | h
          · have := hd m' i hml hi h
            intro e; rw [e] at this; linarith
          · have : i = m' := by omega
            subst this
            exact fun e => ht e.symm
        · rw [if_neg hlt]
          refine ih (high + 1 - (m' + 2)) (by omega) (m' + 2) high rfl (by omega) h2 ?_ hhi
          intro i hi him
          rcases Nat.lt_or_ge i m' with h | h
          · have := hd i m' hi hml h
            intro e; rw [e] at this; linarith
          · have : i = m' := by omega
            subst this
            exact fun e => ht e.symm
    · rw [dif_neg hle]
      refine ⟨0, rfl, Or.inr ⟨rfl, fun i hi => ?_⟩⟩
      rcases Nat.lt_or_ge (i + 1) low with h | h
      · exact hlo i hi h
      · exact hhi i hi (by omega)

theorem locIntervalLoop_spec {t : ℝ} {lv : List ℝ} (hd : Desc lv) (hne : ∀ i (hi : i < lv.length), lv[i] ≠ t) :
    ∀ (k low high : ℕ), high + 1 - low = k → 1 ≤ low → high + 1 ≤ lv.length →
    (∃ j, ∃ (hj : j + 1 < lv.length), low ≤ j + 1 ∧ j + 1 ≤ high ∧ t < lv[j] ∧ lv[j + 1] < t) →
    ∃ i, ∃ (hi : i + 1 < lv.length), locIntervalLoop t lv low high = some (i + 1) ∧ t < lv[i] ∧ lv[i + 1] < t := by
  intro k
  induction k using Nat.strong_induction_on with
  | _ k ih =>
    intro low high hk h1 h2 hex
    obtain ⟨j, hj, hj1, hj2, hj3, hj4⟩ := hex
    rw [locIntervalLoop]
    have hle : low ≤ high := by omega
    rw [dif_pos hle]
    obtain ⟨m, hm⟩ : ∃ m, low + (high - low) / 2 = m + 1 := ⟨low + (high - low) / 2 - 1, by omega⟩
    split
    · omega
    rename_i m' hm'
    have : m' = m := by omega
    subst this
    have hml : m' + 1 < lv.length := by omega
    rw [List.getElem?_eq_getElem (by omega : m' < lv.length), List.getElem?_eq_getElem hml]
    dsimp only
    by_cases hb : t < lv[m'] ∧ lv[m' + 1] < t
    · rw [if_pos hb]
      exact ⟨m', hml, rfl, hb.1, hb.2⟩
    · rw [if_neg hb]
      by_cases hlt : lv[m'] < t
      · rw [if_pos hlt]
        refine ih (m' + 1 - low) (by omega) low m' rfl h1 (by omega) ⟨j, hj, hj1, ?_, hj3, hj4⟩
        by_contra hc
        rcases Nat.lt_or_ge m' j with h | h
        · have := hd m' j (by omega) (by omega) h
          linarith
        · have : j = m' := by omega
          subst this
          linarith
      · rw [if_neg hlt]
        refine ih (high + 1 - (m' + 2)) (by omega) (m' + 2) high rfl (by omega) h2 ⟨j, hj, ?_, hj2, hj3, hj4⟩
        have h5 : t < lv[m'] := lt_of_le_of_ne (not_lt.mp hlt) (fun e => hne m' (by omega) e.symm)
        have h6 : t < lv[m' + 1] := by
          refine lt_of_le_of_ne (not_lt.mp fun g => hb ⟨h5, g⟩) (fun e => hne (m' + 1) hml e.symm)
        by_contra hc
        rcases Nat.lt_or_ge j m' with h | h
        · rcases Nat.lt_or_ge (j + 1) m' with h' | h'
          · have := hd (j + 1) m' (by omega) (by omega) h'
            linarith
          · have : j + 1 = m' := by omega
            subst this
            linarith
        · have : j = m' := by omega
          subst this
          linarith

/-- The coordinate in which the method is linear. -/
noncomputable def Spec.coord (useLog : Bool) (p : ℝ) : ℝ := if useLog then Real.log p else p

/-- `v` is the value at `t` of the straight line (in the coordinate of the method) through `(p0, x0)` and `(p1, x1)`. -/
def Spec.OnLine (useLog : Bool) (p0 x0 p1 x1 t v : ℝ) : Prop :=
  (v - x0) * (Spec.coord useLog p1 - Spec.coord useLog p0) = (x1 - x0) * (Spec.coord useLog t - Spec.coord useLog p0)

theorem Spec.OnLine.symm {u : Bool} {p0 x0 p1 x1 t v : ℝ} (h : OnLine u p0 x0 p1 x1 t v) : OnLine u p1 x1 p0 x0 t v := by
  unfold OnLine at *
  linear_combination -h

/-- The number passed as `linlog`. -/
def linlogOf (useLog ex : Bool) : ℤ := if useLog then (if ex then -2 else 2) else (if ex then -1 else 1)

theorem coord_lt {u : Bool} {a b : ℝ} (ha : u = true → 0 < a) (h : a < b) : Spec.coord u a < Spec.coord u b := by
  unfold Spec.coord
  cases u
  · simpa using h
  · simpa using Real.log_lt_log (ha rfl) h

theorem interpValue_onLine {u ex : Bool} {xa xb t pa pb : ℝ} (hb : u = true → 0 < pb) (h : pb < pa) :
    Spec.OnLine u pa xa pb xb t (interpValue xa xb t pa pb (linlogOf u ex).natAbs) := by
  have hc := coord_lt hb h
  refine Spec.OnLine.symm ?_
  unfold Spec.OnLine interpValue
  have hne : Spec.coord u pa - Spec.coord u pb ≠ 0 := by linarith
  cases u
  · have : (linlogOf false ex).natAbs = 1 := by cases ex <;> rfl
    rw [if_pos this]
    simp only [Spec.coord, Bool.false_eq_true, if_false] at hne ⊢
    unfold interpLinear
    field_simp
    ring
  · have : ¬ (linlogOf true ex).natAbs = 1 := by cases ex <;> decide
    rw [if_neg this]
    simp only [Spec.coord, if_true] at hne ⊢
    unfold interpLog
    field_simp
    ring

/-- A point of a segment lies between its ends. -/
theorem Spec.OnLine.between {u : Bool} {p0 x0 p1 x1 t v : ℝ} (h : OnLine u p0 x0 p1 x1 t v) (h1 : u = true → 0 < p1)
    (ht1 : p1 ≤ t) (ht0 : t ≤ p0) (hlt : p1 < p0) : min x0 x1 ≤ v ∧ v ≤ max x0 x1 := by
  have hc := coord_lt h1 hlt
  have hc1 : Spec.coord u p1 ≤ Spec.coord u t := by
    rcases ht1.lt_or_eq with g | g
    · exact (coord_lt h1 g).le
    · rw [g]
  have hc0 : Spec.coord u t ≤ Spec.coord u p0 := by
    rcases ht0.lt_or_eq with g | g
    · exact (coord_lt (fun e => lt_of_lt_of_le (h1 e) ht1) g).le
    · rw [g]
  unfold OnLine at h
  set c0 := Spec.coord u p0
  set c1 := Spec.coord u p1
  set c := Spec.coord u t
  constructor
  · rcases le_total x0 x1 with g | g
    · rw [min_eq_left g]
      nlinarith [mul_nonneg (sub_nonneg.mpr g) (sub_nonneg.mpr hc0)]
    · rw [min_eq_right g]
      nlinarith [mul_nonneg (sub_nonneg.mpr g) (sub_nonneg.mpr hc1)]
  · rcases le_total x0 x1 with g | g
    · rw [max_eq_right g]
      nlinarith [mul_nonneg (sub_nonneg.mpr g) (sub_nonneg.mpr hc1)]
    · rw [max_eq_left g]
      nlinarith [mul_nonneg (sub_nonneg.mpr g) (sub_nonneg.mpr hc0)]

/-- The value at an output point for a descending profile of at least two levels. -/
theorem pointValue_spec {p x : List ℝ} (hd : Desc p) (hl : p.length = x.length) (h2 : 2 ≤ p.length) {u ex : Bool} {xmsg t : ℝ}
    (hpos : u = true → ∀ i (hi : i < p.length), 0 < p[i]) (hxm : ∀ i (hi : i < p.length), p[i] < xmsg) :
    ∃ v, pointValue p x (linlogOf u ex) xmsg t = some v ∧
      (∀ i (hi : i + 1 < p.length), p[i + 1] ≤ t → t ≤ p[i] →
        Spec.OnLine u p[i] (x[i]'(by omega)) p[i + 1] (x[i + 1]'(by omega)) t v) ∧
      (∀ i (hi : i < p.length), t = p[i] → v = x[i]'(by omega)) ∧
      (ex = false → (p[0]'(by omega) < t ∨ t < p[p.length - 1]'(by omega)) → v = xmsg) ∧
      (ex = true → t ≠ xmsg → p[0]'(by omega) < t → Spec.OnLine u (p[0]'(by omega)) (x[0]'(by omega)) (p[1]'(by omega)) (x[1]'(by omega)) t v) ∧
      (ex = true → t < p[p.length - 1]'(by omega) →
        v = (if u then extrapLogLow (x[p.length - 2]'(by omega)) (x[p.length - 1]'(by omega)) t (p[p.length - 2]'(by omega)) (p[p.length - 1]'(by omega))
          else interpLinear (x[p.length - 2]'(by omega)) (x[p.length - 1]'(by omega)) t (p[p.length - 2]'(by omega)) (p[p.length - 1]'(by omega)))) := by
  have h0 : 0 < p.length := by omega
  have hlast : p.length - 1 < p.length := by omega
  have hge : ∀ i (hi : i < p.length), p[i] ≤ p[0] := by
    intro i hi
    rcases Nat.eq_zero_or_pos i with h | h
    · subst h; rfl
    · exact (hd 0 i h0 hi h).le
  have hle : ∀ i (hi : i < p.length), p[p.length - 1] ≤ p[i] := by
    intro i hi
    rcases Nat.lt_or_ge i (p.length - 1) with h | h
    · exact (hd i _ hi hlast h).le
    · have : i = p.length - 1 := by omega
      subst this; rfl
  have hneg : (linlogOf u ex < 0) ↔ ex = true := by cases u <;> cases ex <;> decide
  have hinj : ∀ i j (hi : i < p.length) (hj : j < p.length), p[i] = p[j] → i = j := by
    intro i j hi hj e
    rcases Nat.lt_trichotomy i j with h | h | h
    · have := hd i j hi hj h; linarith
    · exact h
    · have := hd j i hj hi h; linarith
  unfold pointValue
  by_cases htm : t = xmsg
  · rw [if_pos htm]
    refine ⟨xmsg, rfl, ?_, ?_, fun _ _ => rfl, fun _ h => absurd htm h, ?_⟩
    · intro i hi _ hb
      have := hxm i (by omega)
      rw [← htm] at this; linarith
    · intro i hi hb
      have := hxm i hi
      rw [← htm] at this; linarith
    · intro _ hb
      have := hxm _ hlast
      rw [← htm] at this; linarith
  rw [if_neg htm]
  obtain ⟨e, he, hcase⟩ := locExact_spec (t := t) hd p.length 1 p.length (by omega) le_rfl le_rfl (fun i _ h => by omega)
    (fun i hi h => by omega)
  rw [he]
  simp only [Option.bind_eq_bind, Option.bind_some]
  rcases hcase with ⟨hel, hepos, hev⟩ | ⟨rfl, hne⟩
  · rw [if_pos hepos, List.getElem?_eq_getElem (by omega : e - 1 < x.length)]
    refine ⟨_, rfl, ?_, ?_, ?_, ?_, ?_⟩
    · intro i hi hb1 hb2
      have hlt := hd i (i + 1) (by omega) hi (by omega)
      rcases hb2.lt_or_eq with g | g
      · rcases hb1.lt_or_eq with g' | g'
        · exfalso
          rcases Nat.lt_or_ge i (e - 1) with q | q
          · rcases Nat.lt_or_ge (i + 1) (e - 1) with q' | q'
            · have := hd (i + 1) (e - 1) (by omega) hel q'; linarith
            · have : e - 1 = i + 1 := by omega
              simp only [this] at hev; linarith
          · rcases Nat.lt_or_ge (e - 1) i with q' | q'
            · have := hd (e - 1) i hel (by omega) q'; linarith
            · have : e - 1 = i := by omega
              simp only [this] at hev; linarith
        · have : e - 1 = i + 1 := hinj _ _ hel hi (by linarith)
          simp only [this]
          unfold Spec.OnLine
          rw [g']
      · have : e - 1 = i := hinj _ _ hel (by omega) (by linarith)
        simp only [this]
        unfold Spec.OnLine
        rw [← g]; ring
    · intro i hi hb
      have : e - 1 = i := hinj _ _ hel hi (by linarith)
      simp only [this]
    · intro _ hb
      have a1 := hge _ hel
      have a2 := hle _ hel
      rcases hb with hb | hb <;> linarith
    · intro _ _ hb
      have a1 := hge _ hel
      linarith
    · intro _ hb
      have a2 := hle _ hel
      linarith
  · rw [if_neg (by omega)]
    rw [List.getElem?_eq_getElem h0, List.getElem?_eq_getElem hlast]
    simp only [Option.bind_some]
    by_cases hhi : p[0] < t
    · rw [if_pos hhi]
      have vac : ∀ i (hi : i + 1 < p.length), p[i + 1] ≤ t → t ≤ p[i] → False := by
        intro i hi _ hb
        have := hge i (by omega); linarith
      by_cases hex : ex = true
      · rw [if_pos (hneg.mpr hex), List.getElem?_eq_getElem (by omega : 1 < p.length), List.getElem?_eq_getElem (by omega : 0 < x.length),
          List.getElem?_eq_getElem (by omega : 1 < x.length)]
        simp only [Option.bind_some]
        refine ⟨_, rfl, fun i hi a b => (vac i hi a b).elim, fun i hi a => absurd a.symm (hne i hi), ?_, ?_, ?_⟩
        · intro h; rw [hex] at h; cases h
        · intro _ _ _
          exact interpValue_onLine (fun h => hpos h 1 (by omega)) (hd 0 1 h0 (by omega) (by omega))
        · intro _ hb
          have := hge _ hlast; linarith
      · rw [if_neg (fun h => hex (hneg.mp h))]
        exact ⟨_, rfl, fun i hi a b => (vac i hi a b).elim, fun i hi a => absurd a.symm (hne i hi), fun _ _ => rfl,
          fun h => absurd h hex, fun h => absurd h hex⟩
    · rw [if_neg hhi]
      by_cases hlo : t < p[p.length - 1]
      · rw [if_pos hlo]
        have vac : ∀ i (hi : i + 1 < p.length), p[i + 1] ≤ t → t ≤ p[i] → False := by
          intro i hi hb _
          have := hle (i + 1) hi; linarith
        by_cases hex : ex = true
        · rw [if_pos (hneg.mpr hex), List.getElem?_eq_getElem (by omega : p.length - 2 < p.length),
            List.getElem?_eq_getElem (by omega : p.length - 2 < x.length), List.getElem?_eq_getElem (by omega : p.length - 1 < x.length)]
          simp only [Option.bind_some]
          cases u
          · have : (linlogOf false ex).natAbs = 1 := by cases ex <;> rfl
            rw [if_pos this]
            refine ⟨_, rfl, fun i hi a b => (vac i hi a b).elim, fun i hi a => absurd a.symm (hne i hi), ?_, ?_, ?_⟩
            · intro h; rw [hex] at h; cases h
            · intro _ _ h; exact absurd h hhi
            · intro _ _
              simp only [Bool.false_eq_true, if_false]
              unfold interpValue
              rw [if_pos this]
          · have : ¬ (linlogOf true ex).natAbs = 1 := by cases ex <;> decide
            rw [if_neg this]
            refine ⟨_, rfl, fun i hi a b => (vac i hi a b).elim, fun i hi a => absurd a.symm (hne i hi), ?_, ?_, ?_⟩
            · intro h; rw [hex] at h; cases h
            · intro _ _ h; exact absurd h hhi
            · intro _ _
              simp only [if_true]
        · rw [if_neg (fun h => hex (hneg.mp h))]
          exact ⟨_, rfl, fun i hi a b => (vac i hi a b).elim, fun i hi a => absurd a.symm (hne i hi), fun _ _ => rfl,
            fun h => absurd h hex, fun h => absurd h hex⟩
      · rw [if_neg hlo]
        have ht0 : t < p[0] := lt_of_le_of_ne (not_lt.mp hhi) (fun h => hne 0 h0 h.symm)
        have htn : p[p.length - 1] < t := lt_of_le_of_ne (not_lt.mp hlo) (fun h => hne _ hlast h)
        -- a bracketing interval exists
        have hexI : ∃ j, ∃ (hj : j + 1 < p.length), t < p[j] ∧ p[j + 1] < t := by
          by_contra hc
          push Not at hc
          have : ∀ j (hj : j < p.length), t < p[j] := by
            intro j
            induction j with
            | zero => intro _; exact ht0
            | succ j ih =>
              intro hj
              exact lt_of_le_of_ne (hc j hj (ih (by omega))) (fun h => hne _ hj h.symm)
          have := this _ hlast
          linarith
        obtain ⟨j, hj, hj1, hj2⟩ := hexI
        obtain ⟨i, hi, hie, hi1, hi2⟩ := locIntervalLoop_spec hd hne (p.length - 1 + 1 - 1) 1 (p.length - 1) rfl le_rfl (by omega)
          ⟨j, hj, by omega, by omega, hj1, hj2⟩
        have hloc : locInterval t p = some (i + 1) := by
          unfold locInterval
          rw [if_neg (by omega), List.getElem?_eq_getElem h0, List.getElem?_eq_getElem hlast]
          dsimp only
          rw [if_neg (by push Not; exact ⟨ht0, htn⟩), hie]
        rw [hloc]
        simp only [Option.bind_some]
        rw [if_pos (by omega), Nat.add_sub_cancel, List.getElem?_eq_getElem (by omega : i < x.length),
          List.getElem?_eq_getElem (by omega : i + 1 < x.length), List.getElem?_eq_getElem (by omega : i < p.length),
          List.getElem?_eq_getElem hi]
        simp only [Option.bind_some]
        refine ⟨_, rfl, ?_, fun i hi a => absurd a.symm (hne i hi), ?_, ?_, ?_⟩
        · intro k hk hb1 hb2
          have hk1 : p[k + 1] < t := lt_of_le_of_ne hb1 (hne _ hk)
          have hk2 : t < p[k] := lt_of_le_of_ne hb2 (fun h => hne k (by omega) h.symm)
          have : k = i := by
            rcases Nat.lt_trichotomy k i with h | h | h
            · rcases Nat.lt_or_ge (k + 1) i with q | q
              · have := hd (k + 1) i hk (by omega) q; linarith
              · have : i = k + 1 := by omega
                subst this; linarith
            · exact h
            · rcases Nat.lt_or_ge (i + 1) k with q | q
              · have := hd (i + 1) k hi (by omega) q; linarith
              · have : k = i + 1 := by omega
                subst this; linarith
          subst this
          exact interpValue_onLine (fun h => hpos h _ hk) (hd k (k + 1) (by omega) hk (by omega))
        · intro _ hb
          rcases hb with hb | hb <;> linarith
        · intro _ _ hb; linarith
        · intro _ hb; linarith

end Skyborn.Interp
