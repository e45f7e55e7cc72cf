/-
C74: `geopotential_height_at_hybrid_levels`; C75: `pressure_at_hybrid_levels` and `delta_pressure_hybrid`.
-/
import Verif.Interp.HybridPaths
import Mathlib.Analysis.SpecialFunctions.Log.Deriv
import Mathlib.Tactic.NormNum

namespace Skyborn.Hybrid

namespace Spec

/-- Pressure of interface `k`. -/
def halfPressure (hyai hybi : ℕ → ℝ) (p0 s : ℝ) (k : ℕ) : ℝ := hyai k * p0 + hybi k * s

/-- Gas constant times virtual temperature, `R_d T (1 + 0.609133 q)`. -/
noncomputable def rtv (t q : ℝ) : ℝ := 287.06 * (t * (1 + 0.609133 * q))

/-- Fraction of a layer between its lower interface `pl` and its full level (ECMWF): `1 - pu / (pl - pu) ln(pl / pu)`, and `ln 2` for a top
layer that reaches zero pressure. -/
noncomputable def alphaFull (top : Prop) [Decidable top] (pu pl : ℝ) : ℝ :=
  if top then Real.log 2 else 1 - pu / (pl - pu) * Real.log (pl / pu)

/-- Hypsometric height of full level `k`: surface geopotential, plus all layers below, plus the part of layer `k` below its full level. -/
noncomputable def hypsometric (nlev : ℕ) (ph : ℕ → ℝ) (t q : ℕ → ℝ) (phis : ℝ) (k : ℕ) : ℝ :=
  (phis + ∑ l ∈ Finset.Icc (k + 1) nlev, rtv (t l) (q l) * Real.log (ph (l + 1) / ph l) +
    rtv (t k) (q k) * alphaFull (k = 1 ∧ ph 1 ≤ 0) (ph k) (ph (k + 1))) / 9.80665

end Spec

open Spec

theorem heightColumn_eq {nouter ninner nlev o i : ℕ} (t q : ℕ → ℕ → ℕ → ℝ) (ps phis : ℝ) (hyai hybi : ℕ → ℝ) (p0 : ℝ) (d : ℕ → ℝ)
    (ho : 1 ≤ o) (hon : o ≤ nouter) (hi : 1 ≤ i) (hin : i ≤ ninner) :
    ∃ d', heightColumn (nouter * nlev * ninner) (cbuf nlev ninner t) (cbuf nlev ninner q) ps phis hyai hybi p0 ((o - 1) * nlev * ninner) i
        ninner nlev d = some d' ∧
      (∀ k, 1 ≤ k → k ≤ nlev → d' (pos nlev ninner o i k) = hypsometric nlev (halfPressure hyai hybi p0 ps) (fun l => t (o - 1) l (i - 1))
        (fun l => q (o - 1) l (i - 1)) phis k) ∧
      ∀ p, (∀ k, 1 ≤ k → k ≤ nlev → p ≠ pos nlev ninner o i k) → d' p = d p := by
  rw [heightColumn]
  simp only []
  generalize hph : (fun k => hyai k * p0 + hybi k * ps) = ph
  have hph' : halfPressure hyai hybi p0 ps = ph := by rw [← hph]; rfl
  rw [hph']
  simp only [Option.bind_eq_bind]
  obtain ⟨s, e, hs1, hs2, -⟩ := doLoopM_inv (lo := 1) (hi := nlev) (by omega)
    (s := (d, phis, (o - 1) * nlev * ninner + i + (nlev - 1) * ninner))
    (f := fun j s => (rd (nlev + 1) ph (nlev + 1 - j)).bind fun pu => (rd (nlev + 1) ph (nlev + 1 - j + 1)).bind fun pl =>
      (rd (nouter * nlev * ninner) (cbuf nlev ninner t) s.2.2).bind fun tt => (rd (nouter * nlev * ninner) (cbuf nlev ninner q) s.2.2).bind fun qq =>
      (wr (nouter * nlev * ninner) s.1 s.2.2 ((s.2.1 + 287.06 * tt * (1 + 0.609133 * qq) *
        (if decide (nlev + 1 - j = 1 ∧ pu ≤ 0) = true then Real.log 2 else 1 - pu / (pl - pu) * Real.log (pl / pu))) / 9.80665)).bind fun z =>
      some (z, s.2.1 + 287.06 * tt * (1 + 0.609133 * qq) *
        (if decide (nlev + 1 - j = 1 ∧ pu ≤ 0) = true then Real.log (pl / 0.1) else Real.log (pl / pu)), s.2.2 - ninner))
    (fun j s => (∀ k, nlev + 1 - j < k → 1 ≤ k → k ≤ nlev → s.1 (pos nlev ninner o i k) = hypsometric nlev ph (fun l => t (o - 1) l (i - 1))
        (fun l => q (o - 1) l (i - 1)) phis k) ∧
      (∀ p, (∀ k, 1 ≤ k → k ≤ nlev → p ≠ pos nlev ninner o i k) → s.1 p = d p) ∧
      (j ≤ nlev → s.2.2 = pos nlev ninner o i (nlev + 1 - j) ∧
        s.2.1 = phis + ∑ l ∈ Finset.Icc (nlev + 1 - j + 1) nlev, rtv (t (o - 1) l (i - 1)) (q (o - 1) l (i - 1)) * Real.log (ph (l + 1) / ph l)))
    ⟨by intro k h1 _ h2; omega, by intro p _; rfl, by
      intro _
      refine ⟨?_, ?_⟩
      · simp only [Nat.add_sub_cancel]; rfl
      · simp only [Nat.add_sub_cancel]
        rw [Finset.Icc_eq_empty (by omega), Finset.sum_empty, add_zero]⟩
    (by
      rintro j ⟨d1, phi1, idx⟩ hj1 hj2 ⟨i1, i2, i3⟩
      obtain ⟨i3, i4⟩ := i3 hj2
      simp only at i1 i2 i3 i4
      have hk1 : 1 ≤ nlev + 1 - j := by omega
      have hk2 : nlev + 1 - j ≤ nlev := by omega
      obtain ⟨k, hk⟩ : ∃ k, k = nlev + 1 - j := ⟨_, rfl⟩
      rw [← hk] at hk1 hk2 i1 i3 i4 ⊢
      obtain ⟨p1, p2⟩ := pos_range (n := nlev) ho hon hi hin hk1 hk2
      subst i3
      rw [rd_ok hk1 (by omega), rd_ok (by omega) (by omega)]
      simp only [Option.bind_some]
      rw [rd_ok p1 p2, rd_ok p1 p2, cbuf_pos t hi hin hk1 hk2, cbuf_pos q hi hin hk1 hk2]
      simp only [Option.bind_some]
      rw [wr_ok p1 p2]
      refine ⟨_, rfl, ?_, ?_, ?_⟩
      · intro k' a1 a2 a3
        simp only
        by_cases hkk : k' = k
        · subst hkk
          rw [Function.update_self, i4]
          unfold hypsometric alphaFull rtv
          have hcond : (decide (k' = 1 ∧ ph k' ≤ 0) = true) ↔ (k' = 1 ∧ ph 1 ≤ 0) := by
            rw [decide_eq_true_eq]
            constructor
            · rintro ⟨rfl, h⟩; exact ⟨rfl, h⟩
            · rintro ⟨rfl, h⟩; exact ⟨rfl, h⟩
          congr 1
          by_cases hc : k' = 1 ∧ ph 1 ≤ 0
          · rw [if_pos (hcond.2 hc), if_pos hc]; ring
          · rw [if_neg (fun h => hc (hcond.1 h)), if_neg hc]; ring
        · rw [Function.update_of_ne]
          · exact i1 k' (by omega) a2 a3
          · intro hc
            have := pos_inj ho ho hi hin hi hin a2 a3 hk1 hk2 hc
            omega
      · intro p hp
        simp only
        rw [Function.update_of_ne (hp k hk1 hk2)]
        exact i2 p hp
      · intro hj
        have hk3 : nlev + 1 - (j + 1) = k - 1 := by omega
        have hk4 : 2 ≤ k := by omega
        rw [hk3]
        simp only
        constructor
        · have := pos_next (n := nlev) (ninner := ninner) (o := o) (i := i) (k := k - 1) (by omega)
          rw [Nat.sub_add_cancel hk1] at this
          omega
        · rw [Nat.sub_add_cancel hk1]
          have hins : Finset.Icc k nlev = insert k (Finset.Icc (k + 1) nlev) := by
            ext x; simp only [Finset.mem_Icc, Finset.mem_insert]; omega
          rw [hins, Finset.sum_insert (by simp), i4]
          have hc : ¬ (decide (k = 1 ∧ ph k ≤ 0) = true) := by
            rw [decide_eq_true_eq]; rintro ⟨h, -⟩; omega
          rw [if_neg hc]
          unfold rtv
          ring)
  refine ⟨s.1, ?_, ?_, ?_⟩
  · rw [e]; rfl
  · intro k h1 h2; exact hs1 k (by omega) h1 h2
  · exact hs2

/-- C74. The result is the hypsometric integral of the column, for every entry; the call succeeds on every input. -/
theorem C74_hypsometric (nouter nlev ninner : ℕ) (t q : ℕ → ℕ → ℕ → ℝ) (ps phis : ℕ → ℕ → ℝ) (hyai hybi : ℕ → ℝ) (p0 : ℝ) (empty : ℕ → ℝ) :
    ∃ out, geopotentialHeight nouter nlev ninner t q ps phis hyai hybi p0 empty = some out ∧
      ∀ o k i, o < nouter → 1 ≤ k → k ≤ nlev → i < ninner →
        out o k i = hypsometric nlev (halfPressure hyai hybi p0 (ps o i)) (fun l => t o l i) (fun l => q o l i) (phis o i) k := by
  obtain ⟨d', e, h⟩ := corder_loop (nouter := nouter) (ninner := ninner) (no := nlev) (d := empty)
    (F := fun o inner d => (rd (nouter * ninner) (cbuf2 ninner ps) ((o - 1) * ninner + inner)).bind fun pc =>
      (rd (nouter * ninner) (cbuf2 ninner phis) ((o - 1) * ninner + inner)).bind fun hc =>
      heightColumn (nouter * nlev * ninner) (cbuf nlev ninner t) (cbuf nlev ninner q) pc hc hyai hybi p0 ((o - 1) * nlev * ninner) inner
        ninner nlev d)
    (fun o i k => hypsometric nlev (halfPressure hyai hybi p0 (ps (o - 1) (i - 1))) (fun l => t (o - 1) l (i - 1))
      (fun l => q (o - 1) l (i - 1)) (phis (o - 1) (i - 1)) k)
    (by
      intro o i d ho hon hi hin
      obtain ⟨c1, c2⟩ := col_range ho hon hi hin
      beta_reduce
      rw [rd_ok c1 c2, rd_ok c1 c2, cbuf2_pos _ hi hin, cbuf2_pos _ hi hin]
      exact heightColumn_eq t q _ _ hyai hybi p0 d ho hon hi hin)
  refine ⟨_, by rw [geopotentialHeight]; simp only [Option.bind_eq_bind]; rw [e]; rfl, ?_⟩
  intro o k i ho hk1 hk2 hi
  beta_reduce
  rw [out_pos, h (o + 1) (i + 1) k (by omega) (by omega) (by omega) (by omega) hk1 hk2]
  rfl

/-- `0 < 1 - pu / (pl - pu) ln (pl / pu) < ln (pl / pu)`. -/
theorem alpha_bounds {pu pl : ℝ} (h0 : 0 < pu) (h : pu < pl) :
    0 < 1 - pu / (pl - pu) * Real.log (pl / pu) ∧ 1 - pu / (pl - pu) * Real.log (pl / pu) < Real.log (pl / pu) := by
  have hr : 1 < pl / pu := (one_lt_div h0).2 h
  have hd : 0 < pl - pu := by linarith
  have h1 : Real.log (pl / pu) < pl / pu - 1 := Real.log_lt_sub_one_of_pos (by linarith) (ne_of_gt hr)
  have h2 : Real.log (pu / pl) < pu / pl - 1 := Real.log_lt_sub_one_of_pos (div_pos h0 (by linarith)) (by
    have : pu / pl < 1 := (div_lt_one (by linarith)).2 h
    exact ne_of_lt this)
  have h3 : Real.log (pu / pl) = - Real.log (pl / pu) := by rw [← Real.log_inv, inv_div]
  rw [h3] at h2
  generalize Real.log (pl / pu) = L at *
  have hpl : 0 < pl := by linarith
  constructor
  · have : pu / (pl - pu) * L < pu / (pl - pu) * (pl / pu - 1) := mul_lt_mul_of_pos_left h1 (div_pos h0 hd)
    have e : pu / (pl - pu) * (pl / pu - 1) = 1 := by field_simp
    linarith
  · have : (pl / (pl - pu)) * (1 - pu / pl) < (pl / (pl - pu)) * L := mul_lt_mul_of_pos_left (by linarith) (div_pos hpl hd)
    have e : (pl / (pl - pu)) * (1 - pu / pl) = 1 := by field_simp
    have e2 : pl / (pl - pu) * L = L + pu / (pl - pu) * L := by field_simp; ring
    linarith

theorem rtv_pos {t q : ℝ} (ht : 0 < t) (hq : 0 ≤ q) : 0 < rtv t q := by unfold rtv; positivity

/-- The hypsometric height increases upwards and stays above the surface. -/
theorem hypsometric_increasing {nlev : ℕ} {ph t q : ℕ → ℝ} {phis : ℝ} (h0 : 0 ≤ ph 1) (hp : ∀ k, 1 ≤ k → k ≤ nlev → ph k < ph (k + 1))
    (ht : ∀ k, 1 ≤ k → k ≤ nlev → 0 < t k) (hq : ∀ k, 1 ≤ k → k ≤ nlev → 0 ≤ q k) :
    (∀ k, 1 ≤ k → k < nlev → hypsometric nlev ph t q phis (k + 1) < hypsometric nlev ph t q phis k) ∧
    (∀ k, 1 ≤ k → k ≤ nlev → phis / 9.80665 < hypsometric nlev ph t q phis k) := by
  have hpos : ∀ k, 2 ≤ k → k ≤ nlev + 1 → 0 < ph k := by
    intro k hk
    induction k with
    | zero => omega
    | succ k ih =>
      intro hkn
      have := hp k (by omega) (by omega)
      rcases Nat.lt_or_ge k 2 with h | h
      · have : k = 1 := by omega
        subst this; linarith
      · linarith [ih h (by omega)]
  have halpha : ∀ k, 1 ≤ k → k ≤ nlev → 0 < alphaFull (k = 1 ∧ ph 1 ≤ 0) (ph k) (ph (k + 1)) := by
    intro k h1 h2
    unfold alphaFull
    split
    · exact Real.log_pos (by norm_num)
    · next hc =>
      have : 0 < ph k := by
        rcases Nat.lt_or_ge k 2 with h | h
        · have : k = 1 := by omega
          subst this
          exact not_le.1 fun hh => hc ⟨rfl, hh⟩
        · exact hpos k h (by omega)
      exact (alpha_bounds this (hp k h1 h2)).1
  have hstep : ∀ k, 1 ≤ k → k < nlev → hypsometric nlev ph t q phis (k + 1) < hypsometric nlev ph t q phis k := by
    intro k h1 h2
    unfold hypsometric
    have hins : Finset.Icc (k + 1) nlev = insert (k + 1) (Finset.Icc (k + 1 + 1) nlev) := by
      ext x; simp only [Finset.mem_Icc, Finset.mem_insert]; omega
    rw [hins, Finset.sum_insert (by simp)]
    have hb := (alpha_bounds (hpos (k + 1) (by omega) (by omega)) (hp (k + 1) (by omega) (by omega))).2
    have hr1 := rtv_pos (ht (k + 1) (by omega) (by omega)) (hq (k + 1) (by omega) (by omega))
    have hr0 := rtv_pos (ht k h1 (by omega)) (hq k h1 (by omega))
    have ha : alphaFull (k + 1 = 1 ∧ ph 1 ≤ 0) (ph (k + 1)) (ph (k + 1 + 1)) =
        1 - ph (k + 1) / (ph (k + 1 + 1) - ph (k + 1)) * Real.log (ph (k + 1 + 1) / ph (k + 1)) := by
      rw [alphaFull, if_neg (by omega)]
    rw [ha]
    have h3 := mul_lt_mul_of_pos_left hb hr1
    have h4 := mul_pos hr0 (halpha k h1 (by omega))
    rw [div_lt_div_iff_of_pos_right (by norm_num)]
    linarith
  refine ⟨hstep, ?_⟩
  intro k h1 h2
  have hsum : 0 ≤ ∑ l ∈ Finset.Icc (k + 1) nlev, rtv (t l) (q l) * Real.log (ph (l + 1) / ph l) := by
    apply Finset.sum_nonneg
    intro l hl
    rw [Finset.mem_Icc] at hl
    apply mul_nonneg (le_of_lt (rtv_pos (ht l (by omega) hl.2) (hq l (by omega) hl.2)))
    apply Real.log_nonneg
    have := hpos l (by omega) (by omega)
    rw [le_div_iff₀ this]
    linarith [hp l (by omega) hl.2]
  have h4 := mul_pos (rtv_pos (ht k h1 h2) (hq k h1 h2)) (halpha k h1 h2)
  unfold hypsometric
  rw [div_lt_div_iff_of_pos_right (by norm_num)]
  linarith

/-- C74. Over a column with positive temperatures, non-negative humidity and interface pressures that increase downwards from a
non-negative top pressure, the returned height strictly increases upwards and every level is above the surface. -/
theorem C74_increasing {nouter nlev ninner : ℕ} {t q : ℕ → ℕ → ℕ → ℝ} {ps phis : ℕ → ℕ → ℝ} {hyai hybi : ℕ → ℝ} {p0 : ℝ} {empty : ℕ → ℝ}
    {out : ℕ → ℕ → ℕ → ℝ} (hr : geopotentialHeight nouter nlev ninner t q ps phis hyai hybi p0 empty = some out) {o i : ℕ} (ho : o < nouter)
    (hi : i < ninner) (h0 : 0 ≤ hyai 1 * p0 + hybi 1 * ps o i)
    (hp : ∀ k, 1 ≤ k → k ≤ nlev → hyai k * p0 + hybi k * ps o i < hyai (k + 1) * p0 + hybi (k + 1) * ps o i)
    (ht : ∀ k, 1 ≤ k → k ≤ nlev → 0 < t o k i) (hq : ∀ k, 1 ≤ k → k ≤ nlev → 0 ≤ q o k i) :
    (∀ k, 1 ≤ k → k < nlev → out o (k + 1) i < out o k i) ∧ (∀ k, 1 ≤ k → k ≤ nlev → phis o i / 9.80665 < out o k i) := by
  obtain ⟨out', e, h⟩ := C74_hypsometric nouter nlev ninner t q ps phis hyai hybi p0 empty
  rw [hr] at e
  cases e
  obtain ⟨a, b⟩ := hypsometric_increasing (nlev := nlev) (ph := halfPressure hyai hybi p0 (ps o i)) (t := fun l => t o l i)
    (q := fun l => q o l i) (phis := phis o i) h0 hp ht hq
  constructor
  · intro k h1 h2
    rw [h o k i ho h1 (by omega) hi, h o (k + 1) i ho (by omega) (by omega) hi]
    exact a k h1 h2
  · intro k h1 h2
    rw [h o k i ho h1 h2 hi]
    exact b k h1 h2

/-- Non-vacuity of C74: a three-layer column with zero top pressure. -/
example : (0 : ℝ) ≤ halfPressure (fun _ => 0) (fun k => (k : ℝ) - 1) 1 30000 1 ∧
    ∀ k : ℕ, 1 ≤ k → k ≤ 3 → halfPressure (fun _ => 0) (fun k => (k : ℝ) - 1) 1 30000 k < halfPressure (fun _ => 0) (fun k => (k : ℝ) - 1) 1 30000 (k + 1) := by
  refine ⟨by simp [halfPressure], fun k _ _ => ?_⟩
  simp only [halfPressure]; push_cast; linarith

/-! ### C75 -/

/-- C75. Pressure at hybrid levels is `a p0 + b ps` at every level of every column. -/
theorem C75_pressure (nlev ncol : ℕ) (ps a b : ℕ → ℝ) (p0 : ℝ) (out : ℕ → ℕ → ℝ) :
    ∃ out', pressureAtHybrid nlev ncol ps a b p0 out = some out' ∧
      ∀ k c, 1 ≤ k → k ≤ nlev → 1 ≤ c → c ≤ ncol → out' k c = a k * p0 + b k * ps c := by
  rw [pressureAtHybrid]
  obtain ⟨s, e, h⟩ := doLoopM_inv (lo := 1) (hi := ncol) (by omega) (s := out)
    (f := fun c out => (rd ncol ps c).bind fun s => some fun k c' => if c' = c ∧ 1 ≤ k ∧ k ≤ nlev then p0 * a k + b k * s else out k c')
    (fun j s => ∀ k c, 1 ≤ k → k ≤ nlev → 1 ≤ c → c < j → s k c = a k * p0 + b k * ps c)
    (by intro k c _ _ h1 h2; omega)
    (by
      intro j s h1 h2 hs
      rw [rd_ok h1 h2]
      refine ⟨_, rfl, ?_⟩
      intro k c a1 a2 a3 a4
      beta_reduce
      by_cases hc : c = j
      · rw [if_pos ⟨hc, a1, a2⟩, hc]; ring
      · rw [if_neg (fun h => hc h.1)]; exact hs k c a1 a2 a3 (by omega))
  exact ⟨s, e, fun k c a1 a2 a3 a4 => h k c a1 a2 a3 (by omega)⟩

/-- C75. Layer thickness is the distance of the two interface pressures. -/
theorem C75_thickness (nlev ncol : ℕ) (ps a b : ℕ → ℝ) (p0 : ℝ) (out : ℕ → ℕ → ℝ) :
    ∃ out', deltaPressure nlev ncol ps a b p0 out = some out' ∧
      ∀ k c, 1 ≤ k → k < nlev → 1 ≤ c → c ≤ ncol → out' k c = |halfPressure a b p0 (ps c) (k + 1) - halfPressure a b p0 (ps c) k| := by
  rw [deltaPressure]
  simp only [Option.bind_eq_bind]
  obtain ⟨s, e, h⟩ := doLoopM_inv (lo := 1) (hi := ncol) (by omega) (s := out)
    (f := fun c out => doLoopM 1 (nlev - 1) out fun k out => (rd nlev a k).bind fun a1 => (rd nlev a (k + 1)).bind fun a2 =>
      (rd nlev b k).bind fun b1 => (rd nlev b (k + 1)).bind fun b2 => (rd ncol ps c).bind fun s =>
      some (Function.update out k (Function.update (out k) c (|p0 * (a1 - a2) + (b1 - b2) * s|))))
    (fun j s => ∀ k c, 1 ≤ k → k < nlev → 1 ≤ c → c < j → s k c = |halfPressure a b p0 (ps c) (k + 1) - halfPressure a b p0 (ps c) k|)
    (by intro k c _ _ h1 h2; omega)
    (by
      intro j s h1 h2 hs
      obtain ⟨u, eu, hu1, hu2⟩ := doLoopM_inv (lo := 1) (hi := nlev - 1) (by omega) (s := s)
        (f := fun k out => (rd nlev a k).bind fun a1 => (rd nlev a (k + 1)).bind fun a2 =>
          (rd nlev b k).bind fun b1 => (rd nlev b (k + 1)).bind fun b2 => (rd ncol ps j).bind fun s =>
          some (Function.update out k (Function.update (out k) j (|p0 * (a1 - a2) + (b1 - b2) * s|))))
        (fun m u => (∀ k c, 1 ≤ k → k < nlev → 1 ≤ c → c < j → u k c = |halfPressure a b p0 (ps c) (k + 1) - halfPressure a b p0 (ps c) k|) ∧
          ∀ k, 1 ≤ k → k < m → u k j = |halfPressure a b p0 (ps j) (k + 1) - halfPressure a b p0 (ps j) k|)
        ⟨hs, by intro k a b; omega⟩
        (by
          rintro m u hm1 hm2 ⟨u1, u2⟩
          beta_reduce
          rw [rd_ok hm1 (by omega), rd_ok (by omega) (by omega), rd_ok hm1 (by omega), rd_ok (by omega) (by omega), rd_ok h1 h2]
          refine ⟨_, rfl, ?_, ?_⟩
          · intro k c q1 q2 q3 q4
            by_cases hk : k = m
            · subst hk
              rw [Function.update_self, Function.update_of_ne (by omega)]
              exact u1 k c q1 q2 q3 q4
            · rw [Function.update_of_ne hk]; exact u1 k c q1 q2 q3 q4
          · intro k q1 q2
            by_cases hk : k = m
            · subst hk
              rw [Function.update_self, Function.update_self, abs_sub_comm]
              congr 1
              unfold halfPressure; ring
            · rw [Function.update_of_ne hk]; exact u2 k q1 (by omega))
      refine ⟨u, eu, ?_⟩
      intro k c q1 q2 q3 q4
      by_cases hc : c = j
      · subst hc; exact hu2 k q1 (by omega)
      · exact hu1 k c q1 q2 q3 (by omega))
  exact ⟨s, e, fun k c a1 a2 a3 a4 => h k c a1 a2 a3 (by omega)⟩

/-- C75. Thicknesses are non-negative, and over interfaces that are monotonic in pressure they add up to the distance between the first and
last interface. -/
theorem C75_sum {nlev ncol : ℕ} {ps a b : ℕ → ℝ} {p0 : ℝ} {out out' : ℕ → ℕ → ℝ} (hr : deltaPressure nlev ncol ps a b p0 out = some out') {c : ℕ}
    (hc : 1 ≤ c) (hcn : c ≤ ncol) (hn : 1 ≤ nlev) :
    (∀ k, 1 ≤ k → k < nlev → 0 ≤ out' k c) ∧
    ((∀ k, 1 ≤ k → k < nlev → halfPressure a b p0 (ps c) k ≤ halfPressure a b p0 (ps c) (k + 1)) →
      ∑ k ∈ Finset.Icc 1 (nlev - 1), out' k c = halfPressure a b p0 (ps c) nlev - halfPressure a b p0 (ps c) 1) ∧
    ((∀ k, 1 ≤ k → k < nlev → halfPressure a b p0 (ps c) (k + 1) ≤ halfPressure a b p0 (ps c) k) →
      ∑ k ∈ Finset.Icc 1 (nlev - 1), out' k c = halfPressure a b p0 (ps c) 1 - halfPressure a b p0 (ps c) nlev) := by
  obtain ⟨o2, e, h⟩ := C75_thickness nlev ncol ps a b p0 out
  rw [hr] at e
  cases e
  have tele : ∀ (f : ℕ → ℝ) (m : ℕ), ∑ k ∈ Finset.Icc 1 m, (f (k + 1) - f k) = f (m + 1) - f 1 := by
    intro f m
    induction m with
    | zero => simp
    | succ m ih => rw [Finset.sum_Icc_succ_top (by omega), ih]; ring
  refine ⟨fun k h1 h2 => ?_, fun hm => ?_, fun hm => ?_⟩
  · rw [h k c h1 h2 hc hcn]; exact abs_nonneg _
  · have := tele (halfPressure a b p0 (ps c)) (nlev - 1)
    rw [Nat.sub_add_cancel hn] at this
    rw [← this]
    apply Finset.sum_congr rfl
    intro k hk
    rw [Finset.mem_Icc] at hk
    rw [h k c hk.1 (by omega) hc hcn, abs_of_nonneg]
    linarith [hm k hk.1 (by omega)]
  · have := tele (fun k => - halfPressure a b p0 (ps c) k) (nlev - 1)
    rw [Nat.sub_add_cancel hn] at this
    have e2 : halfPressure a b p0 (ps c) 1 - halfPressure a b p0 (ps c) nlev = -halfPressure a b p0 (ps c) nlev - -halfPressure a b p0 (ps c) 1 := by ring
    rw [e2, ← this]
    apply Finset.sum_congr rfl
    intro k hk
    rw [Finset.mem_Icc] at hk
    rw [h k c hk.1 (by omega) hc hcn, abs_of_nonpos (by linarith [hm k hk.1 (by omega)])]
    ring

/-- Non-vacuity of C75: two columns, three interfaces. -/
example : ∃ out', deltaPressure 3 2 (fun _ => 100) (fun _ => 0) (fun k => (k : ℝ)) 1 (fun _ _ => 0) = some out' ∧ out' 2 1 = 100 := by
  obtain ⟨o, e, h⟩ := C75_thickness 3 2 (fun _ => 100) (fun _ => 0) (fun k => (k : ℝ)) 1 (fun _ _ => 0)
  refine ⟨o, e, ?_⟩
  rw [h 2 1 (by omega) (by omega) (by omega) (by omega)]
  simp only [halfPressure]
  norm_num

end Skyborn.Hybrid
