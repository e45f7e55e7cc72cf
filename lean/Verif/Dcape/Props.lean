import Verif.Dcape.Run
import Verif.Dcape.Thermo

/-! C134 (memory safety, incomplete levels), C135 (order of the levels), C136 (when the result is NaN), C137 (start of the downdraft),
C138 (the parcel). -/

namespace Skyborn.Dcape
open Spec

/-! ### C134 -/

/-- **C134 (safety).** The kernel never leaves its arrays and its result does not depend on uninitialised memory. -/
theorem C134_safe (nlev : ℕ) (pr tc dc : ℕ → Option ℝ) : ∃ r, ∀ w0 par0, profile nlev pr tc dc w0 par0 = some r :=
  ⟨_, fun w0 par0 => profile_run nlev pr tc dc w0 par0⟩

theorem filterMap_skip {α : Type} (g : ℕ → Option α) (n k : ℕ) (hk : k ≤ n) (hg : g k = none) :
    (List.range (n + 1)).filterMap g = (List.range n).filterMap fun i => g (if i < k then i else i + 1) := by
  obtain ⟨d, rfl⟩ : ∃ d, n = k + d := ⟨n - k, by omega⟩
  rw [show k + d + 1 = k + (1 + d) by omega, List.range_add, List.range_add (n := k), List.filterMap_append, List.filterMap_append,
    List.filterMap_map, List.filterMap_map, List.range_add (n := 1), List.filterMap_append]
  congr 1
  · refine List.filterMap_congr fun i hi => ?_
    rw [if_pos (List.mem_range.mp hi)]
  · rw [show (List.range 1) = [0] from rfl, List.filterMap_map]
    have h0 : List.filterMap (g ∘ fun x => k + x) [0] = [] := by simp [hg]
    rw [h0, List.nil_append]
    refine List.filterMap_congr fun i _ => ?_
    simp only [Function.comp]
    rw [if_neg (by omega)]
    congr 1
    omega

/-- **C134 (incomplete levels).** A level of which pressure, temperature or dewpoint is not finite has no influence: leaving it out gives
the same result, wherever it is. -/
theorem C134_missing (n k : ℕ) (h1 : 1 ≤ k) (hk : k ≤ n + 1) (pr tc dc : ℕ → Option ℝ) (hm : pr k = none ∨ tc k = none ∨ dc k = none)
    (w0 w0' : ℕ → Lev) (par0 par0' : ℕ → Option ℝ) :
    profile (n + 1) pr tc dc w0 par0 =
      profile n (fun i => pr (if i < k then i else i + 1)) (fun i => tc (if i < k then i else i + 1)) (fun i => dc (if i < k then i else i + 1)) w0' par0' := by
  rw [profile_run, profile_run]
  congr 2
  unfold valid
  obtain ⟨k, rfl⟩ : ∃ j, k = j + 1 := ⟨k - 1, by omega⟩
  rw [filterMap_skip _ n k (by omega)]
  · refine List.filterMap_congr fun i _ => ?_
    by_cases hi : i < k
    · rw [if_pos hi]
      beta_reduce
      rw [if_pos (by omega)]
    · rw [if_neg hi]
      beta_reduce
      rw [if_neg (by omega)]
  · unfold level
    rcases hm with h | h | h <;> rw [h]
    · rfl
    · cases pr (k + 1) <;> rfl
    · cases pr (k + 1) <;> [rfl; (cases tc (k + 1) <;> rfl)]

/-! ### C135 -/

theorem valid_rev (n : ℕ) (pr tc dc : ℕ → Option ℝ) :
    valid n (fun k => pr (n + 1 - k)) (fun k => tc (n + 1 - k)) (fun k => dc (n + 1 - k)) = (valid n pr tc dc).reverse := by
  unfold valid
  rw [← List.filterMap_reverse]
  have : (List.range n).reverse = (List.range n).map fun i => n - 1 - i := by
    apply List.ext_getElem
    · simp
    · intro i h1 h2
      simp
  rw [this, List.filterMap_map]
  refine List.filterMap_congr fun i hi => ?_
  have := List.mem_range.mp hi
  simp only [Function.comp]
  rw [show n - 1 - i + 1 = n + 1 - (i + 1) by omega]

theorem surfaceFirst_reverse {L : List Lev} (h : ∀ a ∈ L.head?, ∀ b ∈ L.getLast?, a.p ≠ b.p) : surfaceFirst L.reverse = surfaceFirst L := by
  unfold surfaceFirst
  rw [List.head?_reverse, List.getLast?_reverse]
  cases ha : L.head? with
  | none =>
    rw [List.head?_eq_none_iff] at ha
    subst ha
    rfl
  | some a =>
    cases hb : L.getLast? with
    | none =>
      rw [List.getLast?_eq_none_iff] at hb
      subst hb
      rfl
    | some b =>
      dsimp only
      have hne := h a ha b hb
      rcases lt_or_gt_of_ne hne with hlt | hgt
      · rw [if_neg (not_lt.mpr hlt.le), if_pos hlt]
      · rw [if_pos hgt, if_neg (not_lt.mpr hgt.le), List.reverse_reverse]

/-- **C135.** Listing the levels from the top down or from the surface up makes no difference, provided the first and the last complete
level have different pressures. -/
theorem C135_order (n : ℕ) (pr tc dc : ℕ → Option ℝ)
    (h : ∀ a ∈ (valid n pr tc dc).head?, ∀ b ∈ (valid n pr tc dc).getLast?, a.p ≠ b.p) (w0 w0' : ℕ → Lev) (par0 par0' : ℕ → Option ℝ) :
    profile n (fun k => pr (n + 1 - k)) (fun k => tc (n + 1 - k)) (fun k => dc (n + 1 - k)) w0 par0 = profile n pr tc dc w0' par0' := by
  rw [profile_run, profile_run, valid_rev]
  congr 1
  unfold dcape
  rw [surfaceFirst_reverse h, List.length_reverse]

/-! ### C137 -/

theorem fold_better (C : List Lev) (b : Best) :
    let r := C.foldl better b
    (∀ l ∈ C, ∀ te, thetae l.p l.t l.td = some te → r.te ≤ te) ∧ r.te ≤ b.te ∧
      ((r = b) ∨ ∃ l ∈ C, r.start = some l ∧ thetae l.p l.t l.td = some r.te ∧ r.te < b.te) := by
  induction C generalizing b with
  | nil => exact ⟨by simp, le_rfl, Or.inl rfl⟩
  | cons c C ih =>
    intro r
    obtain ⟨i1, i2, i3⟩ := ih (better b c)
    have hr : r = C.foldl better (better b c) := rfl
    rw [← hr] at i1 i2 i3
    have hb : (better b c).te ≤ b.te ∧ (∀ te, thetae c.p c.t c.td = some te → (better b c).te ≤ te) ∧
        (better b c = b ∨ ((better b c).start = some c ∧ thetae c.p c.t c.td = some (better b c).te ∧ (better b c).te < b.te)) := by
      unfold better
      cases hte : thetae c.p c.t c.td with
      | none => exact ⟨le_rfl, by simp, Or.inl rfl⟩
      | some te =>
        dsimp only
        split
        · next hlt => exact ⟨hlt.le, fun te' h => by rw [Option.some.inj h], Or.inr ⟨rfl, rfl, hlt⟩⟩
        · next hge => exact ⟨le_rfl, fun te' h => by rw [← Option.some.inj h]; exact not_lt.mp hge, Or.inl rfl⟩
    refine ⟨fun l hl te hte => ?_, i2.trans hb.1, ?_⟩
    · rcases List.mem_cons.mp hl with rfl | hl
      · exact i2.trans (hb.2.1 te hte)
      · exact i1 l hl te hte
    · rcases i3 with i3 | ⟨l, hl, e1, e2, e3⟩
      · rcases hb.2.2 with h | ⟨h1, h2, h3⟩
        · exact Or.inl (i3.trans h)
        · rw [← i3] at h1 h2 h3
          exact Or.inr ⟨c, List.mem_cons_self, h1, h2, h3⟩
      · exact Or.inr ⟨l, List.mem_cons_of_mem _ hl, e1, e2, lt_of_lt_of_le e3 hb.1⟩

theorem atBound_p {bound : ℝ} {L : List Lev} {l : Lev} (h : atBound bound L = some l) : l.p = bound := by
  induction L with
  | nil => simp [atBound] at h
  | cons a L ih =>
    cases L with
    | nil => simp [atBound] at h
    | cons b L =>
      rw [atBound] at h
      split at h
      · rw [← Option.some.inj h]; rfl
      · exact ih h

theorem candidates_range {L : List Lev} {l : Lev} (h : l ∈ candidates L) : 500 ≤ l.p ∧ l.p ≤ 700 := by
  unfold candidates at h
  rw [List.mem_append, List.mem_append] at h
  rcases h with (h | h) | h
  · simpa using (List.mem_filter.mp h).2
  · have := atBound_p (Option.mem_toList.mp h)
    rw [this]; norm_num
  · have := atBound_p (Option.mem_toList.mp h)
    rw [this]; norm_num

/-- **C137.** The downdraft starts between 700 and 500 hPa, at a level of the sounding or at one of the two limits, and nowhere among these
is the equivalent potential temperature lower; there is no start exactly when none of them has an equivalent potential temperature (a
number below 1e99). -/
theorem C137_start (L : List Lev) :
    (∀ s, start L = some s → s ∈ candidates L ∧ 500 ≤ s.p ∧ s.p ≤ 700 ∧
      ∃ te, thetae s.p s.t s.td = some te ∧ ∀ l ∈ candidates L, ∀ te', thetae l.p l.t l.td = some te' → te ≤ te') ∧
    (start L = none ↔ ∀ l ∈ candidates L, ∀ te, thetae l.p l.t l.td = some te → 10 ^ 99 ≤ te) := by
  obtain ⟨h1, h2, h3⟩ := fold_better (candidates L) ⟨10 ^ 99, none⟩
  set r := (candidates L).foldl better ⟨10 ^ 99, none⟩ with hr
  have hs : start L = r.start := rfl
  rw [hs]
  constructor
  · intro s h
    rcases h3 with h3 | ⟨l, hl, e1, e2, -⟩
    · rw [h3] at h; cases h
    · rw [h] at e1
      obtain rfl := Option.some.inj e1
      exact ⟨hl, (candidates_range hl).1, (candidates_range hl).2, _, e2, h1⟩
  · rcases h3 with h3 | ⟨l, hl, e1, e2, e3⟩
    · rw [h3]
      refine ⟨fun _ l hl te hte => ?_, fun _ => rfl⟩
      have := h1 l hl te hte
      rw [h3] at this
      exact this
    · constructor
      · intro h; rw [h] at e1; cases e1
      · intro h
        exact absurd (h l hl _ e2) (not_le.mpr e3)

/-! ### Physically sensible soundings -/

/-- A level with positive pressure, temperature and dewpoint between -100 and 60 (40 for the dewpoint) °C, dewpoint not above temperature. -/
def Physical (l : Lev) : Prop := 0 < l.p ∧ -100 ≤ l.td ∧ l.td ≤ l.t ∧ l.td ≤ 40 ∧ l.t ≤ 60

theorem exp3_lt : Real.exp 3 < 21 := by
  have h := Real.exp_one_lt_d9
  have e : Real.exp 3 = Real.exp 1 ^ 3 := by rw [← Real.exp_nat_mul]; norm_num
  rw [e]
  have h0 := Real.exp_pos 1
  calc Real.exp 1 ^ 3 ≤ 2.7182818286 ^ 3 := by gcongr
    _ < 21 := by norm_num

theorem svp_le {td : ℝ} (h1 : -100 ≤ td) (h2 : td ≤ 40) : svp td ≤ 130 := by
  have h : svp td ≤ svp 40 := svp_mono (by linarith) h2
  refine h.trans ?_
  unfold svp
  have : Real.exp (17.67 * 40 / (40 + 243.5)) ≤ Real.exp 3 := Real.exp_le_exp.mpr (by norm_num)
  have := exp3_lt
  linarith

/-- The equivalent potential temperature of a sensible level is a number. -/
theorem thetae_some {l : Lev} (h : Physical l) (h5 : 500 ≤ l.p) : ∃ te, thetae l.p l.t l.td = some te ∧ te < 10 ^ 99 := by
  obtain ⟨hp, hd1, hd2, hd3, ht⟩ := h
  have hmax : max (l.td + 273.15) 173.15 = l.td + 273.15 := max_eq_left (by linarith)
  obtain ⟨tl, etl, tl1, tl2⟩ := tLcl_some (t := l.t + 273.15) (td := l.td + 273.15) (by linarith) (by linarith)
  have hpp : 0 < l.p * 100 := by positivity
  have hsv := svp_le hd1 hd3
  have hsp := svp_pos l.td
  have hb : 0 < l.p * 100 - svp l.td * 100 := by linarith
  have hbase : 0 < 100000 / (l.p * 100 - svp l.td * 100) := by positivity
  have ht0 : 0 < l.t + 273.15 := by linarith
  have htl0 : 0 < tl := by linarith
  have hq : 0 < (l.t + 273.15) / tl := by positivity
  set r := mr (l.p * 100) (svp l.td * 100) with hr
  have hr0 : 0 < r := mr_pos hpp _
  have hr1 : r ≤ 1 := by
    rw [hr]
    unfold mr eps
    have hc : clampE (l.p * 100) (svp l.td * 100) ≤ 13000 := by
      unfold clampE
      refine (min_le_left _ _).trans (max_le (by linarith) (by norm_num))
    rw [div_le_one (by linarith)]
    linarith
  refine ⟨(l.t + 273.15) * (100000 / (l.p * 100 - svp l.td * 100)) ^ kappa * ((l.t + 273.15) / tl) ^ (0.28 * r) *
    Real.exp (r * (1 + 0.448 * r) * (3036 / tl - 1.78)), ?_, ?_⟩
  · unfold thetae
    dsimp only
    rw [svpHpa_some (by intro h0; linarith)]
    simp only [Option.bind_eq_bind, Option.bind_some]
    rw [mixingRatio_some hpp]
    simp only [Option.bind_some]
    rw [hmax, etl]
    simp only [Option.bind_some]
    rw [fdiv_some hb.ne']
    simp only [Option.bind_some]
    rw [fpow_some hbase]
    simp only [Option.bind_some]
    rw [fdiv_some htl0.ne']
    simp only [Option.bind_some]
    rw [fpow_some hq]
    simp only [Option.bind_some]
    rw [fdiv_some htl0.ne']
    rfl
  · have b1 : (100000 / (l.p * 100 - svp l.td * 100)) ^ kappa ≤ 10 := by
      have : 100000 / (l.p * 100 - svp l.td * 100) ≤ 10 := by
        rw [div_le_iff₀ hb]; linarith
      calc (100000 / (l.p * 100 - svp l.td * 100)) ^ kappa ≤ (10 : ℝ) ^ kappa :=
            Real.rpow_le_rpow hbase.le this (by unfold kappa rdAir cp; norm_num)
        _ ≤ (10 : ℝ) ^ (1 : ℝ) := Real.rpow_le_rpow_of_exponent_le (by norm_num) (by unfold kappa rdAir cp; norm_num)
        _ = 10 := Real.rpow_one _
    have b2 : ((l.t + 273.15) / tl) ^ (0.28 * r) ≤ 10 := by
      have : (l.t + 273.15) / tl ≤ 10 := by
        rw [div_le_iff₀ htl0]; linarith
      calc ((l.t + 273.15) / tl) ^ (0.28 * r) ≤ (10 : ℝ) ^ (0.28 * r) := Real.rpow_le_rpow hq.le this (by positivity)
        _ ≤ (10 : ℝ) ^ (1 : ℝ) := Real.rpow_le_rpow_of_exponent_le (by norm_num) (by linarith)
        _ = 10 := Real.rpow_one _
    have b3 : Real.exp (r * (1 + 0.448 * r) * (3036 / tl - 1.78)) ≤ 21 ^ 30 := by
      have h1 : r * (1 + 0.448 * r) ≤ 1.448 := by nlinarith
      have h2 : 3036 / tl - 1.78 ≤ 55 := by
        have : 3036 / tl ≤ 3036 / 56 := div_le_div_of_nonneg_left (by norm_num) (by norm_num) tl1.le
        linarith [show (3036 : ℝ) / 56 ≤ 56 by norm_num]
      have h3 : r * (1 + 0.448 * r) * (3036 / tl - 1.78) ≤ 90 := by
        have h0 : 0 < r * (1 + 0.448 * r) := by positivity
        nlinarith
      calc Real.exp (r * (1 + 0.448 * r) * (3036 / tl - 1.78)) ≤ Real.exp 90 := Real.exp_le_exp.mpr h3
        _ = Real.exp 3 ^ 30 := by rw [← Real.exp_nat_mul]; norm_num
        _ ≤ 21 ^ 30 := by
          have := exp3_lt.le
          have h0 := Real.exp_pos 3
          gcongr
    have p1 : 0 ≤ (100000 / (l.p * 100 - svp l.td * 100)) ^ kappa := (Real.rpow_pos_of_pos hbase _).le
    have p2 : 0 ≤ ((l.t + 273.15) / tl) ^ (0.28 * r) := (Real.rpow_pos_of_pos hq _).le
    calc _ ≤ (400 : ℝ) * 10 * 10 * 21 ^ 30 := by
          have : l.t + 273.15 ≤ 400 := by linarith
          gcongr
      _ < 10 ^ 99 := by norm_num

/-- Interpolation is a convex combination with the same weight for every variable. -/
theorem interp_weight {p0 p1 b : ℝ} (h0 : 0 < p0) (h1 : 0 < p1) (hb : (b ≤ p0 ∧ p1 ≤ b) ∨ (p0 ≤ b ∧ b ≤ p1)) :
    ∃ w, 0 ≤ w ∧ w ≤ 1 ∧ ∀ v0 v1, interpP p0 v0 p1 v1 b = v0 + w * (v1 - v0) := by
  have hb0 : 0 < b := by
    rcases hb with h | h
    · linarith [h.2]
    · linarith [h.1]
  unfold interpP
  by_cases c1 : |p1 - p0| < 0.000000000001
  · exact ⟨0, le_rfl, zero_le_one, fun v0 v1 => by rw [if_pos c1]; ring⟩
  by_cases c2 : |Real.log p1 - Real.log p0| < 0.000000000001
  · exact ⟨0, le_rfl, zero_le_one, fun v0 v1 => by rw [if_neg c1, if_pos ⟨h0, h1, hb0⟩, if_pos c2]; ring⟩
  refine ⟨(Real.log b - Real.log p0) / (Real.log p1 - Real.log p0), ?_, ?_, fun v0 v1 => by
    rw [if_neg c1, if_pos ⟨h0, h1, hb0⟩, if_neg c2]⟩
  · rcases hb with ⟨h, h'⟩ | ⟨h, h'⟩
    · have l1 := Real.log_le_log hb0 h
      have l2 := Real.log_le_log h1 (h'.trans h)
      exact div_nonneg_of_nonpos (by linarith) (by linarith)
    · have l1 := Real.log_le_log h0 h
      have l2 := Real.log_le_log h0 (h.trans h')
      exact div_nonneg (by linarith) (by linarith)
  · have hne : Real.log p1 - Real.log p0 ≠ 0 := fun h => c2 (by rw [h]; norm_num)
    rcases hb with ⟨h, h'⟩ | ⟨h, h'⟩
    · have l1 := Real.log_le_log h1 h'
      have l2 := Real.log_le_log h1 (h'.trans h)
      rw [div_le_one_of_neg (lt_of_le_of_ne (by linarith) hne)]
      linarith
    · have l1 := Real.log_le_log hb0 h'
      have l2 := Real.log_le_log h0 (h.trans h')
      rw [div_le_one (lt_of_le_of_ne (by linarith) (Ne.symm hne))]
      linarith

theorem interp_physical {a b : Lev} (ha : Physical a) (hb : Physical b) {bound : ℝ} (h : Between a b bound) : Physical (interpLev a b bound) := by
  obtain ⟨w, w0, w1, hw⟩ := interp_weight ha.1 hb.1 h
  obtain ⟨a1, a2, a3, a4, a5⟩ := ha
  obtain ⟨b1, b2, b3, b4, b5⟩ := hb
  unfold interpLev
  refine ⟨?_, ?_, ?_, ?_, ?_⟩
  · dsimp only
    rcases h with h | h
    · linarith [h.2]
    · linarith [h.1]
  all_goals dsimp only
  all_goals rw [hw]
  all_goals try rw [hw]
  all_goals nlinarith

theorem atBound_physical {bound : ℝ} {L : List Lev} (hL : ∀ l ∈ L, Physical l) {l : Lev} (h : atBound bound L = some l) : Physical l := by
  induction L with
  | nil => simp [atBound] at h
  | cons a L ih =>
    cases L with
    | nil => simp [atBound] at h
    | cons b L =>
      rw [atBound] at h
      split at h
      · next hc =>
        rw [← Option.some.inj h]
        exact interp_physical (hL a (by simp)) (hL b (by simp)) hc
      · exact ih (fun l hl => hL l (List.mem_cons_of_mem _ hl)) h

theorem candidates_physical {L : List Lev} (hL : ∀ l ∈ L, Physical l) {l : Lev} (h : l ∈ candidates L) : Physical l := by
  unfold candidates at h
  rw [List.mem_append, List.mem_append] at h
  rcases h with (h | h) | h
  · exact hL l (List.mem_filter.mp h).1
  · exact atBound_physical hL (Option.mem_toList.mp h)
  · exact atBound_physical hL (Option.mem_toList.mp h)

/-! ### C138: the parcel -/

/-- The wet-bulb temperature of a sensible start is a number, not below the condensation temperature. -/
theorem wetBulb_some {s : Lev} (h : Physical s) : ∃ x, wetBulb s = some x ∧ 56 < x := by
  obtain ⟨hp, hd1, hd2, hd3, ht⟩ := h
  have hmax : max (s.td + 273.15) 173.15 = s.td + 273.15 := max_eq_left (by linarith)
  obtain ⟨tl, etl, tl1, tl2⟩ := tLcl_some (t := s.t + 273.15) (td := s.td + 273.15) (by linarith) (by linarith)
  have ht0 : 0 < s.t + 273.15 := by linarith
  have hq : 0 < tl / (s.t + 273.15) := by have : 0 < tl := by linarith
                                          positivity
  have hq1 : tl / (s.t + 273.15) ≤ 1 := by rw [div_le_one ht0]; linarith
  have hu0 : 0 < (tl / (s.t + 273.15)) ^ (1 / kappa) := Real.rpow_pos_of_pos hq _
  have hu1 : (tl / (s.t + 273.15)) ^ (1 / kappa) ≤ 1 := Real.rpow_le_one hq.le hq1 (by unfold kappa rdAir cp; norm_num)
  have hl : lcl s.p s.t s.td = some (s.p * (tl / (s.t + 273.15)) ^ (1 / kappa), tl) := by
    unfold lcl
    dsimp only
    rw [hmax, etl]
    simp only [Option.bind_eq_bind, Option.bind_some]
    rw [fdiv_some ht0.ne']
    simp only [Option.bind_some]
    rw [fpow_some hq]
    rfl
  obtain ⟨x, e, hx⟩ := rk4_down (p := s.p * (tl / (s.t + 273.15)) ^ (1 / kappa) * 100) (t := tl) (p' := s.p * 100) (by positivity) (by linarith)
    (by nlinarith)
  exact ⟨x, by unfold wetBulb; rw [hl]; exact e, by linarith⟩

/-- Levels listed from the surface up, all at or below the start: pressures never increase along the list. -/
def Descending (s : Lev) (B : List Lev) : Prop := B.Pairwise (fun a b => b.p ≤ a.p) ∧ ∀ l ∈ B, s.p ≤ l.p

theorem Descending.tail {s l : Lev} {B : List Lev} (h : Descending s (l :: B)) : Descending s B :=
  ⟨(List.pairwise_cons.mp h.1).2, fun x hx => h.2 x (List.mem_cons_of_mem _ hx)⟩

theorem Descending.bottom_le {s l : Lev} {B : List Lev} (h : Descending s (l :: B)) : bottom s B ≤ l.p := by
  cases B with
  | nil => exact h.2 l (by simp)
  | cons b B => exact (List.pairwise_cons.mp h.1).1 b (by simp)

theorem Descending.bottom_pos {s : Lev} {B : List Lev} (h : Descending s B) (hs : 0 < s.p) : 0 < bottom s B := by
  cases B with
  | nil => exact hs
  | cons b B => exact lt_of_lt_of_le hs (h.2 b (by simp))

theorem parcel_some {s : Lev} (hs : Physical s) {B : List Lev} (h : Descending s B) : ∃ x, parcel s B = some x ∧ 56 < x := by
  induction B with
  | nil => exact wetBulb_some hs
  | cons l B ih =>
    obtain ⟨x, e, hx⟩ := ih h.tail
    obtain ⟨y, e', hy⟩ := rk4_down (p := bottom s B * 100) (t := x) (p' := l.p * 100) (by have := h.tail.bottom_pos hs.1; positivity) (by linarith)
      (by have := h.bottom_le; linarith)
    exact ⟨y, by rw [parcel, e]; exact e', by linarith⟩

/-- **C138.** From a sensible start the parcel sinks through any column with non-increasing pressures: its temperature is defined at every
level and does not decrease on the way down. -/
theorem C138_warms {s : Lev} (hs : Physical s) {l : Lev} {B : List Lev} (h : Descending s (l :: B)) :
    ∃ x y, parcel s B = some x ∧ parcel s (l :: B) = some y ∧ x ≤ y := by
  obtain ⟨x, e, hx⟩ := parcel_some hs h.tail
  obtain ⟨y, e', hy⟩ := rk4_down (p := bottom s B * 100) (t := x) (p' := l.p * 100) (by have := h.tail.bottom_pos hs.1; positivity) (by linarith)
    (by have := h.bottom_le; linarith)
  exact ⟨x, y, e, by rw [parcel, e]; exact e', hy⟩

/-- **C138 (resolution).** Each integration is made of equal steps that are shorter than 200 Pa and end at the target pressure. -/
theorem C138_steps (dp : ℝ) : (nstep dp : ℝ) * (dp / nstep dp) = dp ∧ |dp / nstep dp| < 200 := rk4_steps dp

theorem deficit_some {l : Lev} (hl : Physical l) {x : ℝ} (hx : 56 < x) :
    deficit l x = some (tv (l.t + 273.15) (mr (l.p * 100) (svp l.td * 100)) - tv x (mr (l.p * 100) (svp (x - 273.15) * 100))) := by
  obtain ⟨hp, hd1, -, -, -⟩ := hl
  have hpp : 0 < l.p * 100 := by positivity
  have hs : svpPa x = some (svp (x - 273.15) * 100) := by
    unfold svpPa
    rw [svpHpa_some (by intro h; linarith)]
    rfl
  unfold deficit
  dsimp only
  rw [svpHpa_some (by intro h; linarith)]
  simp only [Option.bind_eq_bind, Option.bind_some]
  rw [mixingRatio_some hpp]
  simp only [Option.bind_some]
  rw [virtualTemp_some _ (mr_pos hpp _)]
  simp only [Option.bind_some]
  rw [hs]
  simp only [Option.bind_some]
  rw [mixingRatio_some hpp]
  simp only [Option.bind_some]
  rw [virtualTemp_some _ (mr_pos hpp _)]
  rfl

theorem excess_some {s : Lev} (hs : Physical s) {l : Lev} {B : List Lev} (h : Descending s (l :: B)) (hl : Physical l) :
    ∃ d, excess s (l :: B) = some d := by
  obtain ⟨x, e, hx⟩ := parcel_some hs h
  exact ⟨_, by rw [excess, e, Option.bind_some, deficit_some hl hx]⟩

theorem energy_some {s : Lev} (hs : Physical s) {B : List Lev} (h : Descending s B) (hB : ∀ l ∈ B, Physical l) : ∃ x, energy s B = some x := by
  induction B with
  | nil => exact ⟨0, by simp [energy]⟩
  | cons a B ih =>
    cases B with
    | nil => exact ⟨0, by simp [energy]⟩
    | cons b B =>
      obtain ⟨x, e⟩ := ih h.tail fun l hl => hB l (List.mem_cons_of_mem _ hl)
      obtain ⟨da, ea⟩ := excess_some hs h (hB a (by simp))
      obtain ⟨db, eb⟩ := excess_some hs h.tail (hB b (by simp))
      refine ⟨x + (da + db) / 2 * (Real.log a.p - Real.log b.p), ?_⟩
      rw [energy, e, ea, eb, flog_some (hB a (by simp)).1, flog_some (hB b (by simp)).1]
      rfl

end Skyborn.Dcape
