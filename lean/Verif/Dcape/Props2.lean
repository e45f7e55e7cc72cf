import Verif.Dcape.Props

/-! C136, C139, C140: when DCAPE is a number, its value, its response to a warmer boundary layer, and the grid. -/

namespace Skyborn.Dcape
open Spec

/-! ### C136 -/

theorem atBound_some {bound : ℝ} {L : List Lev} (h2 : 2 ≤ L.length) (h1 : ∃ l ∈ L, l.p ≤ bound) (h3 : ∃ l ∈ L, bound ≤ l.p) :
    ∃ s, atBound bound L = some s := by
  induction L with
  | nil => simp at h2
  | cons a L ih =>
    cases L with
    | nil => simp at h2
    | cons b L =>
      rw [atBound]
      by_cases hb : Between a b bound
      · exact ⟨_, if_pos hb⟩
      rw [if_neg hb]
      have hs : (bound < a.p ∧ bound < b.p) ∨ (a.p < bound ∧ b.p < bound) := by
        unfold Between at hb
        push Not at hb
        rcases lt_trichotomy a.p bound with h | h | h
        · exact Or.inr ⟨h, hb.2 h.le⟩
        · have := hb.1 h.ge
          have := hb.2 h.le
          linarith
        · exact Or.inl ⟨h, hb.1 h.le⟩
      have e1 : ∃ l ∈ b :: L, l.p ≤ bound := by
        obtain ⟨l, hl, hle⟩ := h1
        rcases List.mem_cons.mp hl with rfl | hl
        · rcases hs with hs | hs
          · exact absurd hle (not_le.mpr hs.1)
          · exact ⟨b, by simp, hs.2.le⟩
        · exact ⟨l, hl, hle⟩
      have e3 : ∃ l ∈ b :: L, bound ≤ l.p := by
        obtain ⟨l, hl, hle⟩ := h3
        rcases List.mem_cons.mp hl with rfl | hl
        · rcases hs with hs | hs
          · exact ⟨b, by simp, hs.2.le⟩
          · exact absurd hle (not_le.mpr hs.1)
        · exact ⟨l, hl, hle⟩
      refine ih ?_ e1 e3
      cases L with
      | nil =>
        obtain ⟨l, hl, hle⟩ := e1
        obtain ⟨l', hl', hle'⟩ := e3
        rw [List.mem_singleton] at hl hl'
        subst hl; subst hl'
        rcases hs with hs | hs <;> linarith [hs.2]
      | cons c L => simp

theorem atBound_mem {bound : ℝ} {L : List Lev} {s : Lev} (h : atBound bound L = some s) :
    (∃ l ∈ L, l.p ≤ bound) ∧ ∃ l ∈ L, bound ≤ l.p := by
  induction L with
  | nil => simp [atBound] at h
  | cons a L ih =>
    cases L with
    | nil => simp [atBound] at h
    | cons b L =>
      rw [atBound] at h
      split at h
      · next hc =>
        rcases hc with hc | hc
        · exact ⟨⟨b, by simp, hc.2⟩, ⟨a, by simp, hc.1⟩⟩
        · exact ⟨⟨a, by simp, hc.1⟩, ⟨b, by simp, hc.2⟩⟩
      · obtain ⟨⟨l, m, e⟩, ⟨l', m', e'⟩⟩ := ih h
        exact ⟨⟨l, List.mem_cons_of_mem _ m, e⟩, ⟨l', List.mem_cons_of_mem _ m', e'⟩⟩

/-- A sounding reaches the layer from 700 to 500 hPa: it has a level at 700 hPa or higher up, and one at 500 hPa or lower down. -/
def Reaches (L : List Lev) : Prop := (∃ l ∈ L, l.p ≤ 700) ∧ ∃ l ∈ L, 500 ≤ l.p

theorem candidates_iff {L : List Lev} (h2 : 2 ≤ L.length) : candidates L ≠ [] ↔ Reaches L := by
  constructor
  · intro h
    obtain ⟨s, hs⟩ := List.exists_mem_of_ne_nil _ h
    unfold candidates at hs
    rw [List.mem_append, List.mem_append] at hs
    rcases hs with (hs | hs) | hs
    · obtain ⟨hm, hr⟩ := List.mem_filter.mp hs
      have hr : 500 ≤ s.p ∧ s.p ≤ 700 := by simpa using hr
      exact ⟨⟨s, hm, hr.2⟩, ⟨s, hm, hr.1⟩⟩
    · obtain ⟨⟨l, m, e⟩, ⟨l', m', e'⟩⟩ := atBound_mem (Option.mem_toList.mp hs)
      exact ⟨⟨l, m, e⟩, ⟨l', m', by linarith⟩⟩
    · obtain ⟨⟨l, m, e⟩, ⟨l', m', e'⟩⟩ := atBound_mem (Option.mem_toList.mp hs)
      exact ⟨⟨l, m, by linarith⟩, ⟨l', m', e'⟩⟩
  · rintro ⟨⟨l, m, e⟩, ⟨l', m', e'⟩⟩ h
    unfold candidates at h
    rw [List.append_eq_nil_iff, List.append_eq_nil_iff] at h
    obtain ⟨⟨hf, h7⟩, -⟩ := h
    have hno : ∀ x ∈ L, ¬ (500 ≤ x.p ∧ x.p ≤ 700) := by
      intro x hx hr
      have : x ∈ L.filter (fun l => 500 ≤ l.p ∧ l.p ≤ 700) := List.mem_filter.mpr ⟨hx, by simpa using hr⟩
      rw [hf] at this
      cases this
    have h700 : 700 < l'.p := by
      by_contra hc
      exact hno l' m' ⟨e', not_lt.mp hc⟩
    obtain ⟨s, hs⟩ := atBound_some h2 ⟨l, m, e⟩ ⟨l', m', h700.le⟩
    rw [hs] at h7
    cases h7

theorem mem_surfaceFirst {L : List Lev} {l : Lev} : l ∈ surfaceFirst L ↔ l ∈ L := by
  unfold surfaceFirst
  cases L.head? with
  | none => rfl
  | some a =>
    cases L.getLast? with
    | none => rfl
    | some b =>
      dsimp only
      split
      · exact List.mem_reverse
      · rfl

theorem length_surfaceFirst (L : List Lev) : (surfaceFirst L).length = L.length := by
  unfold surfaceFirst
  cases L.head? with
  | none => rfl
  | some a =>
    cases L.getLast? with
    | none => rfl
    | some b =>
      dsimp only
      split
      · exact List.length_reverse
      · rfl

/-- **C137 (existence).** For sensible levels the downdraft has a start exactly when the sounding reaches the layer from 700 to 500 hPa. -/
theorem C137_exists {L : List Lev} (hL : ∀ l ∈ L, Physical l) (h2 : 2 ≤ L.length) : (∃ s, start L = some s) ↔ Reaches L := by
  rw [← candidates_iff h2]
  constructor
  · rintro ⟨s, hs⟩ h
    have := ((C137_start L).1 s hs).1
    rw [h] at this
    cases this
  · intro h
    obtain ⟨c, hc⟩ := List.exists_mem_of_ne_nil _ h
    cases hs : start L with
    | some s => exact ⟨s, rfl⟩
    | none =>
      obtain ⟨te, e, hlt⟩ := thetae_some (candidates_physical hL hc) (candidates_range hc).1
      exact absurd ((C137_start L).2.mp hs c hc te e) (not_le.mpr hlt)

/-- The pressures of a sounding run one way. -/
def OneWay (L : List Lev) : Prop := L.Pairwise (fun a b => b.p ≤ a.p) ∨ L.Pairwise (fun a b => a.p ≤ b.p)

theorem pairwise_head_last {L : List Lev} {R : Lev → Lev → Prop} (hR : ∀ a, R a a) (h : L.Pairwise R) {a b : Lev} (ha : L.head? = some a)
    (hb : L.getLast? = some b) : R a b := by
  cases L with
  | nil => cases ha
  | cons c L =>
    obtain rfl := Option.some.inj ha
    have := List.mem_of_getLast? hb
    rcases List.mem_cons.mp this with rfl | hm
    · exact hR _
    · exact (List.pairwise_cons.mp h).1 b hm

/-- In an ascending list whose ends have equal pressures all pressures are equal. -/
theorem surfaceFirst_down {L : List Lev} (h : OneWay L) : (surfaceFirst L).Pairwise (fun a b => b.p ≤ a.p) := by
  unfold surfaceFirst
  cases ha : L.head? with
  | none =>
    rw [List.head?_eq_none_iff] at ha
    subst ha
    exact List.Pairwise.nil
  | some a =>
    cases hb : L.getLast? with
    | none =>
      rw [List.getLast?_eq_none_iff] at hb
      subst hb
      exact List.Pairwise.nil
    | some b =>
      dsimp only
      rcases h with h | h
      · have hab : b.p ≤ a.p := pairwise_head_last (R := fun a b : Lev => b.p ≤ a.p) (fun _ => le_rfl) h ha hb
        rw [if_neg (not_lt.mpr hab)]
        exact h
      · split
        · exact List.pairwise_reverse.mpr h
        · next hc =>
          -- all pressures coincide
          have hall : ∀ x ∈ L, x.p = a.p := by
            intro x hx
            have h1 : a.p ≤ x.p := by
              cases L with
              | nil => cases hx
              | cons c L =>
                obtain rfl := Option.some.inj ha
                rcases List.mem_cons.mp hx with rfl | hx
                · exact le_rfl
                · exact (List.pairwise_cons.mp h).1 x hx
            have h2 : x.p ≤ b.p := by
              have hr := List.pairwise_reverse.mpr h
              have hhd : L.reverse.head? = some b := by rw [List.head?_reverse]; exact hb
              have hxr : x ∈ L.reverse := List.mem_reverse.mpr hx
              revert hr hhd hxr
              generalize L.reverse = M
              intro hr hhd hxr
              cases M with
              | nil => cases hxr
              | cons c M =>
                obtain rfl := Option.some.inj hhd
                rcases List.mem_cons.mp hxr with rfl | hx
                · exact le_rfl
                · exact (List.pairwise_cons.mp hr).1 x hx
            linarith [not_lt.mp hc]
          refine List.Pairwise.imp_of_mem (fun {x y} hx hy _ => ?_) h
          rw [hall x hx, hall y hy]

theorem below_eq_filter {S : List Lev} (h : S.Pairwise (fun a b => b.p ≤ a.p)) (s : Lev) : below S s = S.filter fun l => s.p ≤ l.p := by
  unfold below
  induction S with
  | nil => rfl
  | cons a S ih =>
    obtain ⟨h1, h2⟩ := List.pairwise_cons.mp h
    by_cases ha : s.p ≤ a.p
    · rw [List.takeWhile_cons_of_pos (by simpa using ha), List.filter_cons_of_pos (by simpa using ha), ih h2]
    · rw [List.takeWhile_cons_of_neg (by simpa using ha), List.filter_cons_of_neg (by simpa using ha)]
      symm
      rw [List.filter_eq_nil_iff]
      intro x hx
      have := h1 x hx
      simp only [decide_eq_true_eq, not_le]
      linarith [not_le.mp ha]

theorem below_descending {S : List Lev} (h : S.Pairwise (fun a b => b.p ≤ a.p)) (s : Lev) : Descending s (below S s) := by
  refine ⟨h.sublist (List.takeWhile_sublist _), fun l hl => ?_⟩
  rw [below_eq_filter h] at hl
  simpa using (List.mem_filter.mp hl).2

theorem below_sub {S : List Lev} {s l : Lev} (h : l ∈ below S s) : l ∈ S := (List.takeWhile_sublist _).subset h

/-- **C136 (partial).** For a sensible sounding whose pressures run one way, the result is a number exactly when there are four complete
levels, the sounding reaches the layer from 700 to 500 hPa, and at least two levels lie at or below the start of the downdraft. The third
condition is not documented. -/
theorem C136_number_partial {L : List Lev} (hL : ∀ l ∈ L, Physical l) (hw : OneWay L) :
    (∃ x, dcape L = some x) ↔
      4 ≤ L.length ∧ Reaches L ∧ ∀ s, start (surfaceFirst L) = some s → 2 ≤ (L.filter fun l => s.p ≤ l.p).length := by
  have hS := surfaceFirst_down hw
  have hphys : ∀ l ∈ surfaceFirst L, Physical l := fun l hl => hL l (mem_surfaceFirst.mp hl)
  have hreach : Reaches (surfaceFirst L) ↔ Reaches L := by
    unfold Reaches
    simp only [mem_surfaceFirst]
  have hlen : ∀ s : Lev, (below (surfaceFirst L) s).length = (L.filter fun l => s.p ≤ l.p).length := by
    intro s
    rw [below_eq_filter hS]
    unfold surfaceFirst
    cases L.head? with
    | none => rfl
    | some a =>
      cases L.getLast? with
      | none => rfl
      | some b =>
        dsimp only
        split
        · rw [List.filter_reverse, List.length_reverse]
        · rfl
  unfold dcape
  by_cases h4 : L.length < 4
  · rw [if_pos h4]
    constructor
    · rintro ⟨x, hx⟩; cases hx
    · rintro ⟨h, -⟩; omega
  rw [if_neg h4]
  dsimp only
  have hsi := C137_exists hphys (by rw [length_surfaceFirst]; omega)
  rw [hreach] at hsi
  rw [← hsi]
  cases hs : start (surfaceFirst L) with
  | none =>
    constructor
    · rintro ⟨x, hx⟩; cases hx
    · rintro ⟨-, ⟨s, h⟩, -⟩; cases h
  | some s =>
    rw [Option.bind_some]
    have hsp : Physical s := candidates_physical hphys ((C137_start _).1 s hs).1
    have hle : (below (surfaceFirst L) s).length ≤ 1 ↔ ¬ 2 ≤ (L.filter fun l => s.p ≤ l.p).length := by rw [hlen]; omega
    by_cases hb : (below (surfaceFirst L) s).length ≤ 1
    · rw [if_pos hb]
      constructor
      · rintro ⟨x, hx⟩; cases hx
      · rintro ⟨-, -, h⟩
        exact absurd (h s rfl) (hle.mp hb)
    · rw [if_neg hb]
      obtain ⟨x, e⟩ := energy_some hsp (below_descending hS s) fun l hl => hphys l (below_sub hl)
      rw [e]
      refine ⟨fun _ => ⟨by omega, ⟨s, rfl⟩, ?_⟩, fun _ => ⟨_, rfl⟩⟩
      intro s' hs'
      rw [← Option.some.inj hs']
      exact Decidable.not_not.mp fun h => hb (hle.mpr h)

/-- Two levels at 700 hPa or below are enough for a sounding that goes on above 700 hPa. -/
theorem C136_enough {L : List Lev} (hL : ∀ l ∈ L, Physical l) (hw : OneWay L) (h4 : 4 ≤ L.length)
    (h2 : 2 ≤ (L.filter fun l => 700 ≤ l.p).length) (h7 : ∃ l ∈ L, l.p ≤ 700) : ∃ x, dcape L = some x := by
  refine (C136_number_partial hL hw).mpr ⟨h4, ⟨h7, ?_⟩, fun s hs => ?_⟩
  · cases hf : L.filter (fun l => 700 ≤ l.p) with
    | nil => rw [hf] at h2; simp at h2
    | cons a M =>
      have ha : a ∈ L.filter (fun l => 700 ≤ l.p) := by rw [hf]; simp
      obtain ⟨hm, hr⟩ := List.mem_filter.mp ha
      exact ⟨a, hm, by have : 700 ≤ a.p := by simpa using hr
                       linarith⟩
  · refine h2.trans (List.Sublist.length_le ?_)
    refine List.monotone_filter_right L fun l hl => ?_
    have := ((C137_start _).1 s hs).2.2.1
    have h7 : (700 : ℝ) ≤ l.p := by simpa using hl
    simpa using this.trans h7

/-- Four levels of a sounding with ample room below 700 hPa. -/
noncomputable def sample : List Lev := [⟨1000, 30, 20⟩, ⟨850, 20, 10⟩, ⟨600, 0, -20⟩, ⟨400, -20, -40⟩]

theorem sample_physical : ∀ l ∈ sample, Physical l := by
  intro l hl
  simp only [sample, List.mem_cons, List.not_mem_nil, or_false] at hl
  rcases hl with rfl | rfl | rfl | rfl <;> (unfold Physical; norm_num)

theorem sample_down : sample.Pairwise (fun a b => b.p ≤ a.p) := by
  unfold sample
  simp only [List.pairwise_cons, List.mem_cons, List.not_mem_nil, or_false]
  norm_num

/-- The hypotheses of `C136_number_partial` and `C136_enough` are met by an ordinary sounding, so its DCAPE is a number. -/
example : ∃ x, dcape sample = some x :=
  C136_enough sample_physical (Or.inl sample_down) (by simp [sample]) (by simp [sample]; norm_num) ⟨⟨600, 0, -20⟩, by simp [sample], by norm_num⟩

/-- `C135_order` applies to `sample`: the first and the last pressure differ. -/
example : ∀ a ∈ sample.head?, ∀ b ∈ sample.getLast?, a.p ≠ b.p := by simp [sample]

/-- `C138_warms` applies to `sample`: a parcel from 600 hPa sinks through the two levels below. -/
example : ∃ x y, parcel ⟨600, 0, -20⟩ [⟨850, 20, 10⟩] = some x ∧ parcel ⟨600, 0, -20⟩ [⟨1000, 30, 20⟩, ⟨850, 20, 10⟩] = some y ∧ x ≤ y :=
  C138_warms (by unfold Physical; norm_num) ⟨by simp; norm_num, by simp; norm_num⟩

/-- `C137_start` is not vacuous: `sample` has a start. -/
example : ∃ s, start sample = some s :=
  (C137_exists sample_physical (by simp [sample])).mpr
    ⟨⟨⟨600, 0, -20⟩, by simp [sample], by norm_num⟩, ⟨⟨600, 0, -20⟩, by simp [sample], by norm_num⟩⟩

/-! #### The documented rule for NaN is not the actual one -/

/-- An isothermal saturated sounding whose lowest level is at 600 hPa. -/
noncomputable def high : List Lev := [⟨600, 0, 0⟩, ⟨550, 0, 0⟩, ⟨520, 0, 0⟩, ⟨510, 0, 0⟩]

theorem high_physical : ∀ l ∈ high, Physical l := by
  intro l hl
  simp only [high, List.mem_cons, List.not_mem_nil, or_false] at hl
  rcases hl with rfl | rfl | rfl | rfl <;> (unfold Physical; norm_num)

theorem high_down : high.Pairwise (fun a b => b.p ≤ a.p) := by
  unfold high
  simp only [List.pairwise_cons, List.mem_cons, List.not_mem_nil, or_false]
  norm_num

theorem svp_zero : svp 0 = 6.112 := by unfold svp; simp

theorem thetae_iso {p : ℝ} (hp : 500 ≤ p) : ∃ r, r = mr (p * 100) 611.2 ∧ thetae p 0 0 =
    some (273.15 * (100000 / (p * 100 - 611.2)) ^ kappa * Real.exp (r * (1 + 0.448 * r) * (3036 / 273.15 - 1.78))) := by
  refine ⟨_, rfl, ?_⟩
  have hpp : 0 < p * 100 := by linarith
  have hb : 0 < p * 100 - 611.2 := by linarith
  have hbase : 0 < 100000 / (p * 100 - 611.2) := by positivity
  have hmax : max ((0 : ℝ) + 273.15) 173.15 = 273.15 := by norm_num
  have h0 : (0 : ℝ) + 273.15 = 273.15 := by norm_num
  have he : svp 0 * 100 = 611.2 := by rw [svp_zero]; norm_num
  have h1 : (273.15 : ℝ) / 273.15 = 1 := by norm_num
  unfold thetae
  dsimp only
  rw [hmax, h0, svpHpa_some (by norm_num)]
  simp only [Option.bind_eq_bind, Option.bind_some]
  rw [he, mixingRatio_some hpp]
  simp only [Option.bind_some]
  rw [tLcl_saturated (by norm_num)]
  simp only [Option.bind_some]
  rw [fdiv_some hb.ne']
  simp only [Option.bind_some]
  rw [fpow_some hbase]
  simp only [Option.bind_some]
  rw [fdiv_some (by norm_num)]
  simp only [Option.bind_some]
  rw [h1, fpow_some one_pos]
  simp only [Option.bind_some]
  rw [fdiv_some (by norm_num), Real.one_rpow]
  simp only [Option.bind_some, mul_one]

theorem thetae_iso_lt {p q : ℝ} (hp : 500 ≤ p) (hpq : p < q) {a b : ℝ} (ha : thetae p 0 0 = some a) (hb : thetae q 0 0 = some b) : b < a := by
  obtain ⟨r, hr, e⟩ := thetae_iso hp
  obtain ⟨r', hr', e'⟩ := thetae_iso (hp.trans hpq.le)
  rw [e] at ha
  rw [e'] at hb
  rw [← Option.some.inj ha, ← Option.some.inj hb]
  have hq : 500 ≤ q := hp.trans hpq.le
  have c : ∀ x : ℝ, 500 ≤ x → clampE (x * 100) 611.2 = 611.2 := by
    intro x hx
    unfold clampE
    rw [max_eq_left (by norm_num), min_eq_left (by linarith)]
  have hr0 : 0 < r' := by rw [hr']; exact mr_pos (by linarith) _
  have hrr : r' ≤ r := by
    rw [hr, hr']
    unfold mr eps
    rw [c p hp, c q hq, div_le_div_iff₀ (by linarith) (by linarith)]
    nlinarith
  have hB : 0 < 100000 / (q * 100 - 611.2) := by
    have : 0 < q * 100 - 611.2 := by linarith
    positivity
  have hb1 : 100000 / (q * 100 - 611.2) < 100000 / (p * 100 - 611.2) :=
    div_lt_div_of_pos_left (by norm_num) (by linarith) (by linarith)
  have hpow : (100000 / (q * 100 - 611.2)) ^ kappa < (100000 / (p * 100 - 611.2)) ^ kappa :=
    Real.rpow_lt_rpow hB.le hb1 (by unfold kappa rdAir cp; norm_num)
  have hexp : Real.exp (r' * (1 + 0.448 * r') * (3036 / 273.15 - 1.78)) ≤ Real.exp (r * (1 + 0.448 * r) * (3036 / 273.15 - 1.78)) := by
    refine Real.exp_le_exp.mpr (mul_le_mul_of_nonneg_right ?_ (by norm_num))
    nlinarith
  have hpos : 0 < (100000 / (q * 100 - 611.2)) ^ kappa := Real.rpow_pos_of_pos hB _
  have he0 := Real.exp_pos (r' * (1 + 0.448 * r') * (3036 / 273.15 - 1.78))
  calc 273.15 * (100000 / (q * 100 - 611.2)) ^ kappa * Real.exp (r' * (1 + 0.448 * r') * (3036 / 273.15 - 1.78))
      < 273.15 * (100000 / (p * 100 - 611.2)) ^ kappa * Real.exp (r' * (1 + 0.448 * r') * (3036 / 273.15 - 1.78)) := by
        refine mul_lt_mul_of_pos_right ?_ he0
        exact mul_lt_mul_of_pos_left hpow (by norm_num)
    _ ≤ _ := mul_le_mul_of_nonneg_left hexp (mul_nonneg (by norm_num) (hpos.trans hpow).le)

theorem high_start : ∃ s, start high = some s ∧ s.p = 600 := by
  obtain ⟨s, hs⟩ := (C137_exists high_physical (by simp [high])).mpr
    ⟨⟨⟨600, 0, 0⟩, by simp [high], by norm_num⟩, ⟨⟨600, 0, 0⟩, by simp [high], by norm_num⟩⟩
  refine ⟨s, hs, ?_⟩
  obtain ⟨hmem, -, -, te, hte, hmin⟩ := (C137_start high).1 s hs
  have hcand : candidates high = high := by
    unfold candidates high
    have b7 : atBound 700 [⟨600, 0, 0⟩, ⟨550, 0, 0⟩, ⟨520, 0, 0⟩, ⟨510, 0, 0⟩] = none := by
      simp only [atBound, Between]
      norm_num
    have b5 : atBound 500 [⟨600, 0, 0⟩, ⟨550, 0, 0⟩, ⟨520, 0, 0⟩, ⟨510, 0, 0⟩] = none := by
      simp only [atBound, Between]
      norm_num
    rw [b7, b5]
    simp
    norm_num
  rw [hcand] at hmem hmin
  obtain ⟨te6, h6, -⟩ := thetae_some (high_physical ⟨600, 0, 0⟩ (by simp [high])) (by norm_num)
  have hle := hmin ⟨600, 0, 0⟩ (by simp [high]) te6 h6
  simp only [high, List.mem_cons, List.not_mem_nil, or_false] at hmem
  rcases hmem with rfl | rfl | rfl | rfl
  · rfl
  all_goals exact absurd (thetae_iso_lt (by norm_num) (by norm_num) hte h6) (not_lt.mpr hle)

/-- A list as a 1-D array. -/
def ofList (l : List ℝ) : Arr := ⟨[l.length], fun ix => l[ix.getD 0 0]?⟩

/-- **C136 (negation).** The documentation says that NaN is returned for fewer than 4 valid levels or when there is no minimum of equivalent
potential temperature between 500 and 700 hPa. Not so: this profile has four complete sensible levels, all of them in that layer, with a
start for the downdraft, and the result is NaN. -/
theorem C136_false : ∃ p t td : List ℝ, p.length = 4 ∧ t.length = 4 ∧ td.length = 4 ∧
    (∀ l ∈ valid 4 (fun k => (ofList p).get [k - 1]) (fun k => (ofList t).get [k - 1]) (fun k => (ofList td).get [k - 1]), Physical l) ∧
    (valid 4 (fun k => (ofList p).get [k - 1]) (fun k => (ofList t).get [k - 1]) (fun k => (ofList td).get [k - 1])).length = 4 ∧
    (∃ s, start (surfaceFirst (valid 4 (fun k => (ofList p).get [k - 1]) (fun k => (ofList t).get [k - 1])
      (fun k => (ofList td).get [k - 1]))) = some s) ∧
    ∀ g, profilePy g (ofList p) (ofList t) (ofList td) = .ok none := by
  have hv : valid 4 (fun k => (ofList [600, 550, 520, 510]).get [k - 1]) (fun k => (ofList [0, 0, 0, 0]).get [k - 1])
      (fun k => (ofList [0, 0, 0, 0]).get [k - 1]) = high := by
    simp [valid, ofList, List.range_succ, level, high]
  have hsf : surfaceFirst high = high := by
    unfold surfaceFirst high
    simp
    norm_num
  obtain ⟨s, hs, hp⟩ := high_start
  refine ⟨[600, 550, 520, 510], [0, 0, 0, 0], [0, 0, 0, 0], rfl, rfl, rfl, ?_, ?_, ?_, ?_⟩
  · rw [hv]; exact high_physical
  · rw [hv]; rfl
  · rw [hv, hsf]; exact ⟨s, hs⟩
  · intro g
    unfold profilePy profileC
    rw [if_neg (by simp [ofList])]
    have : (ofList [600, 550, 520, 510]).shape = [4] := rfl
    have h2 : (ofList [0, 0, 0, 0]).shape = [4] := rfl
    rw [this, h2]
    dsimp only
    rw [if_neg (by simp), profile_run, hv]
    have : dcape high = none := by
      unfold dcape
      rw [if_neg (by simp [high]), hsf]
      dsimp only
      rw [hs, Option.bind_some]
      rw [if_pos]
      unfold below high
      rw [hp]
      norm_num
    rw [this]

/-! ### C139 -/

/-- The complete levels of a profile given as three 1-D arrays. -/
def levels (n : ℕ) (p t td : Arr) : List Lev := valid n (fun k => p.get [k - 1]) (fun k => t.get [k - 1]) (fun k => td.get [k - 1])

/-- **C139 (value).** For three 1-D arrays of the same length the public function returns a float, and that is the DCAPE of the complete
levels: a saturated parcel released with the wet-bulb temperature of the candidate of least equivalent potential temperature, and the
trapezoidal integral over `ln p` of the difference of virtual temperature from there to the surface, times the gas constant, not below 0. -/
theorem C139_value (g : ℕ → ℕ → Garbage) (dims : Option (List String)) (n : ℕ) (p t td : Arr) (hp : p.shape = [n]) (ht : t.shape = [n])
    (hd : td.shape = [n]) : calculate g dims p t td = .ok (.scalar (dcape (levels n p t td))) := by
  unfold calculate profilePy profileC
  rw [hp, ht, hd]
  simp only [List.length_singleton, if_true, ne_eq, not_true_eq_false, if_false, or_self]
  rw [profile_run]
  rfl

/-- **C139 (sign).** DCAPE is never negative. -/
theorem C139_nonneg {L : List Lev} {x : ℝ} (h : dcape L = some x) : 0 ≤ x := by
  unfold dcape at h
  split at h
  · cases h
  dsimp only at h
  rw [Option.bind_eq_some_iff] at h
  obtain ⟨s, -, h⟩ := h
  split at h
  · cases h
  rw [Option.map_eq_some_iff] at h
  obtain ⟨y, -, rfl⟩ := h
  exact le_max_left _ _

/-- The same pressure, and neither colder nor drier. -/
def Warmer (l l' : Lev) : Prop := l'.p = l.p ∧ l.t ≤ l'.t ∧ l.td ≤ l'.td

theorem Warmer.refl (l : Lev) : Warmer l l := ⟨rfl, le_rfl, le_rfl⟩

theorem bottom_congr {s : Lev} {B B' : List Lev} (h : List.Forall₂ Warmer B B') : bottom s B' = bottom s B := by
  cases h with
  | nil => rfl
  | cons h _ => exact h.1

theorem parcel_congr {s : Lev} {B B' : List Lev} (h : List.Forall₂ Warmer B B') : parcel s B' = parcel s B := by
  induction h with
  | nil => rfl
  | cons h hs ih => rw [parcel, parcel, ih, bottom_congr hs, h.1]

theorem excess_mono {s : Lev} (hs : Physical s) {l l' : Lev} {B B' : List Lev} (hd : Descending s (l :: B)) (hl : Physical l) (hl' : Physical l')
    (hw : Warmer l l') (h : List.Forall₂ Warmer B B') :
    ∃ d d', excess s (l :: B) = some d ∧ excess s (l' :: B') = some d' ∧ d ≤ d' := by
  obtain ⟨x, e, hx⟩ := parcel_some hs hd
  have e' : parcel s (l' :: B') = some x := by rw [parcel_congr (List.Forall₂.cons hw h), e]
  refine ⟨_, _, by rw [excess, e, Option.bind_some, deficit_some hl hx], by rw [excess, e', Option.bind_some, deficit_some hl' hx], ?_⟩
  obtain ⟨w1, w2, w3⟩ := hw
  rw [w1]
  have hp : 0 < l.p * 100 := by have := hl.1; positivity
  have h1 : svp l.td ≤ svp l'.td := svp_mono (by linarith [hl.2.1]) w3
  have h2 : mr (l.p * 100) (svp l.td * 100) ≤ mr (l.p * 100) (svp l'.td * 100) := mr_mono hp (by linarith)
  have h3 : tv (l.t + 273.15) (mr (l.p * 100) (svp l.td * 100)) ≤ tv (l'.t + 273.15) (mr (l.p * 100) (svp l'.td * 100)) :=
    tv_mono (by linarith [hl.2.1, hl.2.2.1]) (by linarith) (mr_pos hp _) h2
  linarith

theorem energy_mono {s : Lev} (hs : Physical s) {B B' : List Lev} (hd : Descending s B) (hB : ∀ l ∈ B, Physical l) (hB' : ∀ l ∈ B', Physical l)
    (h : List.Forall₂ Warmer B B') : ∃ x x', energy s B = some x ∧ energy s B' = some x' ∧ x ≤ x' := by
  induction h with
  | nil => exact ⟨0, 0, by simp [energy], by simp [energy], le_rfl⟩
  | @cons a a' B B' ha hBB ih =>
    cases hBB with
    | nil => exact ⟨0, 0, by simp [energy], by simp [energy], le_rfl⟩
    | @cons b b' B B' hb hBB =>
      obtain ⟨x, x', ex, ex', hx⟩ := ih hd.tail (fun l hl => hB l (List.mem_cons_of_mem _ hl)) fun l hl => hB' l (List.mem_cons_of_mem _ hl)
      obtain ⟨d, d', ed, ed', hdd⟩ := excess_mono hs hd (hB a (by simp)) (hB' a' (by simp)) ha (List.Forall₂.cons hb hBB)
      obtain ⟨f, f', ef, ef', hff⟩ := excess_mono hs hd.tail (hB b (by simp)) (hB' b' (by simp)) hb hBB
      refine ⟨x + (d + f) / 2 * (Real.log a.p - Real.log b.p), x' + (d' + f') / 2 * (Real.log a.p - Real.log b.p), ?_, ?_, ?_⟩
      · rw [energy, ex, ed, ef, flog_some (hB a (by simp)).1, flog_some (hB b (by simp)).1]
        rfl
      · rw [energy, ex', ed', ef', ha.1, hb.1, flog_some (hB a (by simp)).1, flog_some (hB b (by simp)).1]
        rfl
      · have hab : b.p ≤ a.p := (List.pairwise_cons.mp hd.1).1 b (by simp)
        have hlog : Real.log b.p ≤ Real.log a.p := Real.log_le_log (hB b (by simp)).1 hab
        nlinarith [mul_le_mul_of_nonneg_right (show (d + f) / 2 ≤ (d' + f') / 2 by linarith) (sub_nonneg.mpr hlog)]

theorem atBound_skip {bound : ℝ} {A : List Lev} {c : Lev} {C : List Lev} (hA : ∀ l ∈ A, bound < l.p) (hc : bound < c.p) :
    atBound bound (A ++ c :: C) = atBound bound (c :: C) := by
  induction A with
  | nil => rfl
  | cons a A ih =>
    have ih := ih fun l hl => hA l (List.mem_cons_of_mem _ hl)
    have ha := hA a (by simp)
    cases A with
    | nil =>
      rw [List.singleton_append, atBound, if_neg]
      rintro (h | h)
      · linarith [h.2]
      · linarith [h.1]
    | cons b A =>
      have hb := hA b (by simp)
      rw [List.cons_append, List.cons_append, atBound, if_neg]
      · exact ih
      · rintro (h | h)
        · linarith [h.2]
        · linarith [h.1]

theorem candidates_skip {A : List Lev} {c : Lev} {C : List Lev} (hA : ∀ l ∈ A, 700 < l.p) (hc : 700 < c.p) :
    candidates (A ++ c :: C) = candidates (c :: C) := by
  unfold candidates
  rw [atBound_skip hA hc, atBound_skip (fun l hl => by linarith [hA l hl]) (by linarith), List.filter_append]
  congr 2
  have : A.filter (fun l => 500 ≤ l.p ∧ l.p ≤ 700) = [] := by
    rw [List.filter_eq_nil_iff]
    intro x hx
    have := hA x hx
    simp only [decide_eq_true_eq, not_and, not_le]
    intro _
    exact this
  rw [this, List.nil_append]

theorem surfaceFirst_of_down {L : List Lev} (h : L.Pairwise (fun a b => b.p ≤ a.p)) : surfaceFirst L = L := by
  unfold surfaceFirst
  cases ha : L.head? with
  | none => rfl
  | some a =>
    cases hb : L.getLast? with
    | none => rfl
    | some b =>
      dsimp only
      have hab : b.p ≤ a.p := pairwise_head_last (R := fun a b : Lev => b.p ≤ a.p) (fun _ => le_rfl) h ha hb
      rw [if_neg (not_lt.mpr hab)]

/-- **C139 (boundary layer).** Take a sensible sounding listed from the surface up, and make any of the lowest levels warmer or moister,
leaving unchanged the last level below 700 hPa and everything above it. The result stays a number and does not decrease. -/
theorem C139_warmer {A A' : List Lev} {c : Lev} {C : List Lev} (h : List.Forall₂ Warmer A A') (hA : ∀ l ∈ A, 700 < l.p) (hc : 700 < c.p)
    (hL : ∀ l ∈ A ++ c :: C, Physical l) (hL' : ∀ l ∈ A', Physical l) (hd : (A ++ c :: C).Pairwise (fun a b => b.p ≤ a.p)) {x : ℝ}
    (hx : dcape (A ++ c :: C) = some x) : ∃ x', dcape (A' ++ c :: C) = some x' ∧ x ≤ x' := by
  have hrefl : ∀ M : List Lev, List.Forall₂ Warmer M M := fun M => List.forall₂_same.mpr fun l _ => Warmer.refl l
  have hall : List.Forall₂ Warmer (A ++ c :: C) (A' ++ c :: C) := List.rel_append h (hrefl _)
  have hA' : ∀ l ∈ A', 700 < l.p := by
    clear hL hL' hd hx hall
    induction h with
    | nil => simp
    | @cons a a' A A' ha _ ih =>
      intro l hl
      rcases List.mem_cons.mp hl with rfl | hl
      · rw [ha.1]; exact hA a (by simp)
      · exact ih (fun l hl => hA l (List.mem_cons_of_mem _ hl)) l hl
  have hd' : (A' ++ c :: C).Pairwise (fun a b => b.p ≤ a.p) := by
    have e : (A' ++ c :: C).map Lev.p = (A ++ c :: C).map Lev.p := by
      clear hL hL' hd hx hA hA'
      generalize A' ++ c :: C = M' at hall ⊢
      generalize A ++ c :: C = M at hall ⊢
      induction hall with
      | nil => rfl
      | cons ha _ ih => rw [List.map_cons, List.map_cons, ih, ha.1]
    have h1 : ((A ++ c :: C).map Lev.p).Pairwise (fun a b => b ≤ a) := List.pairwise_map.mpr hd
    rw [← e] at h1
    exact List.pairwise_map.mp h1
  have hlen : (A' ++ c :: C).length = (A ++ c :: C).length := hall.length_eq.symm
  have hst : start (A' ++ c :: C) = start (A ++ c :: C) := by
    unfold start
    rw [candidates_skip hA hc, candidates_skip hA' hc]
  unfold dcape at hx ⊢
  rw [hlen]
  split at hx
  · cases hx
  next h4 =>
  rw [if_neg h4]
  dsimp only at hx ⊢
  rw [surfaceFirst_of_down hd] at hx
  rw [surfaceFirst_of_down hd', hst]
  rw [Option.bind_eq_some_iff] at hx
  obtain ⟨s, hs, hx⟩ := hx
  rw [hs, Option.bind_some]
  obtain ⟨hmem, -, hs7, -⟩ := (C137_start _).1 s hs
  have hsp : Physical s := candidates_physical hL hmem
  have hbel : ∀ M : List Lev, (∀ l ∈ M, 700 < l.p) → below (M ++ c :: C) s = M ++ below (c :: C) s := by
    intro M hM
    unfold below
    rw [List.takeWhile_append_of_pos]
    intro l hl
    have := hM l hl
    simp only [decide_eq_true_eq]
    linarith
  have hb2 : List.Forall₂ Warmer (below (A ++ c :: C) s) (below (A' ++ c :: C) s) := by
    rw [hbel A hA, hbel A' hA']
    exact List.rel_append h (hrefl _)
  split at hx
  · cases hx
  next hle =>
  rw [if_neg (by rw [← hb2.length_eq]; exact hle)]
  obtain ⟨y, y', ey, ey', hy⟩ := energy_mono hsp (below_descending hd s) (fun l hl => hL l (below_sub hl)) (fun l hl => by
    rcases List.mem_append.mp (below_sub hl) with hl | hl
    · exact hL' l hl
    · exact hL l (List.mem_append.mpr (Or.inr hl))) hb2
  rw [ey] at hx
  rw [ey']
  refine ⟨_, rfl, ?_⟩
  rw [← Option.some.inj hx]
  refine max_le_max le_rfl ?_
  have : 0 < rdAir := by unfold rdAir; norm_num
  nlinarith

/-- The hypotheses of `C139_warmer` are met: a warmer and moister surface. -/
example : ∃ x x', dcape sample = some x ∧ dcape (⟨1000, 33, 22⟩ :: sample.tail) = some x' ∧ x ≤ x' := by
  obtain ⟨x, hx⟩ := C136_enough sample_physical (Or.inl sample_down) (by simp [sample]) (by simp [sample]; norm_num)
    ⟨⟨600, 0, -20⟩, by simp [sample], by norm_num⟩
  obtain ⟨x', e, h⟩ := C139_warmer (A := [⟨1000, 30, 20⟩]) (A' := [⟨1000, 33, 22⟩]) (c := ⟨850, 20, 10⟩)
    (C := [⟨600, 0, -20⟩, ⟨400, -20, -40⟩]) (List.Forall₂.cons ⟨rfl, by norm_num, by norm_num⟩ .nil) (by simp; norm_num) (by norm_num)
    sample_physical (by simp [Physical]; norm_num) sample_down hx
  exact ⟨x, x', hx, e, h⟩

/-! ### C140 -/

theorem grid_run (nlev nlat nlon : ℕ) (p t td : ℕ → ℕ → ℕ → Option ℝ) (g : ℕ → ℕ → Garbage) (out : ℕ → ℕ → Option ℝ) :
    ∃ b, grid nlev nlat nlon p t td g out = some b ∧ ∀ j i, 1 ≤ j → j ≤ nlat → 1 ≤ i → i ≤ nlon →
      b j i = dcape (valid nlev (fun k => p k j i) (fun k => t k j i) (fun k => td k j i)) := by
  have key : ∃ b, grid nlev nlat nlon p t td g out = some b ∧ ∀ j i, 1 ≤ j → j ≤ nlat → 1 ≤ i → i < nlon + 1 →
      b j i = dcape (valid nlev (fun k => p k j i) (fun k => t k j i) (fun k => td k j i)) := by
    unfold grid
    refine doLoopM_inv (lo := 1) (hi := nlon) (by omega)
      (fun i (b : ℕ → ℕ → Option ℝ) => ∀ j i', 1 ≤ j → j ≤ nlat → 1 ≤ i' → i' < i →
        b j i' = dcape (valid nlev (fun k => p k j i') (fun k => t k j i') (fun k => td k j i'))) ?_ ?_
    · intro j i' _ _ h1 h2; omega
    · intro i b hi1 hi2 hb
      have inner : ∃ b', (doLoopM 1 nlat b fun j out => do
          let r ← profile nlev (fun k => p k j i) (fun k => t k j i) (fun k => td k j i) (g j i).w (g j i).par
          some (Function.update out j (Function.update (out j) i r))) = some b' ∧
          ∀ j i', 1 ≤ j → j ≤ nlat → 1 ≤ i' → (i' < i ∨ (i' = i ∧ j < nlat + 1)) →
            b' j i' = dcape (valid nlev (fun k => p k j i') (fun k => t k j i') (fun k => td k j i')) := by
        refine doLoopM_inv (lo := 1) (hi := nlat) (by omega)
          (fun j (b : ℕ → ℕ → Option ℝ) => ∀ j' i', 1 ≤ j' → j' ≤ nlat → 1 ≤ i' → (i' < i ∨ (i' = i ∧ j' < j)) →
            b j' i' = dcape (valid nlev (fun k => p k j' i') (fun k => t k j' i') (fun k => td k j' i'))) ?_ ?_
        · intro j i' h1 h2 h3 h4
          rcases h4 with h4 | h4
          · exact hb j i' h1 h2 h3 h4
          · omega
        · intro j b1 hj1 hj2 hb1
          rw [profile_run]
          refine ⟨_, rfl, ?_⟩
          intro j' i' h1 h2 h3 h4
          by_cases hj : j' = j
          · subst hj
            rw [Function.update_self]
            by_cases hi : i' = i
            · subst hi
              rw [Function.update_self]
            · rw [Function.update_of_ne hi]
              exact hb1 j' i' h1 h2 h3 (Or.inl (by omega))
          · rw [Function.update_of_ne hj]
            exact hb1 j' i' h1 h2 h3 (by omega)
      obtain ⟨b', e, hb'⟩ := inner
      exact ⟨b', e, fun j i' h1 h2 h3 h4 => hb' j i' h1 h2 h3 (by omega)⟩
  obtain ⟨b, e, h⟩ := key
  exact ⟨b, e, fun j i h1 h2 h3 h4 => h j i h1 h2 h3 (by omega)⟩

/-- The column of a (level, lat, lon) array at one grid point. -/
def column (a : Arr) (j i : ℕ) : Arr := ⟨[a.shape.getD 0 0], fun ix => a.get [ix.getD 0 0, j, i]⟩

/-- **C140 (columns).** For 3-D arrays of one shape the result is a (lat, lon) array whose every element is what the same function gives
for that column alone; the dimension names are the last two of `pressure`. -/
theorem C140_columns (g : ℕ → ℕ → Garbage) (dims : Option (List String)) (nlev nlat nlon : ℕ) (p t td : Arr) (hp : p.shape = [nlev, nlat, nlon])
    (ht : t.shape = p.shape) (hd : td.shape = p.shape) :
    ∃ out : Arr, out.shape = [nlat, nlon] ∧
      (calculate g none p t td = .ok (.array out)) ∧
      (∀ a b c, calculate g (some [a, b, c]) p t td = .ok (.named [b, c] out)) ∧
      ∀ j i, j < nlat → i < nlon → ∀ g', calculate g' dims (column p j i) (column t j i) (column td j i) = .ok (.scalar (out.get [j, i])) := by
  obtain ⟨b, e, hb⟩ := grid_run nlev nlat nlon (fun k j i => p.get [k - 1, j - 1, i - 1]) (fun k j i => t.get [k - 1, j - 1, i - 1])
    (fun k j i => td.get [k - 1, j - 1, i - 1]) g (fun _ _ => none)
  have hgrid : gridPy g p t td = .ok ⟨[nlat, nlon], fun ix => b (ix.getD 0 0 + 1) (ix.getD 1 0 + 1)⟩ := by
    unfold gridPy gridC
    rw [ht, hd, hp]
    simp only [List.length_cons, List.length_nil, ne_eq, not_true_eq_false, if_false, or_self, Nat.reduceAdd]
    rw [e]
  refine ⟨⟨[nlat, nlon], fun ix => b (ix.getD 0 0 + 1) (ix.getD 1 0 + 1)⟩, rfl, ?_, ?_, ?_⟩
  · unfold calculate
    rw [hgrid, hp]
    rfl
  · intro x y z
    unfold calculate
    rw [hgrid, hp]
    rfl
  · intro j i hj hi g'
    rw [C139_value g' dims nlev (column p j i) (column t j i) (column td j i) (by simp [column, hp]) (by simp [column, ht, hp])
      (by simp [column, hd, hp])]
    have := hb (j + 1) (i + 1) (by omega) (by omega) (by omega) (by omega)
    simp only [Nat.add_sub_cancel] at this
    dsimp only
    rw [show [j, i].getD 0 0 = j from rfl, show [j, i].getD 1 0 = i from rfl, this]
    rfl

/-- **C140 (errors).** The call never reads or writes outside the arrays; it raises exactly when `pressure` is neither 1-D nor 3-D, when the
number of dimensions of another argument differs, or when the shapes differ. -/
theorem C140_errors (g : ℕ → ℕ → Garbage) (dims : Option (List String)) (p t td : Arr) :
    calculate g dims p t td ≠ .error .crash ∧
    ((∃ r, calculate g dims p t td = .ok r) ↔ (p.shape.length = 1 ∨ p.shape.length = 3) ∧ t.shape = p.shape ∧ td.shape = p.shape) := by
  have ok : ∀ r : Res, calculate g dims p t td = .ok r → calculate g dims p t td ≠ .error .crash := fun r h => by rw [h]; simp
  by_cases h1 : p.shape.length = 1
  · obtain ⟨n, hn⟩ := List.length_eq_one_iff.mp h1
    by_cases hs : t.shape = p.shape ∧ td.shape = p.shape
    · have := C139_value g dims n p t td hn (hs.1.trans hn) (hs.2.trans hn)
      exact ⟨ok _ this, fun _ => ⟨Or.inl h1, hs⟩, fun _ => ⟨_, this⟩⟩
    · have herr : calculate g dims p t td = .error .shape ∨ calculate g dims p t td = .error .ndim := by
        unfold calculate profilePy profileC
        rw [if_pos h1, if_neg (by simpa using h1), hn]
        rw [hn] at hs
        rcases ht : t.shape with _ | ⟨nt, _ | ⟨b, r⟩⟩
        · exact Or.inr rfl
        · rcases hd : td.shape with _ | ⟨nd, _ | ⟨b, r⟩⟩
          · exact Or.inr rfl
          · left
            have : nt ≠ n ∨ nd ≠ n := by
              by_contra hc
              push Not at hc
              exact hs ⟨by rw [ht, hc.1], by rw [hd, hc.2]⟩
            dsimp only
            rw [if_pos this]
            rfl
          · exact Or.inr rfl
        · exact Or.inr rfl
      refine ⟨by rcases herr with h | h <;> rw [h] <;> simp, ?_, ?_⟩
      · rintro ⟨r, hr⟩
        rcases herr with h | h <;> rw [h] at hr <;> cases hr
      · rintro ⟨-, h⟩; exact absurd h hs
  by_cases h3 : p.shape.length = 3
  · obtain ⟨a, b, c, hn⟩ := List.length_eq_three.mp h3
    by_cases hs : t.shape = p.shape ∧ td.shape = p.shape
    · obtain ⟨out, -, e, -⟩ := C140_columns g dims a b c p t td hn hs.1 hs.2
      have hex : ∃ r, calculate g dims p t td = .ok r := by
        unfold calculate at e ⊢
        rw [if_neg h1, if_pos h3] at e ⊢
        cases hg : gridPy g p t td with
        | error err => rw [hg] at e; cases e
        | ok o =>
          cases dims with
          | none => exact ⟨_, rfl⟩
          | some d => exact ⟨_, rfl⟩
      obtain ⟨r, hr⟩ := hex
      exact ⟨ok r hr, fun _ => ⟨Or.inr h3, hs⟩, fun _ => ⟨r, hr⟩⟩
    · have herr : calculate g dims p t td = .error .shape := by
        unfold calculate gridPy
        rw [if_neg h1, if_pos h3, if_neg (by simpa using h3), if_pos]
        · rfl
        · by_contra hc
          push Not at hc
          exact hs hc
      refine ⟨by rw [herr]; simp, ?_, ?_⟩
      · rintro ⟨r, hr⟩; rw [herr] at hr; cases hr
      · rintro ⟨-, h⟩; exact absurd h hs
  · have herr : calculate g dims p t td = .error .ndim := by
      unfold calculate
      rw [if_neg h1, if_neg h3]
    refine ⟨by rw [herr]; simp, ?_, ?_⟩
    · rintro ⟨r, hr⟩; rw [herr] at hr; cases hr
    · rintro ⟨h, -⟩; rcases h with h | h
      · exact absurd h h1
      · exact absurd h h3

end Skyborn.Dcape
