/- C111, C112: `convert_longitude_range` and `calculate_potential_temperature`. -/
import Verif.Stats.Model
import Mathlib.Tactic.Ring
import Mathlib.Tactic.Linarith
import Mathlib.Tactic.FieldSimp
import Mathlib.Tactic.NormNum

namespace Skyborn.Stats
open scoped BigOperators Classical

/-- `x` and `y` are the same longitude: they differ by a whole number of turns. -/
def Spec.SameLon (x y : ℝ) : Prop := ∃ k : ℤ, x = y + 360 * k

theorem mod360_range (x : ℝ) : 0 ≤ mod360 x ∧ mod360 x < 360 := by
  unfold mod360
  have h1 := Int.floor_le (x / 360)
  have h2 := Int.lt_floor_add_one (x / 360)
  constructor
  · rw [le_div_iff₀ (by norm_num)] at h1; linarith
  · rw [div_lt_iff₀ (by norm_num)] at h2; linarith

theorem mod360_same (x : ℝ) : Spec.SameLon (mod360 x) x := ⟨-⌊x / 360⌋, by unfold mod360; push_cast; ring⟩

/-- The wrapped longitude of the code. -/
theorem wrap_facts (b : Bool) (x : ℝ) :
    let w := if !b then mod360 (x + 180) - 180 else mod360 x
    Spec.SameLon w x ∧ (if b then 0 ≤ w ∧ w < 360 else -180 ≤ w ∧ w < 180) := by
  cases b
  · obtain ⟨k, hk⟩ := mod360_same (x + 180)
    obtain ⟨h1, h2⟩ := mod360_range (x + 180)
    refine ⟨⟨k, ?_⟩, ?_⟩
    · simp only [Bool.not_false, if_true]; rw [hk]; ring
    · simp only [Bool.not_false, if_true, Bool.false_eq_true, if_false]
      constructor <;> linarith
  · exact ⟨mod360_same x, mod360_range x⟩

/-- C111: every column keeps its data and its place on the globe, and only the label changes: the columns returned are a rearrangement of
the caller's columns, relabelled with the same longitude in [0, 360) (`center_on_180=True`) or [-180, 180) (`center_on_180=False`). -/
theorem C111_columns {β : Type} (b : Bool) (cols : List (ℝ × β)) :
    ∃ lab : ℝ → ℝ, (∀ x, Spec.SameLon (lab x) x ∧ (if b then 0 ≤ lab x ∧ lab x < 360 else -180 ≤ lab x ∧ lab x < 180)) ∧
      (convertLongitude b cols).Perm (cols.map fun c => (lab c.1, c.2)) :=
  ⟨_, wrap_facts b, List.perm_insertionSort _ _⟩

/-- C111: the longitudes returned increase. -/
theorem C111_sorted {β : Type} (b : Bool) (cols : List (ℝ × β)) : (convertLongitude b cols).Pairwise fun p q => p.1 ≤ q.1 := by
  unfold convertLongitude
  have : Std.Total (fun p q : ℝ × β => p.1 ≤ q.1) := ⟨fun a b => le_total _ _⟩
  have : IsTrans (ℝ × β) (fun p q : ℝ × β => p.1 ≤ q.1) := ⟨fun a b c h1 h2 => le_trans h1 h2⟩
  exact List.pairwise_insertionSort _ _

/-- Two labels of one longitude in the same window of width 360 are equal. -/
theorem sameLon_unique {x y z lo : ℝ} (h1 : Spec.SameLon x z) (h2 : Spec.SameLon y z) (hx : lo ≤ x ∧ x < lo + 360) (hy : lo ≤ y ∧ y < lo + 360) : x = y := by
  obtain ⟨k, rfl⟩ := h1
  obtain ⟨l, rfl⟩ := h2
  have : k = l := by
    have h3 : (k : ℝ) - l < 1 := by linarith [hx.2, hy.1]
    have h4 : (l : ℝ) - k < 1 := by linarith [hx.1, hy.2]
    have h5 : k - l < 1 := by exact_mod_cast h3
    have h6 : l - k < 1 := by exact_mod_cast h4
    omega
  rw [this]

/-- The wrapping used for a flag. -/
noncomputable def wrap (b : Bool) (x : ℝ) : ℝ := if !b then mod360 (x + 180) - 180 else mod360 x

theorem wrap_window (b : Bool) (x : ℝ) : (if b then 0 else -180) ≤ wrap b x ∧ wrap b x < (if b then 0 else -180) + 360 := by
  have := (wrap_facts b x).2
  unfold wrap
  cases b
  · simp only [Bool.false_eq_true, if_false] at this ⊢
    exact ⟨this.1, by linarith [this.2]⟩
  · simp only [if_true] at this ⊢
    exact ⟨this.1, by linarith [this.2]⟩

theorem wrap_same (b : Bool) (x : ℝ) : Spec.SameLon (wrap b x) x := (wrap_facts b x).1

theorem wrap_comp (b c : Bool) (x : ℝ) : wrap b (wrap c x) = wrap b x := by
  refine sameLon_unique (z := x) ?_ (wrap_same b x) (wrap_window b _) (wrap_window b _)
  obtain ⟨k, hk⟩ := wrap_same b (wrap c x)
  obtain ⟨l, hl⟩ := wrap_same c x
  refine ⟨k + l, ?_⟩
  rw [hk, hl]; push_cast; ring

/-- The sorting relation on labelled columns. -/
theorem conv_eq {β : Type} (b : Bool) (cols : List (ℝ × β)) :
    convertLongitude b cols = (cols.map fun c => (wrap b c.1, c.2)).insertionSort fun p q => p.1 ≤ q.1 := rfl

theorem wrap_inj {b c : Bool} {x y : ℝ} (h : wrap b x = wrap b y) : wrap c x = wrap c y := by
  rw [← wrap_comp c b x, h, wrap_comp]

/-- Two lists sorted by distinct labels with the same members are equal. -/
theorem sorted_unique {β : Type} {l l' : List (ℝ × β)} (hp : l.Perm l') (h1 : l.Pairwise fun p q => p.1 ≤ q.1)
    (h2 : l'.Pairwise fun p q => p.1 ≤ q.1) (hd : (l.map Prod.fst).Nodup) : l = l' := by
  have up : ∀ {m : List (ℝ × β)}, m.Pairwise (fun p q => p.1 ≤ q.1) → (m.map Prod.fst).Nodup → m.Pairwise (fun p q => p.1 < q.1) := by
    intro m hm hn
    have hn' : m.Pairwise fun p q => p.1 ≠ q.1 := List.pairwise_map.mp hn
    exact (hm.and hn').imp fun h => lt_of_le_of_ne h.1 h.2
  have s1 := up h1 hd
  have s2 := up h2 ((hp.map Prod.fst).nodup_iff.mp hd)
  exact List.Perm.eq_of_pairwise (le := fun p q => p.1 < q.1) (fun a b _ _ h3 h4 => absurd (h3.trans h4) (lt_irrefl _)) s1 s2 hp

/-- C111: converting and converting back is the same as converting straight away (for columns at distinct longitudes): nothing is lost in
either direction, and converting twice in the same direction changes nothing. -/
theorem C111_round_trip {β : Type} (b c : Bool) (cols : List (ℝ × β)) (hd : cols.Pairwise fun p q => ¬ Spec.SameLon p.1 q.1) :
    convertLongitude b (convertLongitude c cols) = convertLongitude b cols := by
  refine sorted_unique ?_ (C111_sorted _ _) (C111_sorted _ _) ?_
  · rw [conv_eq, conv_eq, conv_eq]
    refine (List.perm_insertionSort _ _).trans ?_
    refine ((List.perm_insertionSort _ _).map _).trans ?_
    rw [List.map_map]
    refine List.Perm.trans ?_ (List.perm_insertionSort _ _).symm
    apply List.Perm.of_eq
    apply List.map_congr_left
    intro p _
    simp only [Function.comp, wrap_comp]
  · have p1 : ((convertLongitude b (convertLongitude c cols)).map Prod.fst).Perm (cols.map fun p => wrap b p.1) := by
      rw [conv_eq, conv_eq]
      refine ((List.perm_insertionSort _ _).map _).trans ?_
      rw [List.map_map]
      refine ((List.perm_insertionSort _ _).map _).trans ?_
      rw [List.map_map]
      apply List.Perm.of_eq
      apply List.map_congr_left
      intro p _
      simp only [Function.comp, wrap_comp]
    rw [p1.nodup_iff]
    refine List.pairwise_map.mpr (hd.imp ?_)
    intro p q h h0
    apply h
    obtain ⟨k, hk⟩ := wrap_same b p.1
    obtain ⟨l, hl⟩ := wrap_same b q.1
    refine ⟨l - k, ?_⟩
    rw [hk, hl] at h0
    push_cast; linarith

example : ([(0, "a"), (90, "b"), (180, "c"), (270, "d")] : List (ℝ × String)).Pairwise fun p q => ¬ Spec.SameLon p.1 q.1 := by
  have key : ∀ x y : ℝ, -360 < x - y → x - y < 0 → ¬ Spec.SameLon x y := by
    rintro x y h1 h2 ⟨k, rfl⟩
    have h3 : (k : ℝ) < 0 := by linarith
    have h4 : (-1 : ℝ) < k := by linarith
    have h5 : k < 0 := by exact_mod_cast h3
    have h6 : -1 < k := by exact_mod_cast h4
    omega
  simp only [List.pairwise_cons, List.mem_cons, List.not_mem_nil, or_false, forall_eq_or_imp, forall_eq]
  refine ⟨⟨?_, ?_, ?_⟩, ⟨?_, ?_⟩, ?_, ?_⟩ <;> first | (apply key <;> norm_num) | simp

/-- C111 fails as documented: the documentation says `center_on_180=True` wraps to -180..179, but a column at 200° keeps the label 200; the
two settings of the flag are exchanged. -/
theorem C111_direction_false : ∃ cols : List (ℝ × Unit), ∃ p ∈ convertLongitude true cols, ¬ (-180 ≤ p.1 ∧ p.1 < 180) := by
  refine ⟨[(200, ())], (200, ()), ?_, by norm_num⟩
  have : mod360 200 = 200 := by
    unfold mod360
    rw [show ⌊(200 : ℝ) / 360⌋ = 0 by rw [Int.floor_eq_iff]; norm_num]
    norm_num
  simp [convertLongitude, this]

/-! ### C112 -/

/-- C112: potential temperature is the temperature the air would have at the reference pressure: it equals the temperature there, air moved
along a dry adiabat (`T ∝ p^0.286`) keeps it, and it is linear in temperature. -/
theorem C112_adiabat {T p p0 : ℝ} (hp : 0 < p) (h0 : 0 < p0) :
    potentialTemperature T p0 p0 = T ∧
    (∀ q, 0 < q → potentialTemperature (T * (q / p) ^ (286 / 1000 : ℝ)) q p0 = potentialTemperature T p p0) ∧
    (∀ c, potentialTemperature (c * T) p p0 = c * potentialTemperature T p p0) := by
  unfold potentialTemperature
  refine ⟨by rw [div_self h0.ne', Real.one_rpow, mul_one], fun q hq => ?_, fun c => by ring⟩
  rw [mul_assoc, ← Real.mul_rpow (div_pos hq hp).le (div_pos h0 hq).le]
  congr 2
  field_simp

/-- C112: at fixed positive temperature it decreases strictly with pressure, it exceeds the temperature exactly above the reference level,
and the reference pressure can be changed afterwards. -/
theorem C112_monotone {T p q p0 p1 : ℝ} (hT : 0 < T) (hp : 0 < p) (hq : 0 < q) (h0 : 0 < p0) (h1 : 0 < p1) :
    (p < q ↔ potentialTemperature T q p0 < potentialTemperature T p p0) ∧ (p < p0 ↔ T < potentialTemperature T p p0) ∧
    potentialTemperature (potentialTemperature T p p0) p0 p1 = potentialTemperature T p p1 := by
  have key : ∀ {p q : ℝ}, 0 < p → 0 < q → (p < q ↔ potentialTemperature T q p0 < potentialTemperature T p p0) := by
    intro p q hp hq
    unfold potentialTemperature
    rw [mul_lt_mul_iff_right₀ hT, Real.rpow_lt_rpow_iff (div_pos h0 hq).le (div_pos h0 hp).le (by norm_num), div_lt_div_iff_of_pos_left h0 hq hp]
  refine ⟨key hp hq, ?_, ?_⟩
  · rw [key hp h0, (C112_adiabat (T := T) hp h0).1]
  · unfold potentialTemperature
    rw [mul_assoc, ← Real.mul_rpow (div_pos h0 hp).le (div_pos h1 h0).le]
    congr 2
    field_simp

end Skyborn.Stats
