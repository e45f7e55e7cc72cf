/-
C304-C311: `interp_multidim`.
-/
import Verif.Interp.Multi

namespace Skyborn.Interp.Multi

variable {α : Type} [Field α] [LinearOrder α] [IsStrictOrderedRing α]

/-! ## Statements used below -/

/-- The data point has a number, and it is not the one that stands for missing. -/
def Spec.Present (missing : Option α) (v : Option α) (z : α) : Prop := v = some z ∧ missing ≠ some z

/-- Row or column `i` is nearest to `q`, the lower one of two equally near. -/
structure Spec.Nearest (x : List α) (i : ℕ) (q : α) : Prop where
  lt : i < x.length
  near : ∀ k < x.length, |q - x.getD i 0| ≤ |q - x.getD k 0|
  lower : ∀ k < x.length, x.getD k 0 < x.getD i 0 → |q - x.getD i 0| < |q - x.getD k 0|

/-! ## Lemmas -/

private theorem hide_present {missing v : Option α} {z : α} (h : Spec.Present missing v z) : hideMissing missing v = some z := by
  unfold hideMissing
  rw [if_neg]
  · exact h.1
  · rintro ⟨_, h'⟩
    rw [h.1] at h'
    exact h.2 h'.symm

private theorem hide_missing {missing v : Option α} (h : ¬ ∃ z, Spec.Present missing v z) : hideMissing missing v = none := by
  unfold hideMissing
  split_ifs with h'
  · rfl
  · cases v with
    | none => rfl
    | some z =>
      exfalso
      refine h ⟨z, rfl, fun e => h' ⟨by rw [e]; rfl, e.symm⟩⟩

/-- The value without the padding. -/
private theorem multi_eq (d : Data α) (latOut lonOut : List α) (missing : Option α) (m : Method) (fill : Fill α) (h1 : Spec.Distinct d.lat)
    (h2 : Spec.Distinct d.lon) : multi d latOut lonOut false missing m fill = some ⟨d.extra, latOut, lonOut, fun e l k =>
      showMissing missing (interp1 m fill (sorted d.lat) (fun j => interp1 m fill (sorted d.lon)
        (fun i => hideMissing missing (d.val e ((argsort d.lat).getD j 0) ((argsort d.lon).getD i 0))) (lonOut.getD k 0)) (latOut.getD l 0))⟩ := by
  unfold multi xrInterp
  dsimp only [Bool.false_eq_true]
  rw [if_neg (by simp), Option.bind_some, if_neg (not_not.2 ⟨(sorted_inc_iff _).2 h1, (sorted_inc_iff _).2 h2⟩)]
  rfl

private theorem between_range {x : List α} (hd : Spec.Distinct x) {i i' : ℕ} {q s : α} (h : Spec.Between x i i' q s) :
    ¬ (q < (sorted x).getD 0 0 ∨ (sorted x).getD ((sorted x).length - 1) 0 < q) := by
  have hb := sorted_bounds (x := x) (by have := h.lt; omega)
  have h1 := (hb i h.lt).1
  have h2 := (hb i' h.lt').2
  have hu := h.up
  have hn := h.nonneg
  have hl := h.le_one
  rw [sorted_length, h.pos]
  push Not
  constructor <;> nlinarith

private theorem interp1_inside {m : Method} {fill : Fill α} {x : List α} {q : α} (y : ℕ → Option α)
    (h : ¬ (q < x.getD 0 0 ∨ x.getD (x.length - 1) 0 < q)) : interp1 m fill x y q = core1 m x y q := by
  unfold interp1
  cases fill with
  | extrapolate => rfl
  | value c => dsimp only; rw [if_neg h]

private theorem lin1_congr {x : List α} {y y' : ℕ → Option α} (h2 : 2 ≤ x.length) (h : ∀ i < x.length, y i = y' i) (q : α) : lin1 x y q = lin1 x y' q := by
  have : min (max (search x q) 1) (x.length - 1) < x.length := by omega
  unfold lin1
  dsimp only
  rw [h _ (by omega), h _ this]

private theorem interp1_congr {m : Method} {fill : Fill α} {x : List α} {y y' : ℕ → Option α} (h2 : 2 ≤ x.length) (h : ∀ i < x.length, y i = y' i) (q : α) :
    interp1 m fill x y q = interp1 m fill x y' q := by
  have hc : core1 m x y q = core1 m x y' q := by
    cases m with
    | linear => exact lin1_congr h2 h q
    | nearest => unfold core1 near1; exact h _ (by omega)
  unfold interp1
  rw [hc]

private theorem interp1_lin {fill : Fill α} {x : List α} (hd : Spec.Distinct x) {i i' : ℕ} {q s : α} (h : Spec.Between x i i' q s) (y : ℕ → Option α)
    (g : ℕ → α) (hy : ∀ k < x.length, y ((argsort x).getD k 0) = some (g ((argsort x).getD k 0))) :
    interp1 .linear fill (sorted x) (fun k => y ((argsort x).getD k 0)) q = some ((1 - s) * g i + s * g i') := by
  obtain ⟨k, hk, e, e'⟩ := between_sorted hd h
  have hi := (sorted_inc_iff x).2 hd
  have hl := sorted_length x
  rw [interp1_inside _ (between_range hd h)]
  change lin1 (sorted x) (fun k => y ((argsort x).getD k 0)) q = _
  rw [lin1_congr (by omega) (y' := fun k => some (g ((argsort x).getD k 0))) (fun i hi => hy i (by omega))]
  have := lin1_between hi (fun k => g ((argsort x).getD k 0)) (k := k) (by omega) h.nonneg h.le_one (q := q) (by
    rw [h.pos, sorted_getD x (by omega), sorted_getD x hk, e, e'])
  rw [this, e, e']

/-! ## Complete data -/

/-- C304: without missing data, `linear` gives at a point between neighbouring rows and columns the linear combination of the four values around
it, whatever the order of rows and columns, for every leading index; the result has the shape asked for. -/
theorem C304_linear (d : Data α) (latOut lonOut : List α) (missing : Option α) (fill : Fill α) (hlat : Spec.Distinct d.lat)
    (hlon : Spec.Distinct d.lon) (g : List ℕ → ℕ → ℕ → α)
    (hg : ∀ e, ∀ j < d.lat.length, ∀ i < d.lon.length, Spec.Present missing (d.val e j i) (g e j i)) :
    ∃ r, multi d latOut lonOut false missing .linear fill = some r ∧ r.extra = d.extra ∧ r.lat = latOut ∧ r.lon = lonOut ∧
      ∀ e l k j j' i i' s t, Spec.Between d.lat j j' (latOut.getD l 0) t → Spec.Between d.lon i i' (lonOut.getD k 0) s →
        r.val e l k = some ((1 - t) * ((1 - s) * g e j i + s * g e j i') + t * ((1 - s) * g e j' i + s * g e j' i')) := by
  refine ⟨_, multi_eq d latOut lonOut missing .linear fill hlat hlon, rfl, rfl, rfl, fun e l k j j' i i' s t h1 h2 => ?_⟩
  dsimp only
  have inner : ∀ j < d.lat.length, interp1 .linear fill (sorted d.lon) (fun i => hideMissing missing (d.val e j ((argsort d.lon).getD i 0)))
      (lonOut.getD k 0) = some ((1 - s) * g e j i + s * g e j i') := by
    intro j hj
    exact interp1_lin hlon h2 (fun i => hideMissing missing (d.val e j i)) (fun i => g e j i)
      (fun k hk => hide_present (hg e j hj _ (argsort_lt _ hk)))
  rw [interp1_lin hlat h1 (fun j => interp1 .linear fill (sorted d.lon) (fun i => hideMissing missing (d.val e j ((argsort d.lon).getD i 0)))
      (lonOut.getD k 0)) (fun j => (1 - s) * g e j i + s * g e j i') (fun k hk => inner _ (argsort_lt _ hk))]
  rfl

private theorem outside_sorted {x : List α} (h0 : 0 < x.length) {q : α} (h : Spec.Outside x q) :
    q < (sorted x).getD 0 0 ∨ (sorted x).getD ((sorted x).length - 1) 0 < q := by
  have mem : ∀ i < x.length, (sorted x).getD i 0 ∈ x := by
    intro i hi
    rw [sorted_getD x hi, getD_lt (argsort_lt x hi)]
    exact List.getElem_mem _
  rcases h with h | h
  · exact Or.inl (h _ (mem 0 h0))
  · right; rw [sorted_length]; exact h _ (mem _ (by omega))

/-- C305: a call without `cyclic` fails exactly if a coordinate occurs twice; with a fill value (or NaN) every point outside the rows or outside
the columns gets it, whatever the data, and NaN is given as the missing value if there is one. -/
theorem C305_outside (d : Data α) (latOut lonOut : List α) (missing : Option α) (m : Method) (c : Option α) (h2 : 2 ≤ d.lat.length)
    (h2' : 2 ≤ d.lon.length) :
    (multi d latOut lonOut false missing m (.value c) = none ↔ ¬ (Spec.Distinct d.lat ∧ Spec.Distinct d.lon)) ∧
    ∀ r, multi d latOut lonOut false missing m (.value c) = some r → ∀ e l k,
      Spec.Outside d.lat (latOut.getD l 0) ∨ Spec.Outside d.lon (lonOut.getD k 0) → r.val e l k = if c = none then missing else c := by
  have hnone : ¬ (Spec.Distinct d.lat ∧ Spec.Distinct d.lon) → multi d latOut lonOut false missing m (.value c) = none := by
    intro h
    unfold multi xrInterp
    dsimp only [Bool.false_eq_true]
    rw [if_neg (by simp), Option.bind_some, if_pos]
    · rfl
    · rwa [sorted_inc_iff, sorted_inc_iff]
  refine ⟨⟨fun h hd => ?_, hnone⟩, fun r hr e l k ho => ?_⟩
  · rw [multi_eq d latOut lonOut missing m _ hd.1 hd.2] at h; cases h
  have hd : Spec.Distinct d.lat ∧ Spec.Distinct d.lon := by
    by_contra hn
    rw [hnone hn] at hr; cases hr
  rw [multi_eq d latOut lonOut missing m _ hd.1 hd.2] at hr
  obtain rfl := Option.some.inj hr
  dsimp only
  have hshow : showMissing missing c = if c = none then missing else c := by
    unfold showMissing
    cases c with
    | none => simp
    | some z => simp
  by_cases hl : Spec.Outside d.lat (latOut.getD l 0)
  · have := outside_sorted (by omega) hl
    unfold interp1
    dsimp only
    rw [if_pos this, hshow]
  · have hk := outside_sorted (by omega) (ho.resolve_left hl)
    have inner : ∀ j, interp1 m (.value c) (sorted d.lon) (fun i => hideMissing missing (d.val e ((argsort d.lat).getD j 0) ((argsort d.lon).getD i 0)))
        (lonOut.getD k 0) = c := by
      intro j
      unfold interp1
      dsimp only
      rw [if_pos hk]
    simp only [inner]
    rw [← hshow]
    congr 1
    unfold interp1
    dsimp only
    split_ifs
    · rfl
    · cases m with
      | nearest => rfl
      | linear =>
        unfold core1 lin1
        cases c <;> simp

/-! ## Missing data -/

/-- C306, expected: a call for the coordinates of a data point returns the number there. -/
def C306_statement : Prop :=
  ∀ (d r : Data ℚ) (latOut lonOut : List ℚ) (missing : Option ℚ), multi d latOut lonOut false missing .linear (.value none) = some r →
    2 ≤ d.lat.length → 2 ≤ d.lon.length → ∀ e l k j i z, j < d.lat.length → i < d.lon.length → latOut.getD l 0 = d.lat.getD j 0 →
      lonOut.getD k 0 = d.lon.getD i 0 → Spec.Present missing (d.val e j i) z → r.val e l k = some z

private theorem interp1_open {fill : Fill α} {x : List α} (hd : Spec.Distinct x) {i i' : ℕ} {q s : α} (h : Spec.Between x i i' q s) (hs : 0 < s)
    (y : ℕ → Option α) : interp1 .linear fill (sorted x) (fun k => y ((argsort x).getD k 0)) q =
      match y i, y i' with
      | some a, some b => some ((1 - s) * a + s * b)
      | _, _ => none := by
  obtain ⟨k, hk, e, e'⟩ := between_sorted hd h
  have hi := (sorted_inc_iff x).2 hd
  have hl := sorted_length x
  have hle := h.le_one
  have hp := sub_pos.2 (hi k (by omega))
  have hq : q = (1 - s) * (sorted x).getD k 0 + s * (sorted x).getD (k + 1) 0 := by
    rw [h.pos, sorted_getD x (by omega), sorted_getD x hk, e, e']
  rw [interp1_inside _ (between_range hd h)]
  change lin1 (sorted x) (fun k => y ((argsort x).getD k 0)) q = _
  unfold lin1
  rw [search_inc hi (k := k) (by omega) (by rw [hq]; nlinarith) (by rw [hq]; nlinarith),
    show min (max (k + 1) 1) ((sorted x).length - 1) = k + 1 by omega]
  dsimp only
  rw [Nat.add_sub_cancel, e, e']
  cases y i with
  | none => rfl
  | some a => cases y i' with
    | none => rfl
    | some b =>
      simp only [Option.some.injEq]
      rw [hq]
      field_simp
      ring

/-- C306, what holds: above the lower row and beyond the left column of its cell, a point gets the combination of the four values around it if
all four are present, and is missing as soon as one of them is, even if its weight is zero. -/
theorem C306_partial (d r : Data α) (latOut lonOut : List α) (missing : Option α) (fill : Fill α)
    (hr : multi d latOut lonOut false missing .linear fill = some r) (e : List ℕ) (l k j j' i i' : ℕ) (s t : α)
    (h1 : Spec.Between d.lat j j' (latOut.getD l 0) t) (h2 : Spec.Between d.lon i i' (lonOut.getD k 0) s) (ht : 0 < t) (hs : 0 < s) :
    (∀ a b a' b', Spec.Present missing (d.val e j i) a → Spec.Present missing (d.val e j i') b → Spec.Present missing (d.val e j' i) a' →
      Spec.Present missing (d.val e j' i') b' → r.val e l k = some ((1 - t) * ((1 - s) * a + s * b) + t * ((1 - s) * a' + s * b'))) ∧
    ((∃ v ∈ [d.val e j i, d.val e j i', d.val e j' i, d.val e j' i'], ¬ ∃ z, Spec.Present missing v z) → r.val e l k = missing) := by
  have hd : Spec.Distinct d.lat ∧ Spec.Distinct d.lon := by
    by_contra hn
    unfold multi xrInterp at hr
    dsimp only [Bool.false_eq_true] at hr
    rw [if_neg (by simp), Option.bind_some, if_pos (by rwa [sorted_inc_iff, sorted_inc_iff])] at hr
    cases hr
  rw [multi_eq d latOut lonOut missing .linear fill hd.1 hd.2] at hr
  obtain rfl := Option.some.inj hr
  dsimp only
  rw [interp1_open hd.1 h1 ht (fun j => interp1 .linear fill (sorted d.lon) (fun i => hideMissing missing (d.val e j ((argsort d.lon).getD i 0)))
    (lonOut.getD k 0))]
  have inner : ∀ j, interp1 .linear fill (sorted d.lon) (fun i => hideMissing missing (d.val e j ((argsort d.lon).getD i 0))) (lonOut.getD k 0) = _ :=
    fun j => interp1_open hd.2 h2 hs (fun i => hideMissing missing (d.val e j i))
  rw [inner, inner]
  constructor
  · intro a b a' b' p1 p2 p3 p4
    rw [hide_present p1, hide_present p2, hide_present p3, hide_present p4]
    rfl
  · rintro ⟨v, hv, hn⟩
    have := hide_missing hn
    have hshow : showMissing missing none = missing := by unfold showMissing; simp
    refine Eq.trans (congrArg (showMissing missing) ?_) hshow
    simp only [List.mem_cons, List.not_mem_nil, or_false] at hv
    have key : ∀ A B C D : Option α, (A = none ∨ B = none ∨ C = none ∨ D = none) →
        (match (match A, B with
          | some a, some b => some ((1 - s) * a + s * b)
          | _, _ => none), (match C, D with
          | some a, some b => some ((1 - s) * a + s * b)
          | _, _ => none) with
        | some a, some b => some ((1 - t) * a + t * b)
        | _, _ => none) = none := by
      intro A B C D h
      cases A <;> cases B <;> cases C <;> cases D <;> simp_all
    refine key _ _ _ _ ?_
    rcases hv with rfl | rfl | rfl | rfl
    · exact Or.inl this
    · exact Or.inr (Or.inl this)
    · exact Or.inr (Or.inr (Or.inl this))
    · exact Or.inr (Or.inr (Or.inr this))

/-! ## Cyclic longitudes -/

/-- The longitudes with one more on either side. -/
def Spec.wide (x : List α) : List α := (x.getD (x.length - 1) 0 - 360) :: x ++ [x.getD 0 0 + 360]

private theorem wide_getD (x : List α) (i : ℕ) : (Spec.wide x).getD i 0 =
    if i = 0 then x.getD (x.length - 1) 0 - 360 else if i = x.length + 1 then x.getD 0 0 + 360 else x.getD (i - 1) 0 := by
  unfold Spec.wide
  cases i with
  | zero => simp
  | succ i =>
    rw [List.cons_append, List.getD_cons_succ, if_neg (by omega), Nat.add_sub_cancel, List.getD_eq_getElem?_getD]
    rcases lt_trichotomy i x.length with h | h | h
    · rw [List.getElem?_append_left h, if_neg (by omega), List.getD_eq_getElem?_getD]
    · subst h; rw [List.getElem?_append_right le_rfl]; simp
    · rw [List.getElem?_eq_none (by simp; omega), if_neg (by omega), List.getD_eq_getElem?_getD, List.getElem?_eq_none (by omega)]

private theorem wide_length (x : List α) : (Spec.wide x).length = x.length + 2 := by unfold Spec.wide; simp

private theorem wide_inc {x : List α} (h : Inc x) (h2 : 1 ≤ x.length) (hs : x.getD (x.length - 1) 0 - x.getD 0 0 < 360) : Inc (Spec.wide x) := by
  intro i hi
  rw [wide_length] at hi
  rw [wide_getD, wide_getD]
  rw [if_neg (by omega : ¬ i + 1 = 0), if_neg (by omega : ¬ i = x.length + 1)]
  rcases Nat.eq_zero_or_pos i with rfl | h0
  · rw [if_pos rfl, if_neg (by omega), Nat.zero_add, Nat.sub_self]; linarith
  · rw [if_neg (by omega), Nat.add_sub_cancel]
    by_cases hl : i = x.length
    · subst hl; rw [if_pos rfl]; linarith
    · rw [if_neg (by omega)]
      have := inc_lt h (show i - 1 < i by omega) (by omega)
      exact this

private theorem multi_cyclic (d : Data α) (he : d.extra = []) (latOut lonOut : List α) (missing : Option α) (m : Method) (fill : Fill α) :
    multi d latOut lonOut true missing m fill = multi ⟨d.extra, d.lat, Spec.wide d.lon,
      fun e j i => if i = 0 then d.val e j (d.lon.length - 1) else if i = d.lon.length + 1 then d.val e j 0 else d.val e j (i - 1)⟩
      latOut lonOut false missing m fill := by
  unfold multi pad
  dsimp only [Bool.false_eq_true]
  rw [if_pos rfl, if_neg (not_not.2 he), if_neg (by simp : ¬ (false = true)), Option.bind_some, Option.bind_some]
  congr 2
  unfold Spec.wide
  congr 1
  funext e j i
  split_ifs <;> rfl

private theorem inc_distinct {x : List α} (h : Inc x) : Spec.Distinct x := by
  intro i hi k hk hik
  rcases lt_trichotomy i k with h' | h' | h'
  · exact absurd hik (inc_lt h h' hk).ne
  · exact h'
  · exact absurd hik (inc_lt h h' hi).ne'

private theorem inc_between {x : List α} (h : Inc x) {k : ℕ} (hk : k + 1 < x.length) {q s : α} (h0 : 0 ≤ s) (h1 : s ≤ 1)
    (hq : q = (1 - s) * x.getD k 0 + s * x.getD (k + 1) 0) : Spec.Between x k (k + 1) q s :=
  ⟨by omega, hk, h k (by omega), fun i hi => by
    rcases Nat.lt_or_ge k i with h' | h'
    · exact Or.inr (inc_le h (by omega) hi)
    · exact Or.inl (inc_le h h' (by omega)), h0, h1, hq⟩

/-- C307: with `cyclic`, ascending longitudes over less than 360 degrees and no missing data, a point between column `i` and the next one
(the first one, 360 degrees on, after the last) gets the linear combination of the four values around it; the part across the seam may be
given at either end. -/
theorem C307_cyclic (d : Data α) (he : d.extra = []) (latOut lonOut : List α) (missing : Option α) (fill : Fill α) (hlat : Spec.Distinct d.lat)
    (hlon : Inc d.lon) (hn : 1 ≤ d.lon.length) (hspan : d.lon.getD (d.lon.length - 1) 0 - d.lon.getD 0 0 < 360) (g : ℕ → ℕ → α)
    (hg : ∀ e, ∀ j < d.lat.length, ∀ i < d.lon.length, Spec.Present missing (d.val e j i) (g j i)) :
    ∃ r, multi d latOut lonOut true missing .linear fill = some r ∧ r.lat = latOut ∧ r.lon = lonOut ∧
      ∀ e l k j j' i s t, Spec.Between d.lat j j' (latOut.getD l 0) t → i < d.lon.length → 0 ≤ s → s ≤ 1 →
        ((i + 1 < d.lon.length ∧ lonOut.getD k 0 = (1 - s) * d.lon.getD i 0 + s * d.lon.getD (i + 1) 0) ∨
          (i + 1 = d.lon.length ∧ lonOut.getD k 0 = (1 - s) * d.lon.getD i 0 + s * (d.lon.getD 0 0 + 360)) ∨
          (i + 1 = d.lon.length ∧ lonOut.getD k 0 = (1 - s) * (d.lon.getD i 0 - 360) + s * d.lon.getD 0 0)) →
        r.val e l k = some ((1 - t) * ((1 - s) * g j i + s * g j ((i + 1) % d.lon.length)) +
          t * ((1 - s) * g j' i + s * g j' ((i + 1) % d.lon.length))) := by
  rw [multi_cyclic d he]
  have hw := wide_inc hlon hn hspan
  have hl := wide_length d.lon
  obtain ⟨r, h1, -, h2, h3, h4⟩ := C304_linear ⟨d.extra, d.lat, Spec.wide d.lon,
      fun e j i => if i = 0 then d.val e j (d.lon.length - 1) else if i = d.lon.length + 1 then d.val e j 0 else d.val e j (i - 1)⟩
      latOut lonOut missing fill hlat (inc_distinct hw)
      (fun _ j i => if i = 0 then g j (d.lon.length - 1) else if i = d.lon.length + 1 then g j 0 else g j (i - 1)) (by
        intro e j hj i hi
        dsimp only at hi ⊢
        split_ifs
        · exact hg e j hj _ (by omega)
        · exact hg e j hj _ (by omega)
        · exact hg e j hj _ (by omega))
  refine ⟨r, h1, h2, h3, fun e l k j j' i s t hb hi hs0 hs1 hc => ?_⟩
  rcases hc with ⟨hi', hq⟩ | ⟨hi', hq⟩ | ⟨hi', hq⟩
  · have := h4 e l k j j' (i + 1) (i + 2) s t hb (inc_between hw (by omega) hs0 hs1 (by
      rw [hq, wide_getD, wide_getD, if_neg (by omega), if_neg (by omega), if_neg (by omega), if_neg (by omega), Nat.add_sub_cancel,
        show i + 1 + 1 - 1 = i + 1 by omega]))
    rw [this, Nat.mod_eq_of_lt hi']
    simp only [show ¬ i + 1 = 0 by omega, show ¬ i + 2 = 0 by omega, show ¬ i + 1 = d.lon.length + 1 by omega, show ¬ i + 2 = d.lon.length + 1 by omega,
      if_false, Nat.add_sub_cancel, show i + 2 - 1 = i + 1 by omega]
  · have := h4 e l k j j' (i + 1) (i + 2) s t hb (inc_between hw (by omega) hs0 hs1 (by
      rw [hq, wide_getD, wide_getD, if_neg (by omega), if_neg (by omega), if_neg (by omega), if_pos (by omega), Nat.add_sub_cancel]))
    rw [this, hi', Nat.mod_self]
    simp only [show ¬ i + 1 = 0 by omega, show ¬ i + 2 = 0 by omega, show ¬ d.lon.length = 0 by omega, show ¬ d.lon.length = d.lon.length + 1 by omega,
      show i + 2 = d.lon.length + 1 by omega, show ¬ d.lon.length + 1 = 0 by omega,
      if_false, if_true, show d.lon.length - 1 = i by omega]
  · have := h4 e l k j j' 0 1 s t hb (inc_between hw (by omega) hs0 hs1 (by
      rw [hq, wide_getD, wide_getD, if_pos rfl, if_neg (by omega), if_neg (by omega), show d.lon.length - 1 = i by omega]))
    rw [this, hi', Nat.mod_self]
    simp only [show ¬ (1 : ℕ) = 0 by omega, show ¬ 1 = d.lon.length + 1 by omega, if_false, if_true, show d.lon.length - 1 = i by omega, Nat.sub_self]

/-- C308, expected: with `cyclic` the order of the longitudes does not matter. -/
def C308_statement : Prop :=
  ∀ (d : Data ℚ) (latOut lonOut : List ℚ) (e : List ℕ) (l k : ℕ), d.extra = [] → Spec.Distinct d.lat → Inc d.lon.reverse →
    d.lon.getD 0 0 - d.lon.getD (d.lon.length - 1) 0 < 360 → ∀ r r' : Data ℚ, multi d latOut lonOut true none .linear (.value none) = some r →
      multi { d with lon := d.lon.reverse, val := fun e j i => d.val e j (d.lon.length - 1 - i) } latOut lonOut true none .linear (.value none) = some r' →
      r.val e l k = r'.val e l k

/-- C309, expected: `cyclic` works for any number of leading dimensions. -/
def C309_statement : Prop :=
  ∀ (d : Data ℚ) (latOut lonOut : List ℚ) (missing : Option ℚ) (m : Method) (fill : Fill ℚ), Inc d.lat → Inc d.lon →
    d.lon.getD (d.lon.length - 1) 0 - d.lon.getD 0 0 < 360 → 2 ≤ d.lat.length → 2 ≤ d.lon.length →
    multi d latOut lonOut true missing m fill ≠ none

/-- C309: with leading dimensions `cyclic` always fails; without them it works. -/
theorem C309_partial (d : Data α) (latOut lonOut : List α) (missing : Option α) (m : Method) (fill : Fill α) (h1 : Inc d.lat) (h2 : Inc d.lon)
    (hspan : d.lon.getD (d.lon.length - 1) 0 - d.lon.getD 0 0 < 360) (hn : 1 ≤ d.lon.length) :
    multi d latOut lonOut true missing m fill = none ↔ d.extra ≠ [] := by
  by_cases he : d.extra = []
  · have h := multi_eq (⟨d.extra, d.lat, Spec.wide d.lon, fun e j i => if i = 0 then d.val e j (d.lon.length - 1) else
      if i = d.lon.length + 1 then d.val e j 0 else d.val e j (i - 1)⟩ : Data α) latOut lonOut missing m fill (inc_distinct h1)
      (inc_distinct (wide_inc h2 hn hspan))
    rw [multi_cyclic d he, h]
    simp [he]
  · unfold multi pad
    dsimp only
    rw [if_pos rfl, if_pos he]
    simp [he]

/-! ## Nearest, extrapolation -/

private theorem search_spec {x : List α} (h : Inc x) (q : α) : search x q ≤ x.length ∧ ∀ i < x.length, x.getD i 0 < q ↔ i < search x q := by
  have hex : ∃ m, x.length ≤ m ∨ q ≤ x.getD m 0 := ⟨x.length, Or.inl le_rfl⟩
  classical
  have hs := Nat.find_spec hex
  have hm : ∀ i < Nat.find hex, i < x.length ∧ x.getD i 0 < q := fun i hi => by
    have := Nat.find_min hex hi
    push Not at this
    exact this
  have hle : Nat.find hex ≤ x.length := Nat.find_min' hex (Or.inl le_rfl)
  have key : ∀ i < x.length, x.getD i 0 < q ↔ i < Nat.find hex := by
    intro i hi
    refine ⟨fun h' => ?_, fun h' => (hm i h').2⟩
    by_contra hn
    rcases hs with h3 | h3
    · omega
    · exact absurd (inc_le h (show Nat.find hex ≤ i by omega) hi) (not_le.2 (lt_of_lt_of_le h' h3))
  rw [search_eq hle key]
  exact ⟨hle, key⟩

private theorem near_index {x : List α} (h : Inc x) (h2 : 2 ≤ x.length) (q : α) : Spec.Nearest x (min (search (mids x) q) (x.length - 1)) q := by
  have hlen : (mids x).length = x.length - 1 := by unfold mids; simp
  have hget : ∀ i < x.length - 1, (mids x).getD i 0 = x.getD (i + 1) 0 / 2 + x.getD i 0 / 2 := by
    intro i hi
    rw [getD_lt (by omega)]
    simp [mids]
  have hinc : Inc (mids x) := by
    intro i hi
    rw [hlen] at hi
    rw [hget i (by omega), hget (i + 1) (by omega)]
    have := inc_lt h (show i < i + 1 by omega) (by omega)
    have := inc_lt h (show i + 1 < i + 1 + 1 by omega) (by omega)
    linarith
  obtain ⟨hle, hs⟩ := search_spec hinc q
  rw [hlen] at hle hs
  rw [min_eq_left (by omega)]
  generalize search (mids x) q = k at *
  have low : ∀ i < x.length, i < k → |q - x.getD k 0| < |q - x.getD i 0| := by
    intro i hi hik
    have h1 := (hs (k - 1) (by omega)).2 (by omega)
    rw [hget (k - 1) (by omega), show k - 1 + 1 = k by omega] at h1
    have h3 := inc_le h (show i ≤ k - 1 by omega) (by omega)
    have h4 := inc_lt h (show k - 1 < k by omega) (by omega)
    rw [abs_of_pos (show 0 < q - x.getD i 0 by linarith), abs_lt]
    constructor <;> linarith
  have high : ∀ i < x.length, k < i → |q - x.getD k 0| ≤ |q - x.getD i 0| := by
    intro i hi hik
    have h1 := not_lt.1 fun h' => absurd ((hs k (by omega)).1 h') (lt_irrefl _)
    rw [hget k (by omega)] at h1
    have h3 := inc_le h (show k + 1 ≤ i by omega) (by omega)
    have h4 := inc_lt h (show k < k + 1 by omega) (by omega)
    rw [abs_of_nonpos (show q - x.getD i 0 ≤ 0 by linarith), abs_le]
    constructor <;> linarith
  refine ⟨by omega, fun i hi => ?_, fun i hi hlt => ?_⟩
  · rcases lt_trichotomy i k with h' | rfl | h'
    · exact (low i hi h').le
    · exact le_rfl
    · exact high i hi h'
  · refine low i hi ?_
    by_contra hn
    exact absurd (inc_le h (show k ≤ i by omega) hi) (not_le.2 hlt)

private theorem near_sorted {x : List α} (hd : Spec.Distinct x) (h2 : 2 ≤ x.length) (q : α) :
    Spec.Nearest x ((argsort x).getD (min (search (mids (sorted x)) q) ((sorted x).length - 1)) 0) q := by
  have hl := sorted_length x
  have h := near_index ((sorted_inc_iff x).2 hd) (by omega) q
  generalize min (search (mids (sorted x)) q) ((sorted x).length - 1) = k at *
  have hk := h.lt
  rw [hl] at hk
  refine ⟨argsort_lt x hk, fun i hi => ?_, fun i hi hlt => ?_⟩
  · obtain ⟨a, ha, rfl⟩ := argsort_surj x hi
    rw [← sorted_getD x hk, ← sorted_getD x ha]
    exact h.near a (by omega)
  · obtain ⟨a, ha, rfl⟩ := argsort_surj x hi
    rw [← sorted_getD x hk, ← sorted_getD x ha] at *
    exact h.lower a (by omega) hlt

/-- C310: `nearest` gives every point within the rows and columns (every point at all with "extrapolate") the value of the data point nearest in
latitude and nearest in longitude, the lower one of two equally near, missing or not. -/
theorem C310_nearest (d r : Data α) (latOut lonOut : List α) (missing : Option α) (fill : Fill α) (h2 : 2 ≤ d.lat.length) (h2' : 2 ≤ d.lon.length)
    (hr : multi d latOut lonOut false missing .nearest fill = some r) (e : List ℕ) (l k : ℕ)
    (hin : fill = .extrapolate ∨ (∃ j j' t, Spec.Between d.lat j j' (latOut.getD l 0) t) ∧ ∃ i i' s, Spec.Between d.lon i i' (lonOut.getD k 0) s) :
    ∃ j i, Spec.Nearest d.lat j (latOut.getD l 0) ∧ Spec.Nearest d.lon i (lonOut.getD k 0) ∧
      (∀ z, Spec.Present missing (d.val e j i) z → r.val e l k = some z) ∧ ((¬ ∃ z, Spec.Present missing (d.val e j i) z) → r.val e l k = missing) := by
  have hd : Spec.Distinct d.lat ∧ Spec.Distinct d.lon := by
    by_contra hn
    unfold multi xrInterp at hr
    dsimp only [Bool.false_eq_true] at hr
    rw [if_neg (by simp), Option.bind_some, if_pos (by rwa [sorted_inc_iff, sorted_inc_iff])] at hr
    cases hr
  rw [multi_eq d latOut lonOut missing .nearest fill hd.1 hd.2] at hr
  obtain rfl := Option.some.inj hr
  dsimp only
  have hcore : ∀ (x : List α) (y : ℕ → Option α) (q : α), (fill = .extrapolate ∨ ¬ (q < x.getD 0 0 ∨ x.getD (x.length - 1) 0 < q)) →
      interp1 .nearest fill x y q = near1 x y q := by
    intro x y q h
    rcases h with rfl | h
    · rfl
    · exact interp1_inside y h
  rw [hcore _ _ _ (hin.imp id fun h => between_range hd.1 h.1.choose_spec.choose_spec.choose_spec)]
  unfold near1
  dsimp only
  rw [hcore _ _ _ (hin.imp id fun h => between_range hd.2 h.2.choose_spec.choose_spec.choose_spec)]
  unfold near1
  refine ⟨_, _, near_sorted hd.1 h2 _, near_sorted hd.2 h2' _, fun z hz => ?_, fun hz => ?_⟩
  · dsimp only; rw [hide_present hz]; rfl
  · dsimp only; rw [hide_missing hz]; unfold showMissing; simp

/-- C311: with "extrapolate" a field `a + b x + c y + f x y` is reproduced at every point, however far outside. -/
theorem C311_extrapolate (d : Data α) (latOut lonOut : List α) (missing : Option α) (hlat : Spec.Distinct d.lat) (hlon : Spec.Distinct d.lon)
    (h2 : 2 ≤ d.lat.length) (h2' : 2 ≤ d.lon.length) (a b c f : α)
    (hg : ∀ e, ∀ j < d.lat.length, ∀ i < d.lon.length, Spec.Present missing (d.val e j i)
      (a + b * d.lon.getD i 0 + c * d.lat.getD j 0 + f * d.lon.getD i 0 * d.lat.getD j 0)) :
    ∃ r, multi d latOut lonOut false missing .linear .extrapolate = some r ∧ ∀ e l k, r.val e l k =
      some (a + b * lonOut.getD k 0 + c * latOut.getD l 0 + f * lonOut.getD k 0 * latOut.getD l 0) := by
  refine ⟨_, multi_eq d latOut lonOut missing .linear .extrapolate hlat hlon, fun e l k => ?_⟩
  dsimp only
  have l1 := sorted_length d.lat
  have l2 := sorted_length d.lon
  have e1 : ∀ (x : List α) y q, interp1 .linear .extrapolate x y q = lin1 x y q := fun _ _ _ => rfl
  simp only [e1]
  rw [lin1_linear ((sorted_inc_iff _).2 hlat) (by omega) (a + b * lonOut.getD k 0) (c + f * lonOut.getD k 0) _ (fun j hj => by
    rw [l1] at hj
    rw [sorted_getD _ hj]
    rw [lin1_linear ((sorted_inc_iff _).2 hlon) (by omega) (a + c * d.lat.getD ((argsort d.lat).getD j 0) 0) (b + f * d.lat.getD ((argsort d.lat).getD j 0) 0) _
      (fun i hi => by
        rw [l2] at hi
        rw [sorted_getD _ hi, hide_present (hg e _ (argsort_lt _ hj) _ (argsort_lt _ hi))]
        congr 1; ring)]
    congr 1; ring)]
  unfold showMissing
  simp only [Option.some_or, Option.some.injEq]
  ring

/-! ## Witnesses -/

/-- Two rows and two columns, the first value missing. -/
def holed : Data ℚ := ⟨[], [0, 1], [0, 1], fun _ j i => if j = 0 ∧ i = 0 then none else some 1⟩

private theorem inc01 : Inc [(0 : ℚ), 1] := by
  intro i hi
  have : i = 0 := by simp at hi; omega
  subst this; norm_num

private theorem between01 : Spec.Between [(0 : ℚ), 1] 0 1 1 1 := inc_between inc01 (by simp) (by norm_num) le_rfl (by norm_num)

/-- **C306** (false): the value at the second row and column is there, but not returned, because the first one is missing. -/
theorem C306_false : ¬ C306_statement := by
  intro h
  have hr := multi_eq holed [1] [1] none .linear (.value none) (inc_distinct inc01) (inc_distinct inc01)
  have h1 := h holed _ [1] [1] none hr (by simp [holed]) (by simp [holed]) [] 0 0 1 1 1 (by simp [holed]) (by simp [holed]) (by norm_num [holed])
    (by norm_num [holed]) ⟨by simp [holed], by simp⟩
  have h2 := (C306_partial holed _ [1] [1] none (.value none) hr [] 0 0 0 1 0 1 1 1 between01 between01 one_pos one_pos).2
    ⟨none, by simp [holed], by rintro ⟨z, hz, _⟩; cases hz⟩
  rw [h2] at h1
  cases h1

/-- Longitudes from 270 down to 0, the value at 270 is one and the others zero. -/
def downward : Data ℚ := ⟨[], [0, 1], [270, 180, 90, 0], fun _ _ i => some (if i = 0 then 1 else 0)⟩

private theorem inc_up : Inc [(0 : ℚ), 90, 180, 270] := by
  intro i hi
  have : i = 0 ∨ i = 1 ∨ i = 2 := by simp at hi; omega
  rcases this with rfl | rfl | rfl <;> norm_num

private theorem between0 : Spec.Between [(0 : ℚ), 1] 0 1 0 0 := inc_between inc01 (by simp) le_rfl (by norm_num) (by norm_num)

private theorem three15 : Spec.Between (Spec.wide [(270 : ℚ), 180, 90, 0]) 1 5 315 (1 / 8) := by
  have e : Spec.wide [(270 : ℚ), 180, 90, 0] = [-360, 270, 180, 90, 0, 630] := by norm_num [Spec.wide]
  rw [e]
  refine ⟨by simp, by simp, by norm_num, fun k hk => ?_, by norm_num, by norm_num, by norm_num⟩
  have : k = 0 ∨ k = 1 ∨ k = 2 ∨ k = 3 ∨ k = 4 ∨ k = 5 := by simp at hk; omega
  rcases this with rfl | rfl | rfl | rfl | rfl | rfl <;> norm_num

private theorem wide_down : Spec.Distinct (Spec.wide [(270 : ℚ), 180, 90, 0]) := by
  have e : Spec.wide [(270 : ℚ), 180, 90, 0] = [-360, 270, 180, 90, 0, 630] := by norm_num [Spec.wide]
  rw [e]
  intro i hi k hk hik
  have h1 : i = 0 ∨ i = 1 ∨ i = 2 ∨ i = 3 ∨ i = 4 ∨ i = 5 := by simp at hi; omega
  have h2 : k = 0 ∨ k = 1 ∨ k = 2 ∨ k = 3 ∨ k = 4 ∨ k = 5 := by simp at hk; omega
  rcases h1 with rfl | rfl | rfl | rfl | rfl | rfl <;> rcases h2 with rfl | rfl | rfl | rfl | rfl | rfl <;> first | rfl | (norm_num at hik)

/-- C308: at 315 degrees, halfway from 270 to 360, the value is one for the descending longitudes and one half for the same data ascending. -/
theorem C308_seam : ∃ r r' : Data ℚ, multi downward [0] [315] true none .linear (.value none) = some r ∧
    multi { downward with lon := downward.lon.reverse, val := fun e j i => downward.val e j (downward.lon.length - 1 - i) } [0] [315] true none
      .linear (.value none) = some r' ∧ r.val [] 0 0 = some 1 ∧ r'.val [] 0 0 = some (1 / 2) := by
  obtain ⟨r, h1, -, -, -, h4⟩ := C304_linear (⟨[], [0, 1], Spec.wide [270, 180, 90, 0], fun e j i => if i = 0 then downward.val e j 3 else
    if i = 5 then downward.val e j 0 else downward.val e j (i - 1)⟩ : Data ℚ) [0] [315] none (.value none) (inc_distinct inc01) wide_down
    (fun _ _ i => if i = 1 ∨ i = 5 then 1 else 0) (by
      intro e j hj i hi
      rw [show (Spec.wide [(270 : ℚ), 180, 90, 0]).length = 6 by simp [Spec.wide]] at hi
      refine ⟨?_, by simp⟩
      have : i = 0 ∨ i = 1 ∨ i = 2 ∨ i = 3 ∨ i = 4 ∨ i = 5 := by omega
      rcases this with rfl | rfl | rfl | rfl | rfl | rfl <;> simp [downward])
  obtain ⟨r', h1', -, -, h4'⟩ := C307_cyclic { downward with lon := downward.lon.reverse, val := fun e j i => downward.val e j (downward.lon.length - 1 - i) }
    rfl [0] [315] none (.value none) (inc_distinct inc01) (by simpa [downward] using inc_up) (by simp [downward]) (by norm_num [downward])
    (fun _ i => if i = 3 then 1 else 0) (by
      intro e j hj i hi
      have hi' : i < 4 := by simpa [downward] using hi
      refine ⟨?_, by simp⟩
      have : i = 0 ∨ i = 1 ∨ i = 2 ∨ i = 3 := by omega
      rcases this with rfl | rfl | rfl | rfl <;> simp [downward])
  refine ⟨r, r', ?_, h1', ?_, ?_⟩
  · rw [multi_cyclic downward rfl]; exact h1
  · rw [h4 [] 0 0 0 1 1 5 (1 / 8) 0 between0 three15]; norm_num
  · rw [h4' [] 0 0 0 1 3 (1 / 2) 0 between0 (by simp [downward]) (by norm_num) (by norm_num)
      (Or.inr (Or.inl ⟨by simp [downward], by norm_num [downward]⟩))]
    norm_num [downward]

/-- **C308** (false). -/
theorem C308_false : ¬ C308_statement := by
  intro h
  obtain ⟨r, r', h1, h2, h3, h4⟩ := C308_seam
  have := h downward [0] [315] [] 0 0 rfl (inc_distinct inc01) (by simpa [downward] using inc_up) (by norm_num [downward]) r r' h1 h2
  rw [h3, h4] at this
  norm_num at this

/-- **C309** (false): three dimensions. -/
theorem C309_false : ¬ C309_statement := by
  intro h
  refine h ⟨[5], [0, 1], [0, 1], fun _ _ _ => some 0⟩ [0] [0] none .linear (.value none) inc01 inc01 (by norm_num) (by simp) (by simp) ?_
  exact (C309_partial _ _ _ _ _ _ inc01 inc01 (by norm_num) (by simp)).2 (by simp)

/-- The hypotheses of C310 are met, and of two columns equally near the lower one is taken. -/
example : ∃ r, multi (⟨[], [0, 1], [0, 1], fun _ j i => some (j + 2 * i)⟩ : Data ℚ) [1] [1 / 2] false none .nearest (.value none) = some r ∧
    r.val [] 0 0 = some 1 := by
  refine ⟨_, multi_eq _ _ _ _ _ _ (inc_distinct inc01) (inc_distinct inc01), ?_⟩
  obtain ⟨j, i, h1, h2, h3, -⟩ := C310_nearest _ _ [1] [1 / 2] none (.value none) (by simp) (by simp)
    (multi_eq (⟨[], [0, 1], [0, 1], fun _ j i => some (j + 2 * i)⟩ : Data ℚ) _ _ _ _ _ (inc_distinct inc01) (inc_distinct inc01)) [] 0 0
    (Or.inr ⟨⟨0, 1, 1, between01⟩, 0, 1, 1 / 2, inc_between inc01 (by simp) (by norm_num) (by norm_num) (by norm_num)⟩)
  have hj : j = 1 := by
    have a := h1.lt
    have b := h1.near 1 (by simp)
    have : j = 0 ∨ j = 1 := by simp at a; omega
    rcases this with rfl | rfl
    · norm_num at b
    · rfl
  have hi : i = 0 := by
    have a := h2.lt
    have b := h2.lower 0 (by simp)
    have : i = 0 ∨ i = 1 := by simp at a; omega
    rcases this with rfl | rfl
    · rfl
    · norm_num at b
  subst hj hi
  rw [h3 1 ⟨by norm_num, by simp⟩]

end Skyborn.Interp.Multi
