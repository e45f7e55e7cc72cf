/-
Properties C21-C26, C59 of the windspharm data tools.
-/
import Verif.Windspharm.Tools
import Mathlib.Tactic.FieldSimp
import Mathlib.Tactic.NormNum
import Mathlib.Algebra.Order.Ring.Rat

namespace Skyborn.Windspharm

open Skyborn

variable {α : Type}

/-! ## C21, C22: prep_data and recover_data -/

/-- A dimension order the tools handle: distinct letters containing `x` and `y`, not preceded by an upper-case `X`, `Y`, one letter
per axis (further axes may be left unnamed at the end). -/
structure GoodOrder (order : List Char) (ndim : ℕ) : Prop where
  nodup : order.Nodup
  hasX : 'x' ∈ order
  hasY : 'y' ∈ order
  lowX : (order.map Char.toLower).idxOf 'x' = order.idxOf 'x'
  lowY : (order.map Char.toLower).idxOf 'y' = order.idxOf 'y'
  len : order.length ≤ ndim

theorem idxOf_map_of {A B : Type} [BEq A] [LawfulBEq A] [BEq B] [LawfulBEq B] (f : A → B) (l : List A) (j : A)
    (h : ∀ a ∈ l, f a = f j → a = j) : (l.map f).idxOf (f j) = l.idxOf j := by
  induction l with
  | nil => simp
  | cons a t ih =>
    have ih' := ih fun b hb => h b (List.mem_cons_of_mem _ hb)
    by_cases e : a = j
    · subst e; rw [List.map_cons, List.idxOf_cons_self, List.idxOf_cons_self]
    · have : f a ≠ f j := fun hh => e (h a (by simp) hh)
      rw [List.map_cons, List.idxOf_cons_ne _ this, List.idxOf_cons_ne _ e, ih']

theorem range_split {n m : ℕ} (hm : m ≤ n) : List.range n = List.range m ++ List.range' m (n - m) := by
  have := List.range'_append_1 (s := 0) (m := m) (n := n - m)
  rw [Nat.zero_add, show m + (n - m) = n by omega] at this
  rw [List.range_eq_range', List.range_eq_range', this]

theorem otherDims_split {n m x y : ℕ} (hm : m ≤ n) (hx : x < m) (hy : y < m) : otherDims n x y = otherDims m x y ++ List.range' m (n - m) := by
  unfold otherDims
  rw [range_split hm, List.filter_append]
  congr 1
  rw [List.filter_eq_self]
  intro d hd
  rw [List.mem_range'_1] at hd
  simp; omega

variable {order : List Char} {n : ℕ}

namespace GoodOrder

theorem px (h : GoodOrder order n) : order.idxOf 'x' < order.length := List.idxOf_lt_length_of_mem h.hasX
theorem py (h : GoodOrder order n) : order.idxOf 'y' < order.length := List.idxOf_lt_length_of_mem h.hasY
theorem ne (h : GoodOrder order n) : order.idxOf 'x' ≠ order.idxOf 'y' := by
  intro e
  have h1 := List.getElem_idxOf h.px
  have h2 := List.getElem_idxOf h.py
  simp only [e] at h1
  rw [h1] at h2
  simp at h2

theorem outOrder (h : GoodOrder order n) :
    ('y' :: 'x' :: (order.filter fun c => c ≠ 'x').filter fun c => c ≠ 'y') =
      (order.idxOf 'y' :: order.idxOf 'x' :: otherDims order.length (order.idxOf 'x') (order.idxOf 'y')).map fun d => order.getD d ' ' := by
  simp only [List.map_cons]
  rw [List.getD_eq_getElem _ _ h.px, List.getD_eq_getElem _ _ h.py, List.getElem_idxOf, List.getElem_idxOf]
  congr 2
  rw [List.filter_filter]
  have hself : order = (List.range order.length).map fun d => order.getD d ' ' := by
    apply List.ext_getElem (by simp)
    intro i h1 h2
    simp [List.getD_eq_getElem _ _ h1, h1]
  conv_lhs => rw [hself]
  rw [List.filter_map]
  unfold otherDims
  congr 1
  apply List.filter_congr
  intro d hd
  have hd' : d < order.length := by simpa using hd
  simp only [Function.comp, List.getD_eq_getElem _ _ hd', ne_eq]
  have hinj : ∀ c, c ∈ order → (order[d] = c ↔ d = order.idxOf c) := by
    intro c hc
    constructor
    · rintro rfl; exact (h.nodup.idxOf_getElem d hd').symm
    · rintro e; simp only [e]; exact List.getElem_idxOf _
  rw [Bool.eq_iff_iff]
  simp only [Bool.and_eq_true, decide_eq_true_eq, Bool.decide_and, hinj _ h.hasX, hinj _ h.hasY]
  tauto

theorem index_eq (h : GoodOrder order n) {j : ℕ} (hj : j < order.length) :
    ('y' :: 'x' :: (order.filter fun c => c ≠ 'x').filter fun c => c ≠ 'y').idxOf order[j] =
      (order.idxOf 'y' :: order.idxOf 'x' :: otherDims n (order.idxOf 'x') (order.idxOf 'y')).idxOf j := by
  rw [h.outOrder, otherDims_split h.len h.px h.py]
  have hmem : j ∈ order.idxOf 'y' :: order.idxOf 'x' :: otherDims order.length (order.idxOf 'x') (order.idxOf 'y') :=
    (perm_order h.px h.py h.ne).mem_iff.mpr (by simpa using hj)
  rw [← List.cons_append, ← List.cons_append, List.idxOf_append_of_mem hmem,
    show order[j] = (fun d => order.getD d ' ') j from (List.getD_eq_getElem _ _ hj).symm]
  refine idxOf_map_of (fun d => order.getD d ' ') _ j ?_
  intro a ha e
  have ha' : a < order.length := by simpa using (perm_order h.px h.py h.ne).mem_iff.mp ha
  beta_reduce at e
  rw [List.getD_eq_getElem _ _ ha', List.getD_eq_getElem _ _ hj] at e
  exact (List.Nodup.getElem_inj_iff h.nodup).mp e

end GoodOrder

theorem prepData_ok {sz : ℕ → ℕ} {val : (ℕ → ℕ) → α} {a : NDArr α} (hn : a.shape.length = n) (h : GoodOrder order n)
    (hL : Lay (List.range n) a sz val) :
    ∃ c, prepData a order = some (c, ⟨(order.idxOf 'y' :: order.idxOf 'x' :: otherDims n (order.idxOf 'x') (order.idxOf 'y')).map sz,
        'y' :: 'x' :: (order.filter fun c => c ≠ 'x').filter fun c => c ≠ 'y', order⟩) ∧
      c.shape = [sz (order.idxOf 'y'), sz (order.idxOf 'x'), ((otherDims n (order.idxOf 'x') (order.idxOf 'y')).map sz).prod] ∧
      ∀ f : ℕ → ℕ, (∀ d, d < n → f d < sz d) →
        c.get [f (order.idxOf 'y'), f (order.idxOf 'x'), ravel ((otherDims n (order.idxOf 'x') (order.idxOf 'y')).map sz)
          ((otherDims n (order.idxOf 'x') (order.idxOf 'y')).map f)] = val f := by
  have hx : order.idxOf 'x' < n := lt_of_lt_of_le h.px h.len
  have hy : order.idxOf 'y' < n := lt_of_lt_of_le h.py h.len
  obtain ⟨b1, b2, e1, e2, hb⟩ := hL.rollTwo hx hy h.ne
  obtain ⟨c, ec, hc, hv⟩ := hb.merge
  refine ⟨c, ?_, hc, ?_⟩
  · have hlen : 2 ≤ a.shape.length := by rw [hn]; have := h.ne; omega
    unfold prepData orderDims reshapeForSpharm find
    rw [if_neg (by omega), if_neg (by simp [h.hasX, h.hasY])]
    simp only [h.lowX, h.lowY, e1, e2, Option.bind_eq_bind, Option.bind_some, List.map_cons]
    have hr : b2.reshape (b2.shape.take 2 ++ [(b2.shape.drop 2).prod]) = some c := by rw [← ec, hb.1]; simp
    simp [ec, hb.1]
  · intro f hf
    apply hv
    intro d hd
    exact hf d (by simpa using (perm_order hx hy h.ne).mem_iff.mp hd)

theorem mapM_index {l : List Char} : ∀ {ds : List Char}, (∀ d ∈ ds, d ∈ l) → ds.mapM (fun d => index? l d) = some (ds.map fun d => l.idxOf d) := by
  intro ds
  induction ds with
  | nil => intro _; rfl
  | cons d ds ih =>
    intro h
    rw [List.mapM_cons, ih fun e he => h e (List.mem_cons_of_mem _ he)]
    simp [index?, h d (by simp)]

theorem recoverData_ok {sz : ℕ → ℕ} {c : NDArr α} (h : GoodOrder order n)
    (hc : c.shape = [sz (order.idxOf 'y'), sz (order.idxOf 'x'), ((otherDims n (order.idxOf 'x') (order.idxOf 'y')).map sz).prod]) :
    ∃ b, recoverData c ⟨(order.idxOf 'y' :: order.idxOf 'x' :: otherDims n (order.idxOf 'x') (order.idxOf 'y')).map sz,
        'y' :: 'x' :: (order.filter fun c => c ≠ 'x').filter fun c => c ≠ 'y', order⟩ = some b ∧
      Lay (List.range n) b sz fun f => c.get [f (order.idxOf 'y'), f (order.idxOf 'x'),
        ravel ((otherDims n (order.idxOf 'x') (order.idxOf 'y')).map sz) ((otherDims n (order.idxOf 'x') (order.idxOf 'y')).map f)] := by
  have hx : order.idxOf 'x' < n := lt_of_lt_of_le h.px h.len
  have hy : order.idxOf 'y' < n := lt_of_lt_of_le h.py h.len
  obtain ⟨b, e, hb⟩ := lay_split hc
  have hperm := perm_order hx hy h.ne
  have hsub : (List.range order.length).reverse ⊆ order.idxOf 'y' :: order.idxOf 'x' :: otherDims n (order.idxOf 'x') (order.idxOf 'y') := by
    intro d hd
    refine hperm.mem_iff.mpr ?_
    have : d < order.length := by simpa using hd
    simpa using lt_of_lt_of_le this h.len
  have hnd : (order.idxOf 'y' :: order.idxOf 'x' :: otherDims n (order.idxOf 'x') (order.idxOf 'y')).Nodup :=
    hperm.nodup_iff.mpr List.nodup_range
  obtain ⟨b', e', hb'⟩ := rollLoop_lay (List.range order.length).reverse 0 _ b
    (order.reverse.map fun d => ('y' :: 'x' :: (order.filter fun c => c ≠ 'x').filter fun c => c ≠ 'y').idxOf d)
    hb hnd (List.nodup_reverse.mpr List.nodup_range) hsub (by simp)
    (by
      intro k hk
      have hk' : k < order.length := by simpa using hk
      rw [Nat.zero_add, List.getElem?_map, List.getElem?_eq_getElem (by simpa using hk')]
      simp only [List.getElem_reverse, List.length_range, List.getElem_range, Option.map_some, Option.some.injEq]
      exact h.index_eq (by omega))
  rw [foldl_front _ _ hnd (List.nodup_reverse.mpr List.nodup_range) hsub, List.reverse_reverse] at hb'
  have hrest : (order.idxOf 'y' :: order.idxOf 'x' :: otherDims n (order.idxOf 'x') (order.idxOf 'y')).filter
      (fun x => decide (x ∉ (List.range order.length).reverse)) = List.range' order.length (n - order.length) := by
    rw [otherDims_split h.len h.px h.py, ← List.cons_append, ← List.cons_append, List.filter_append]
    have h1 : (order.idxOf 'y' :: order.idxOf 'x' :: otherDims order.length (order.idxOf 'x') (order.idxOf 'y')).filter
        (fun x => decide (x ∉ (List.range order.length).reverse)) = [] := by
      rw [List.filter_eq_nil_iff]
      intro d hd
      simpa using (perm_order h.px h.py h.ne).mem_iff.mp hd
    rw [h1, List.nil_append, List.filter_eq_self]
    intro d hd
    rw [List.mem_range'_1] at hd
    simpa using hd.1
  rw [hrest] at hb'
  rw [← range_split h.len] at hb'
  refine ⟨b', ?_, hb'⟩
  unfold recoverData
  rw [e]
  simp only [Option.bind_eq_bind, Option.bind_some]
  rw [mapM_index (by
    intro d hd
    have hd' : d ∈ order := by simpa using hd
    by_cases e1 : d = 'y'
    · simp [e1]
    · by_cases e2 : d = 'x'
      · simp [e2]
      · simp [e1, e2, hd'])]
  simpa using e'

/-- Where `prep_data` puts the element `idx` of the original array: (latitude index, longitude index, C-order position among the other
axes in their original order). -/
def place (shape : List ℕ) (x y : ℕ) (idx : List ℕ) : List ℕ :=
  [idx.getD y 0, idx.getD x 0, ravel ((otherDims shape.length x y).map fun d => shape.getD d 0) ((otherDims shape.length x y).map fun d => idx.getD d 0)]

theorem range_map_getD {idx : List ℕ} {n : ℕ} (hl : idx.length = n) : (List.range n).map (fun d => idx.getD d 0) = idx := by
  apply List.ext_getElem (by simp [hl])
  intro i h1 h2
  simp [h2]

/-- C22: `prep_data` returns a (latitude, longitude, other) array holding every element at the place described by `place`. -/
theorem C22_prep_layout (a : NDArr α) (h : GoodOrder order a.shape.length) :
    ∃ c info, prepData a order = some (c, info) ∧
      c.shape = [a.shape.getD (order.idxOf 'y') 0, a.shape.getD (order.idxOf 'x') 0,
        ((otherDims a.shape.length (order.idxOf 'x') (order.idxOf 'y')).map fun d => a.shape.getD d 0).prod] ∧
      ∀ idx, InB a.shape idx → InB c.shape (place a.shape (order.idxOf 'x') (order.idxOf 'y') idx) ∧
        c.get (place a.shape (order.idxOf 'x') (order.idxOf 'y') idx) = a.get idx := by
  obtain ⟨c, e, hs, hv⟩ := prepData_ok rfl h (lay_range a)
  refine ⟨c, _, e, hs, fun idx hidx => ⟨?_, ?_⟩⟩
  · have hb := inB_iff.mp hidx
    rw [hs]
    refine ⟨hb.2 _ (lt_of_lt_of_le h.py h.len), hb.2 _ (lt_of_lt_of_le h.px h.len), ravel_lt (inB_map.mpr ?_), trivial⟩
    intro d hd
    exact hb.2 d (by simpa using (List.mem_filter.mp hd).1)
  · have hb := inB_iff.mp hidx
    have := hv (fun d => idx.getD d 0) fun d hd => hb.2 d hd
    beta_reduce at this
    rw [range_map_getD hb.1] at this
    exact this

theorem ravel_inj {s i j : List ℕ} (hi : InB s i) (hj : InB s j) (h : ravel s i = ravel s j) : i = j := by
  rw [← unravel_ravel hi, h, unravel_ravel hj]

/-- C22: no two elements share a place, so nothing is lost or moved between fields. -/
theorem C22_place_injective {shape : List ℕ} {x y : ℕ} {i j : List ℕ} (hi : InB shape i) (hj : InB shape j)
    (h : place shape x y i = place shape x y j) : i = j := by
  have bi := inB_iff.mp hi
  have bj := inB_iff.mp hj
  unfold place at h
  simp only [List.cons.injEq, and_true] at h
  have hrest : ∀ d, d ∈ otherDims shape.length x y → i.getD d 0 = j.getD d 0 := by
    have := ravel_inj (inB_map.mpr fun d hd => bi.2 d (by simpa using (List.mem_filter.mp hd).1))
      (inB_map.mpr fun d hd => bj.2 d (by simpa using (List.mem_filter.mp hd).1)) h.2.2
    intro d hd
    exact List.map_inj_left.mp this d hd
  rw [← range_map_getD bi.1, ← range_map_getD bj.1]
  apply List.map_congr_left
  intro d hd
  by_cases e1 : d = x
  · rw [e1]; exact h.2.1
  · by_cases e2 : d = y
    · rw [e2]; exact h.1
    · exact hrest d (List.mem_filter.mpr ⟨hd, by simp [e1, e2]⟩)

/-- C21: any processed field `c` of the prepared shape is recovered with the original shape, each value at the position it belongs to. -/
theorem C21_recover (a : NDArr α) (h : GoodOrder order a.shape.length) :
    ∃ p info, prepData a order = some (p, info) ∧ ∀ {β : Type} (c : NDArr β), c.shape = p.shape →
      ∃ b, recoverData c info = some b ∧ b.shape = a.shape ∧
        ∀ idx, InB a.shape idx → b.get idx = c.get (place a.shape (order.idxOf 'x') (order.idxOf 'y') idx) := by
  obtain ⟨p, e, hs, -⟩ := prepData_ok rfl h (lay_range a)
  refine ⟨p, _, e, fun {β} c hc => ?_⟩
  obtain ⟨b, eb, hb⟩ := recoverData_ok (sz := fun d => a.shape.getD d 0) h (c := c) (hc.trans hs)
  refine ⟨b, eb, hb.1.trans (lay_range a).1.symm, fun idx hidx => ?_⟩
  have hbd := inB_iff.mp hidx
  have := hb.2 (fun d => idx.getD d 0) fun d hd => hbd.2 d (by simpa using hd)
  rw [range_map_getD hbd.1] at this
  exact this

/-- C21: `recover_data(prep_data(a))` is `a`. -/
theorem C21_round_trip (a : NDArr α) (h : GoodOrder order a.shape.length) :
    ∃ p info b, prepData a order = some (p, info) ∧ recoverData p info = some b ∧ NDArr.Eqv b a := by
  obtain ⟨p, info, e, hr⟩ := C21_recover a h
  obtain ⟨p', info', e', hs, hp⟩ := C22_prep_layout a h
  rw [e] at e'
  simp only [Option.some.injEq, Prod.mk.injEq] at e'
  obtain ⟨rfl, rfl⟩ := e'
  obtain ⟨b, eb, hb, hv⟩ := hr p rfl
  exact ⟨p, info, b, e, eb, hb, fun idx hidx => by rw [hb] at hidx; rw [hv idx hidx, (hp idx hidx).2]⟩

/-- `'tzyx'` and, with a dash of everything, `'xayb'` on 4-D data. -/
example : GoodOrder ['t', 'z', 'y', 'x'] 4 ∧ GoodOrder ['x', 'a', 'y', 'b'] 4 := by
  constructor <;> exact ⟨by decide, by decide, by decide, by decide, by decide, by decide⟩

/-! ## C23: strings accepted but not recovered -/

/-- C23 is false of the code: `prep_data` accepts repeated letters (`'ttyx'`), an upper-case `X` before the `x` (`'Xyx'`) and more letters
than axes (`'yxt'` on 2-D data), and `recover_data` then returns an array of another shape, or raises. -/
theorem C23_false (z : α) :
    (∃ p info b, prepData (⟨[2, 3, 4, 5], fun _ => z⟩ : NDArr α) ['t', 't', 'y', 'x'] = some (p, info) ∧ recoverData p info = some b ∧
      b.shape = [5, 2, 4, 3]) ∧
    (∃ p info b, prepData (⟨[2, 3, 4], fun _ => z⟩ : NDArr α) ['X', 'y', 'x'] = some (p, info) ∧ recoverData p info = some b ∧
      b.shape = [4, 3, 2]) ∧
    (∃ p info, prepData (⟨[4, 5], fun _ => z⟩ : NDArr α) ['y', 'x', 't'] = some (p, info) ∧ recoverData p info = none) :=
  ⟨⟨_, _, _, rfl, rfl, rfl⟩, ⟨_, _, _, rfl, rfl, rfl⟩, ⟨_, _, rfl, rfl⟩⟩

/-- C23, the part that holds: every accepted string of distinct letters, no longer than the number of axes, in which no upper-case `X`/`Y`
precedes `x`/`y`, is recovered. -/
theorem C23_recovered_partial (a : NDArr α) (hnd : order.Nodup) (hlen : order.length ≤ a.shape.length)
    (hX : (order.map Char.toLower).idxOf 'x' = order.idxOf 'x') (hY : (order.map Char.toLower).idxOf 'y' = order.idxOf 'y')
    {p : NDArr α} {info : Info} (hacc : prepData a order = some (p, info)) : ∃ b, recoverData p info = some b ∧ NDArr.Eqv b a := by
  have hxy : 'x' ∈ order ∧ 'y' ∈ order := by
    by_contra hh
    rw [not_and_or] at hh
    have : prepData a order = none := by
      unfold prepData orderDims
      rw [if_pos hh]
      split <;> rfl
    rw [this] at hacc; simp at hacc
  obtain ⟨p', info', b, e, eb, hb⟩ := C21_round_trip a ⟨hnd, hxy.1, hxy.2, hX, hY, hlen⟩
  rw [hacc] at e
  simp only [Option.some.injEq, Prod.mk.injEq] at e
  obtain ⟨rfl, rfl⟩ := e
  exact ⟨b, eb, hb⟩

end Skyborn.Windspharm
