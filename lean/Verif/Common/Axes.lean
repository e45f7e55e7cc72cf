/-
Axis bookkeeping for N-D arrays with named axes: `rollaxis`, the "roll back" loop shared by gridfill and windspharm, and
the named-axis meaning of an array (`Lay`).
-/
import Verif.Common.ND
import Mathlib.Data.List.Nodup
import Mathlib.Data.List.Range
import Mathlib.Data.List.Perm.Basic
import Mathlib.Data.List.Dedup
import Mathlib.Data.List.GetD

namespace Skyborn

variable {α β L : Type}

/-- Named-axis meaning of an array: its axes are, in this order, `dims`; axis `d` has `sz d` points; the value at the point
whose coordinate along every axis `d` is `f d` is `val f`. -/
def Lay (dims : List L) (b : NDArr α) (sz : L → ℕ) (val : (L → ℕ) → α) : Prop :=
  b.shape = dims.map sz ∧ ∀ f : L → ℕ, (∀ d ∈ dims, f d < sz d) → b.get (dims.map f) = val f

/-- `np.rollaxis(a, axis)` for a non-negative axis; `none` = AxisError. -/
def NDArr.rollaxis (a : NDArr α) (axis : ℕ) : Option (NDArr α) :=
  if axis < a.shape.length then some (a.moveToFront axis) else none

theorem inB_map {dims : List L} {sz f : L → ℕ} : InB (dims.map sz) (dims.map f) ↔ ∀ d ∈ dims, f d < sz d := by
  induction dims with
  | nil => simp [InB]
  | cons d ds ih => simp [InB, ih]

/-- A multi-index of a shape with distinct axis names is an assignment of coordinates to names. -/
theorem exists_assign [DecidableEq L] {dims : List L} (hd : dims.Nodup) {idx : List ℕ} (hl : idx.length = dims.length) :
    dims.map (fun d => idx.getD (dims.idxOf d) 0) = idx := by
  apply List.ext_getElem (by simp [hl])
  intro i h1 h2
  have hi : i < dims.length := by simpa using h1
  rw [List.getElem_map, hd.idxOf_getElem i hi, List.getD_eq_getElem _ _ (by omega)]

theorem lay_self [DecidableEq L] {dims : List L} (hd : dims.Nodup) (b : NDArr α) (hl : b.shape.length = dims.length) :
    Lay dims b (fun d => b.shape.getD (dims.idxOf d) 0) (fun f => b.get (dims.map f)) :=
  ⟨(exists_assign hd hl).symm, fun _ _ => rfl⟩

theorem Lay.congr {dims : List L} {b : NDArr α} {sz sz' : L → ℕ} {val val' : (L → ℕ) → α} (h : Lay dims b sz val)
    (hs : ∀ d ∈ dims, sz d = sz' d) (hv : ∀ f, (∀ d ∈ dims, f d < sz d) → val f = val' f) : Lay dims b sz' val' := by
  refine ⟨by rw [h.1]; exact List.map_congr_left hs, fun f hf => ?_⟩
  have hf' : ∀ d ∈ dims, f d < sz d := fun d hd => by rw [hs d hd]; exact hf d hd
  rw [h.2 f hf', hv f hf']

theorem Lay.unique {dims : List L} {b c : NDArr α} {sz : L → ℕ} {val : (L → ℕ) → α} [DecidableEq L] (hd : dims.Nodup)
    (h : Lay dims b sz val) (h' : Lay dims c sz val) : NDArr.Eqv b c := by
  refine ⟨h.1.trans h'.1.symm, fun idx hi => ?_⟩
  have hl : idx.length = dims.length := by rw [hi.length, h.1, List.length_map]
  rw [← exists_assign hd hl] at hi ⊢
  rw [h.1, inB_map] at hi
  rw [h.2 _ hi, h'.2 _ hi]

theorem Lay.moveToFront {dims : List L} {b : NDArr α} {sz : L → ℕ} {val : (L → ℕ) → α} (h : Lay dims b sz val) {k : ℕ}
    (hk : k < dims.length) : b.rollaxis k = some (b.moveToFront k) ∧ Lay (dims[k] :: dims.eraseIdx k) (b.moveToFront k) sz val := by
  refine ⟨by rw [NDArr.rollaxis, if_pos (by rw [h.1]; simpa using hk)], ?_, fun f hf => ?_⟩
  · unfold NDArr.moveToFront
    simp only [h.1, List.map_cons]
    rw [List.getD_eq_getElem _ _ (by simpa using hk), List.getElem_map, List.eraseIdx_map]
  · have : ∀ d ∈ dims, f d < sz d := by
      intro d hd
      rcases List.mem_iff_getElem.mp hd with ⟨i, hi, rfl⟩
      by_cases hik : i = k
      · subst hik; exact hf _ (by simp)
      · exact hf _ (List.mem_cons_of_mem _ (List.mem_eraseIdx_iff_getElem.mpr ⟨i, hi, hik, rfl⟩))
    rw [← h.2 f this]
    unfold NDArr.moveToFront
    simp only [List.map_cons]
    congr 1
    rw [← List.eraseIdx_map, ← List.getElem_map f (h := by simpa using hk)]
    exact List.insertIdx_eraseIdx_getElem (by simpa using hk)

/-- The loop of gridfill.py:186-188 and windspharm/tools.py:235-240:
`for i in range(n): a = np.rollaxis(a, roll[i]); roll = np.where(roll < roll[i], roll + 1, roll)`, from index `i` on with
`left` passes left. -/
def rollLoop : (left i : ℕ) → NDArr α → List ℕ → Option (NDArr α)
  | 0, _, b, _ => some b
  | left + 1, i, b, roll => do
    let p ← roll[i]?
    let b ← b.rollaxis p
    rollLoop left (i + 1) b (roll.map fun r => if r < p then r + 1 else r)

theorem idxOf_front [DecidableEq L] {dims : List L} (hd : dims.Nodup) {d e : L} (hdm : d ∈ dims) (hem : e ∈ dims) (hne : e ≠ d) :
    (d :: dims.erase d).idxOf e = if dims.idxOf e < dims.idxOf d then dims.idxOf e + 1 else dims.idxOf e := by
  rw [List.idxOf_cons_ne _ hne.symm]
  induction dims with
  | nil => simp at hdm
  | cons a t ih =>
    rw [List.nodup_cons] at hd
    by_cases had : a = d
    · subst had
      have hne' : a ≠ e := fun h => hne h.symm
      rw [List.erase_cons_head, List.idxOf_cons_self, if_neg (by omega), List.idxOf_cons_ne _ hne']
    · rw [List.erase_cons_tail (by simpa using had)]
      have hdm' : d ∈ t := by rcases List.mem_cons.mp hdm with h | h; exacts [absurd h.symm had, h]
      by_cases hae : a = e
      · subst hae
        rw [List.idxOf_cons_self, List.idxOf_cons_self, List.idxOf_cons_ne _ had, if_pos (by omega)]
      · have hem' : e ∈ t := by rcases List.mem_cons.mp hem with h | h; exacts [absurd h.symm hae, h]
        have := ih hd.2 hdm' hem'
        rw [List.idxOf_cons_ne _ hae, List.idxOf_cons_ne _ had, List.idxOf_cons_ne _ hae]
        simp only [Nat.succ_eq_add_one] at this ⊢
        rw [this]
        split <;> split <;> omega

theorem rollLoop_lay [DecidableEq L] {sz : L → ℕ} {val : (L → ℕ) → α} : ∀ (ds : List L) (i : ℕ) (dims : List L) (b : NDArr α) (roll : List ℕ),
    Lay dims b sz val → dims.Nodup → ds.Nodup → ds ⊆ dims → roll.length = i + ds.length →
    (∀ k (h : k < ds.length), roll[i + k]? = some (dims.idxOf ds[k])) →
    ∃ b', rollLoop ds.length i b roll = some b' ∧ Lay (ds.foldl (fun acc d => d :: acc.erase d) dims) b' sz val := by
  intro ds
  induction ds with
  | nil => intro i dims b roll h _ _ _ _ _; exact ⟨b, rfl, h⟩
  | cons d ds ih =>
    intro i dims b roll h hn hds hsub hlen hroll
    have hd : d ∈ dims := hsub (by simp)
    have hk : dims.idxOf d < dims.length := List.idxOf_lt_length_of_mem hd
    have h0 := hroll 0 (by simp)
    simp only [Nat.add_zero, List.getElem_cons_zero] at h0
    obtain ⟨e1, h1⟩ := h.moveToFront hk
    rw [List.getElem_idxOf, ← List.erase_eq_eraseIdx_of_idxOf rfl] at h1
    rw [List.nodup_cons] at hds
    have hperm : (d :: dims.erase d).Perm dims := (List.perm_cons_erase hd).symm
    obtain ⟨b', e', h'⟩ := ih (i + 1) (d :: dims.erase d) _ (roll.map fun r => if r < dims.idxOf d then r + 1 else r) h1
      (hperm.nodup_iff.mpr hn) hds.2 (fun x hx => hperm.mem_iff.mpr (hsub (List.mem_cons_of_mem _ hx)))
      (by simp only [List.length_map, hlen, List.length_cons]; omega)
      (by
        intro k hk'
        have := hroll (k + 1) (by simpa using hk')
        rw [List.getElem?_map, show i + 1 + k = i + (k + 1) by omega, this]
        simp only [List.getElem_cons_succ, Option.map_some, Option.some.injEq]
        rw [idxOf_front hn hd (hsub (List.mem_cons_of_mem _ (List.getElem_mem hk')))]
        intro hh; exact hds.1 (hh ▸ List.getElem_mem hk'))
    refine ⟨b', ?_, h'⟩
    simp only [List.length_cons, rollLoop, h0, Option.bind_eq_bind, Option.bind_some, e1]
    exact e'

theorem foldl_front [DecidableEq L] : ∀ (ds dims : List L), dims.Nodup → ds.Nodup → ds ⊆ dims →
    ds.foldl (fun acc d => d :: acc.erase d) dims = ds.reverse ++ dims.filter (fun x => decide (x ∉ ds)) := by
  intro ds
  induction ds with
  | nil => intro dims _ _ _; simp
  | cons d ds ih =>
    intro dims hn hds hsub
    rw [List.nodup_cons] at hds
    have hd : d ∈ dims := hsub (by simp)
    have hperm : (d :: dims.erase d).Perm dims := (List.perm_cons_erase hd).symm
    rw [List.foldl_cons, ih _ (hperm.nodup_iff.mpr hn) hds.2 (fun x hx => hperm.mem_iff.mpr (hsub (List.mem_cons_of_mem _ hx)))]
    rw [List.reverse_cons, List.append_assoc, List.filter_cons, if_pos (by simpa using hds.1), hn.erase_eq_filter, List.filter_filter]
    simp only [List.singleton_append, List.append_cancel_left_eq, List.cons.injEq, true_and]
    apply List.filter_congr
    intro x _
    by_cases h : x = d <;> simp [h, hds.1]

/-- Rolling back: the loop run on the positions of the reversed target order brings the axes into the target order. -/
theorem rollLoop_restores [DecidableEq L] {sz : L → ℕ} {val : (L → ℕ) → α} {dims orig : List L} (hn : orig.Nodup)
    (hp : dims.Perm orig) {b : NDArr α} (h : Lay dims b sz val) :
    ∃ b', rollLoop orig.length 0 b (orig.reverse.map fun d => dims.idxOf d) = some b' ∧ Lay orig b' sz val := by
  have hdn : dims.Nodup := hp.nodup_iff.mpr hn
  obtain ⟨b', e, h'⟩ := rollLoop_lay orig.reverse 0 dims b (orig.reverse.map fun d => dims.idxOf d) h hdn
    (List.nodup_reverse.mpr hn) (fun x hx => hp.mem_iff.mpr (List.mem_reverse.mp hx)) (by simp)
    (by intro k hk; rw [Nat.zero_add, List.getElem?_map, List.getElem?_eq_getElem hk]; rfl)
  rw [List.length_reverse] at e
  refine ⟨b', e, ?_⟩
  rw [foldl_front _ _ hdn (List.nodup_reverse.mpr hn) (fun x hx => hp.mem_iff.mpr (List.mem_reverse.mp hx)), List.reverse_reverse] at h'
  have : dims.filter (fun x => decide (x ∉ orig.reverse)) = [] := by
    rw [List.filter_eq_nil_iff]
    intro x hx
    simpa using hp.mem_iff.mp hx
  rwa [this, List.append_nil] at h'

/-- Merging the trailing axes: `a.reshape(a.shape[:2] + (prod(a.shape[2:]),))`. -/
theorem Lay.merge {y x : L} {rest : List L} {b : NDArr α} {sz : L → ℕ} {val : (L → ℕ) → α} (h : Lay (y :: x :: rest) b sz val) :
    ∃ c, b.reshape [sz y, sz x, (rest.map sz).prod] = some c ∧ c.shape = [sz y, sz x, (rest.map sz).prod] ∧
      ∀ f : L → ℕ, (∀ d ∈ y :: x :: rest, f d < sz d) →
        c.get [f y, f x, ravel (rest.map sz) (rest.map f)] = val f := by
  refine ⟨_, if_pos (by rw [h.1]; simp), rfl, fun f hf => ?_⟩
  rw [← h.2 f hf]
  have hin : InB b.shape ((y :: x :: rest).map f) := by rw [h.1]; exact inB_map.mpr hf
  have : ravel [sz y, sz x, (rest.map sz).prod] [f y, f x, ravel (rest.map sz) (rest.map f)] = ravel b.shape ((y :: x :: rest).map f) := by
    rw [h.1]; simp [ravel]
  simp only [this, unravel_ravel hin]

/-- Splitting the merged axis again: `a.reshape(intermediate_shape)`. -/
theorem lay_split {y x : L} {rest : List L} [DecidableEq L] {c : NDArr α} {sz : L → ℕ}
    (hs : c.shape = [sz y, sz x, (rest.map sz).prod]) :
    ∃ b, c.reshape ((y :: x :: rest).map sz) = some b ∧
      Lay (y :: x :: rest) b sz (fun f => c.get [f y, f x, ravel (rest.map sz) (rest.map f)]) := by
  refine ⟨_, if_pos (by rw [hs]; simp), rfl, fun f hf => ?_⟩
  have hf' := hf
  simp only [List.mem_cons, forall_eq_or_imp] at hf'
  have hin : InB c.shape [f y, f x, ravel (rest.map sz) (rest.map f)] := by
    rw [hs]
    refine ⟨hf'.1, hf'.2.1, ravel_lt (inB_map.mpr hf'.2.2), trivial⟩
  have : ravel ((y :: x :: rest).map sz) ((y :: x :: rest).map f) = ravel c.shape [f y, f x, ravel (rest.map sz) (rest.map f)] := by
    rw [hs]; simp [ravel]
  simp only [this, unravel_ravel hin]

theorem idxOf_range {n k : ℕ} (h : k < n) : (List.range n).idxOf k = k := by
  have := List.nodup_range.idxOf_getElem k (by simpa using h : k < (List.range n).length)
  simpa using this

/-- Axes other than the grid axes, in their order. -/
def otherDims (n x y : ℕ) : List ℕ := (List.range n).filter fun d => d ≠ x ∧ d ≠ y

theorem erase_erase (n x y : ℕ) : ((List.range n).erase x).erase y = otherDims n x y := by
  rw [(List.nodup_range.erase x).erase_eq_filter, List.nodup_range.erase_eq_filter, List.filter_filter]
  unfold otherDims
  apply List.filter_congr
  intro d _
  by_cases h1 : d = x <;> by_cases h2 : d = y <;> simp [h1, h2]

theorem perm_order {n x y : ℕ} (hx : x < n) (hy : y < n) (hxy : x ≠ y) : (y :: x :: otherDims n x y).Perm (List.range n) := by
  rw [← erase_erase]
  have h1 : x ∈ List.range n := by simpa using hx
  have h2 : y ∈ (List.range n).erase x := by
    rw [List.mem_erase_of_ne hxy.symm]; simpa using hy
  exact (List.Perm.swap x y _).trans ((List.Perm.cons x (List.perm_cons_erase h2).symm).trans (List.perm_cons_erase h1).symm)

/-- `np.rollaxis(a, x)` followed by `np.rollaxis(., y)` with `y` corrected for the first roll. -/
theorem Lay.rollTwo {n x y : ℕ} (hx : x < n) (hy : y < n) (hxy : x ≠ y) {a : NDArr α} {sz : ℕ → ℕ} {val : (ℕ → ℕ) → α}
    (h : Lay (List.range n) a sz val) : ∃ b1 b2, a.rollaxis x = some b1 ∧ b1.rollaxis (if y < x then y + 1 else y) = some b2 ∧
      Lay (y :: x :: otherDims n x y) b2 sz val := by
  have hxr : x ∈ List.range n := by simpa using hx
  have hyr : y ∈ (List.range n).erase x := by rw [List.mem_erase_of_ne hxy.symm]; simpa using hy
  obtain ⟨e1, h1⟩ := h.moveToFront (k := x) (by simpa using hx)
  have hE : (List.range n).eraseIdx x = (List.range n).erase x := (List.erase_eq_eraseIdx_of_idxOf (idxOf_range hx)).symm
  rw [List.getElem_range, hE] at h1
  have hpos := idxOf_front List.nodup_range hxr (by simpa using hy : y ∈ List.range n) hxy.symm
  rw [idxOf_range hx, idxOf_range hy] at hpos
  have hk : (x :: (List.range n).erase x).idxOf y < (x :: (List.range n).erase x).length :=
    List.idxOf_lt_length_of_mem (List.mem_cons_of_mem _ hyr)
  obtain ⟨e2, h2⟩ := h1.moveToFront hk
  rw [List.getElem_idxOf, ← List.erase_eq_eraseIdx_of_idxOf rfl, List.erase_cons_tail (by simpa using hxy), erase_erase] at h2
  exact ⟨_, _, e1, by rw [← hpos]; exact e2, h2⟩

/-- Every array, its axes named by their numbers. -/
theorem lay_range (a : NDArr α) : Lay (List.range a.shape.length) a (fun d => a.shape.getD d 0)
    (fun f => a.get ((List.range a.shape.length).map f)) := by
  refine (lay_self (L := ℕ) List.nodup_range a (by simp)).congr ?_ (fun _ _ => rfl)
  intro d hd
  beta_reduce
  rw [idxOf_range (by simpa using hd)]

/-- `np.transpose(a, perm)`: axis `k` of the result is axis `perm[k]` of `a`. -/
def NDArr.transpose (a : NDArr α) (perm : List ℕ) : NDArr α :=
  ⟨perm.map fun d => a.shape.getD d 0, fun idx => a.get ((List.range a.shape.length).map fun d => idx.getD (perm.idxOf d) 0)⟩

end Skyborn
