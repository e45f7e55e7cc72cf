/-
Which cells of the display grid may be used.
Modelled: plot/nclcurly_core/_ncl_curly_core.c:1404-1587.
-/
import Verif.Plot.Sample
import Mathlib.Data.List.ProdSigma
import Mathlib.Data.Finset.Prod

/-!
# Which cells of the display grid may be used

Model of `compute_display_cell_valid` (plot/nclcurly_core/_ncl_curly_core.c:1404-1587): before glyphs are placed and traced, every cell
of the data grid is looked at on the panel; a cell with a missing corner or a side much longer than the usual ones (a seam of the map
projection) is never used.

The display grid is row after row, `none` for a position that is not finite. `qsort` is the C library's, with its contract.
-/

namespace Skyborn.Plot.Curly

/-- Contract of `qsort` with `compare_double_values` (_ncl_curly_core.c:66-80). -/
structure IsQsortUp (qs : List ℝ → List ℝ) : Prop where
  perm : ∀ l, (qs l).Perm l
  sorted : ∀ l, (qs l).Pairwise (· ≤ ·)

/-- `hypot` of the difference of two positions; `none`: not finite. _ncl_curly_core.c:1485-1487, 1500-1502, 1560-1563. -/
noncomputable def gap : Option (ℝ × ℝ) → Option (ℝ × ℝ) → Option ℝ
  | some a, some b => some (hyp (b.1 - a.1) (b.2 - a.2))
  | _, _ => none

open Classical in
/-- _ncl_curly_core.c:1488, 1503: a length is counted if finite and above 1e-9. -/
noncomputable def counted : Option ℝ → Option ℝ
  | some l => if 1 / 10 ^ 9 < l then some l else none
  | none => none

/-- _ncl_curly_core.c:1479-1508: the lengths of the sides, in the order they are written. -/
noncomputable def sides (ny nx : ℕ) (disp : ℕ → Option (ℝ × ℝ)) : List ℝ :=
  ((List.range ny).flatMap fun iy => (List.range (nx - 1)).filterMap fun ix =>
    counted (gap (disp (iy * nx + ix)) (disp (iy * nx + ix + 1)))) ++
  ((List.range (ny - 1)).flatMap fun iy => (List.range nx).filterMap fun ix =>
    counted (gap (disp (iy * nx + ix)) (disp ((iy + 1) * nx + ix))))

/-- _ncl_curly_core.c:1510-1529: the longest side allowed; `none`: there is no limit. -/
noncomputable def jumpLimit (qs : List ℝ → List ℝ) (edges : List ℝ) : Option ℝ :=
  if edges.length = 0 then none
  else
    let lower := if edges.length / 2 < 1 then 1 else edges.length / 2
    let s := qs edges
    let median := if lower % 2 = 1 then s.getD (lower / 2) 0 else 1 / 2 * (s.getD (lower / 2 - 1) 0 + s.getD (lower / 2) 0)
    some (max (median * 12) (1 / 10 ^ 6))

open Classical in
/-- _ncl_curly_core.c:1534-1569: one cell. -/
noncomputable def cellOk (limit : Option ℝ) (p00 p01 p10 p11 : Option (ℝ × ℝ)) : Bool :=
  match gap p00 p01, gap p10 p11, gap p00 p10, gap p01 p11 with
  | some top, some bottom, some left, some right =>
    match limit with
    | none => true
    | some j => decide (max (max top bottom) (max left right) ≤ j)
  | _, _, _, _ => false

/-- _ncl_curly_core.c:1411-1587 `compute_display_cell_valid`: the array, row after row (`nx - 1` cells in a row). -/
noncomputable def cellValid (qs : List ℝ → List ℝ) (ny nx : ℕ) (disp : ℕ → Option (ℝ × ℝ)) (k : ℕ) : Bool :=
  let iy := k / (nx - 1)
  let ix := k % (nx - 1)
  cellOk (jumpLimit qs (sides ny nx disp)) (disp (iy * nx + ix)) (disp (iy * nx + ix + 1)) (disp ((iy + 1) * nx + ix))
    (disp ((iy + 1) * nx + ix + 1))

/-! ## Specification -/

/-- The sides of the cells of a `ny`×`nx` grid: pairs of neighbouring nodes (row, column). -/
def Spec.sideSet (ny nx : ℕ) : Finset ((ℕ × ℕ) × (ℕ × ℕ)) :=
  ((Finset.range ny ×ˢ Finset.range (nx - 1)).image fun p => (p, (p.1, p.2 + 1))) ∪
    ((Finset.range (ny - 1) ×ˢ Finset.range nx).image fun p => (p, (p.1 + 1, p.2)))

/-- The four sides of the cell in row `j`, column `i`. -/
def Spec.cellSides (j i : ℕ) : List ((ℕ × ℕ) × (ℕ × ℕ)) :=
  [((j, i), (j, i + 1)), ((j + 1, i), (j + 1, i + 1)), ((j, i), (j + 1, i)), ((j, i + 1), (j + 1, i + 1))]

/-- Length of a side on the panel; `none` if an end has no position. -/
noncomputable def Spec.len (P : ℕ → ℕ → Option (ℝ × ℝ)) (e : (ℕ × ℕ) × (ℕ × ℕ)) : Option ℝ :=
  match P e.1.1 e.1.2, P e.2.1 e.2.2 with
  | some a, some b => some (Real.sqrt ((b.1 - a.1) ^ 2 + (b.2 - a.2) ^ 2))
  | _, _ => none


/-- The array says that the cell in row `j`, column `i` may be used. -/
def Spec.Usable (qs : List ℝ → List ℝ) (ny nx : ℕ) (disp : ℕ → Option (ℝ × ℝ)) (j i : ℕ) : Prop :=
  cellValid qs ny nx disp (j * (nx - 1) + i) = true

/-- The positions of the nodes by row and column. -/
def Spec.nodes (nx : ℕ) (disp : ℕ → Option (ℝ × ℝ)) (j i : ℕ) : Option (ℝ × ℝ) := disp (j * nx + i)

open Classical in
/-- Number of sides longer than 1e-9. -/
noncomputable def Spec.total (ny nx : ℕ) (P : ℕ → ℕ → Option (ℝ × ℝ)) : ℕ :=
  ((Spec.sideSet ny nx).filter fun e => ∃ l, Spec.len P e = some l ∧ 1 / 10 ^ 9 < l).card

open Classical in
/-- Number of those not longer than `m`. -/
noncomputable def Spec.short (ny nx : ℕ) (P : ℕ → ℕ → Option (ℝ × ℝ)) (m : ℝ) : ℕ :=
  ((Spec.sideSet ny nx).filter fun e => ∃ l, Spec.len P e = some l ∧ 1 / 10 ^ 9 < l ∧ l ≤ m).card

/-! ## Proofs -/

private theorem len_eq (nx : ℕ) (disp : ℕ → Option (ℝ × ℝ)) (e : (ℕ × ℕ) × (ℕ × ℕ)) :
    Spec.len (Spec.nodes nx disp) e = gap (disp (e.1.1 * nx + e.1.2)) (disp (e.2.1 * nx + e.2.2)) := by
  unfold Spec.len Spec.nodes gap hyp
  simp only [pow_two]

private def edgeList (ny nx : ℕ) : List ((ℕ × ℕ) × (ℕ × ℕ)) :=
  ((List.range ny ×ˢ List.range (nx - 1)).map fun p => (p, (p.1, p.2 + 1))) ++
    ((List.range (ny - 1) ×ˢ List.range nx).map fun p => (p, (p.1 + 1, p.2)))

private theorem sides_eq (ny nx : ℕ) (disp : ℕ → Option (ℝ × ℝ)) :
    sides ny nx disp = (edgeList ny nx).filterMap fun e => counted (Spec.len (Spec.nodes nx disp) e) := by
  unfold sides edgeList
  rw [List.filterMap_append, List.filterMap_map, List.filterMap_map]
  congr 1
  · show _ = List.filterMap _ ((List.range ny).flatMap fun a => (List.range (nx - 1)).map (Prod.mk a))
    rw [List.filterMap_flatMap]
    congr 1; funext a
    rw [List.filterMap_map]
    congr 1; funext b
    simp only [Function.comp, len_eq, add_assoc]
  · show _ = List.filterMap _ ((List.range (ny - 1)).flatMap fun a => (List.range nx).map (Prod.mk a))
    rw [List.filterMap_flatMap]
    congr 1; funext a
    rw [List.filterMap_map]
    congr 1; funext b
    simp only [Function.comp, len_eq]

private theorem edgeList_nodup (ny nx : ℕ) : (edgeList ny nx).Nodup := by
  unfold edgeList
  refine List.Nodup.append ?_ ?_ ?_
  · exact (List.nodup_range.product List.nodup_range).map fun a b h => (Prod.mk.inj h).1
  · exact (List.nodup_range.product List.nodup_range).map fun a b h => (Prod.mk.inj h).1
  · intro e h1 h2
    simp only [List.mem_map] at h1 h2
    obtain ⟨p, _, rfl⟩ := h1
    obtain ⟨q, _, h⟩ := h2
    simp only [Prod.mk.injEq] at h
    obtain ⟨rfl, h, _⟩ := h
    omega

private theorem mem_edgeList (ny nx : ℕ) (e) : e ∈ edgeList ny nx ↔ e ∈ Spec.sideSet ny nx := by
  unfold edgeList Spec.sideSet
  simp only [List.mem_append, List.mem_map, Finset.mem_union, Finset.mem_image, Finset.mem_product, Finset.mem_range,
    List.mem_range, Prod.exists, SProd.sprod, List.product, List.mem_flatMap, Prod.mk.injEq]
  simp

private theorem countP_edgeList (ny nx : ℕ) (p : (ℕ × ℕ) × (ℕ × ℕ) → Prop) [DecidablePred p] :
    (edgeList ny nx).countP (fun e => decide (p e)) = ((Spec.sideSet ny nx).filter p).card := by
  rw [List.countP_eq_length_filter, ← List.toFinset_card_of_nodup ((edgeList_nodup ny nx).filter _)]
  congr 1
  ext e
  simp only [List.mem_toFinset, List.mem_filter, mem_edgeList, Finset.mem_filter, decide_eq_true_eq]

private theorem counted_some {o : Option ℝ} {l : ℝ} : counted o = some l ↔ o = some l ∧ 1 / 10 ^ 9 < l := by
  unfold counted
  cases o with
  | none => simp
  | some a =>
    simp only
    split
    · rename_i h
      constructor
      · intro e; cases e; exact ⟨rfl, h⟩
      · rintro ⟨e, _⟩; exact e
    · rename_i h
      constructor
      · intro e; cases e
      · rintro ⟨e, h'⟩; cases e; exact absurd h' h

private theorem mem_sides {ny nx : ℕ} {disp : ℕ → Option (ℝ × ℝ)} {l : ℝ} :
    l ∈ sides ny nx disp ↔ ∃ e ∈ Spec.sideSet ny nx, Spec.len (Spec.nodes nx disp) e = some l ∧ 1 / 10 ^ 9 < l := by
  rw [sides_eq, List.mem_filterMap]
  simp only [mem_edgeList, counted_some]

private theorem sides_length (ny nx : ℕ) (disp : ℕ → Option (ℝ × ℝ)) :
    (sides ny nx disp).length = Spec.total ny nx (Spec.nodes nx disp) := by
  classical
  rw [sides_eq, List.length_filterMap_eq_countP]
  unfold Spec.total
  rw [← countP_edgeList]
  congr 1; funext e
  rw [Bool.eq_iff_iff, Option.isSome_iff_exists, decide_eq_true_eq]
  simp only [counted_some]

private theorem sides_short (ny nx : ℕ) (disp : ℕ → Option (ℝ × ℝ)) (m : ℝ) :
    (sides ny nx disp).countP (fun l => decide (l ≤ m)) = Spec.short ny nx (Spec.nodes nx disp) m := by
  classical
  rw [sides_eq, List.countP_filterMap]
  unfold Spec.short
  rw [← countP_edgeList]
  congr 1; funext e
  rw [Bool.eq_iff_iff, decide_eq_true_eq]
  cases h : counted (Spec.len (Spec.nodes nx disp) e) with
  | none =>
    simp only [Option.map_none, Option.getD_none, Bool.false_eq_true, false_iff]
    rintro ⟨l, h1, h2, _⟩
    rw [counted_some.2 ⟨h1, h2⟩] at h
    cases h
  | some a =>
    obtain ⟨h1, h2⟩ := counted_some.1 h
    simp only [Option.map_some, Option.getD_some, decide_eq_true_eq]
    constructor
    · exact fun hm => ⟨a, h1, h2, hm⟩
    · rintro ⟨l, hl, _, hm⟩
      rw [h1] at hl; cases hl; exact hm

private theorem sorted_le {s : List ℝ} (hs : s.Pairwise (· ≤ ·)) {m : ℝ} {k : ℕ}
    (hk : k < s.countP (fun l => decide (l ≤ m))) : s.getD k 0 ≤ m := by
  induction s generalizing k with
  | nil => simp at hk
  | cons a s ih =>
    rw [List.pairwise_cons] at hs
    cases k with
    | zero =>
      rw [List.getD_cons_zero]
      obtain ⟨l, hl, hm⟩ := List.countP_pos_iff.1 hk
      rw [decide_eq_true_eq] at hm
      rcases List.mem_cons.1 hl with rfl | hl
      · exact hm
      · exact (hs.1 l hl).trans hm
    | succ k =>
      rw [List.getD_cons_succ]
      refine ih hs.2 ?_
      rw [List.countP_cons] at hk
      split at hk <;> omega

private theorem le_sorted {s : List ℝ} {m : ℝ} (h : ∀ l ∈ s, m ≤ l) {k : ℕ} (hk : k < s.length) : m ≤ s.getD k 0 := by
  rw [List.getD_eq_getElem?_getD, List.getElem?_eq_getElem hk, Option.getD_some]
  exact h _ (List.getElem_mem hk)

private theorem limit_le {qs} (hq : IsQsortUp qs) {E : List ℝ} {m j : ℝ} (h : E.length < 4 * E.countP (fun l => decide (l ≤ m)))
    (hj : jumpLimit qs E = some j) : j ≤ max (12 * m) (1 / 10 ^ 6) := by
  unfold jumpLimit at hj
  split at hj
  · cases hj
  · rename_i h0
    simp only [Option.some.injEq] at hj
    subst hj
    have hc := (hq.perm E).countP_eq (fun l => decide (l ≤ m))
    have key : ∀ k, k < E.countP (fun l => decide (l ≤ m)) → (qs E).getD k 0 ≤ m :=
      fun k hk => sorted_le (hq.sorted E) (by rw [hc]; exact hk)
    refine max_le_max ?_ le_rfl
    rw [mul_comm (12 : ℝ)]
    refine mul_le_mul_of_nonneg_right ?_ (by norm_num)
    generalize E.countP (fun l => decide (l ≤ m)) = c at *
    have h0' : 0 < E.length := Nat.pos_of_ne_zero h0
    obtain ⟨lo, hlo⟩ : ∃ lo, lo = if E.length / 2 < 1 then 1 else E.length / 2 := ⟨_, rfl⟩
    have hb : lo ≤ max 1 (E.length / 2) ∧ 1 ≤ lo := by rw [hlo]; split <;> omega
    rw [← hlo]
    by_cases hp : lo % 2 = 1
    · rw [if_pos hp]; exact key _ (by omega)
    · rw [if_neg hp]
      have h1 := key (lo / 2 - 1) (by omega)
      have h2 := key (lo / 2) (by omega)
      linarith

private theorem le_limit {qs} (hq : IsQsortUp qs) {E : List ℝ} {m j : ℝ} (h : ∀ l ∈ E, m ≤ l)
    (hj : jumpLimit qs E = some j) : max (12 * m) (1 / 10 ^ 6) ≤ j := by
  unfold jumpLimit at hj
  split at hj
  · cases hj
  · rename_i h0
    simp only [Option.some.injEq] at hj
    subst hj
    have hl := (hq.perm E).length_eq
    have key : ∀ k, k < E.length → m ≤ (qs E).getD k 0 :=
      fun k hk => le_sorted (fun l hl => h l ((hq.perm E).mem_iff.1 hl)) (by rw [hl]; exact hk)
    refine max_le_max ?_ le_rfl
    rw [mul_comm (12 : ℝ)]
    refine mul_le_mul_of_nonneg_right ?_ (by norm_num)
    have h0' : 0 < E.length := Nat.pos_of_ne_zero h0
    obtain ⟨lo, hlo⟩ : ∃ lo, lo = if E.length / 2 < 1 then 1 else E.length / 2 := ⟨_, rfl⟩
    have hb : lo ≤ max 1 (E.length / 2) ∧ 1 ≤ lo := by rw [hlo]; split <;> omega
    rw [← hlo]
    by_cases hp : lo % 2 = 1
    · rw [if_pos hp]; exact key _ (by omega)
    · rw [if_neg hp]
      have h1 := key (lo / 2 - 1) (by omega)
      have h2 := key (lo / 2) (by omega)
      linarith

/-- The array entry of a cell, in terms of its sides. -/
private theorem usable_iff {qs} {ny nx : ℕ} {disp : ℕ → Option (ℝ × ℝ)} {j i : ℕ} (hi : i < nx - 1) :
    Spec.Usable qs ny nx disp j i ↔ ∀ e ∈ Spec.cellSides j i, ∃ l, Spec.len (Spec.nodes nx disp) e = some l ∧
      ∀ J, jumpLimit qs (sides ny nx disp) = some J → l ≤ J := by
  have hd : (j * (nx - 1) + i) / (nx - 1) = j := by
    rw [mul_comm, Nat.mul_add_div (by omega), Nat.div_eq_of_lt hi, add_zero]
  have hm : (j * (nx - 1) + i) % (nx - 1) = i := by
    rw [mul_comm, Nat.mul_add_mod, Nat.mod_eq_of_lt hi]
  unfold Spec.Usable cellValid Spec.cellSides
  simp only [hd, hm, List.mem_cons, List.not_mem_nil, or_false, forall_eq_or_imp, forall_eq, len_eq]
  simp only [← add_assoc]
  generalize jumpLimit qs (sides ny nx disp) = L
  unfold cellOk
  generalize gap (disp (j * nx + i)) (disp (j * nx + i + 1)) = a
  generalize gap (disp ((j + 1) * nx + i)) (disp ((j + 1) * nx + i + 1)) = b
  generalize gap (disp (j * nx + i)) (disp ((j + 1) * nx + i)) = c
  generalize gap (disp (j * nx + i + 1)) (disp ((j + 1) * nx + i + 1)) = d
  cases a <;> cases b <;> cases c <;> cases d <;> cases L <;> simp
  tauto

private theorem cellSides_sub {ny nx j i : ℕ} (hj : j < ny - 1) (hi : i < nx - 1) {e} (he : e ∈ Spec.cellSides j i) :
    e ∈ Spec.sideSet ny nx := by
  unfold Spec.cellSides at he
  unfold Spec.sideSet
  simp only [List.mem_cons, List.not_mem_nil, or_false] at he
  simp only [Finset.mem_union, Finset.mem_image, Finset.mem_product, Finset.mem_range, Prod.exists]
  rcases he with rfl | rfl | rfl | rfl
  · exact Or.inl ⟨j, i, ⟨by omega, by omega⟩, rfl⟩
  · exact Or.inl ⟨j + 1, i, ⟨by omega, by omega⟩, rfl⟩
  · exact Or.inr ⟨j, i, ⟨by omega, by omega⟩, rfl⟩
  · exact Or.inr ⟨j, i + 1, ⟨by omega, by omega⟩, rfl⟩

/-- **C283** (holes). A cell one of whose four corners has no position on the panel is never used. -/
theorem C283_missing (qs : List ℝ → List ℝ) (ny nx : ℕ) (disp : ℕ → Option (ℝ × ℝ)) (j i : ℕ) (hi : i < nx - 1)
    (h : Spec.nodes nx disp j i = none ∨ Spec.nodes nx disp j (i + 1) = none ∨ Spec.nodes nx disp (j + 1) i = none ∨
      Spec.nodes nx disp (j + 1) (i + 1) = none) : ¬ Spec.Usable qs ny nx disp j i := by
  rw [usable_iff hi]
  intro hu
  have h1 := hu _ (List.mem_cons_self ..)
  have h2 := hu _ (List.mem_cons_of_mem _ (List.mem_cons_self ..))
  unfold Spec.len at h1 h2
  rcases h with h | h | h | h <;> simp only [h] at h1 h2 <;>
    first
      | (obtain ⟨l, h1, _⟩ := h1; revert h1; split <;> simp_all)
      | (obtain ⟨l, h2, _⟩ := h2; revert h2; split <;> simp_all)

/-- **C283** (seams). If more than a quarter of the sides of the grid are not longer than `m`, a cell with a side longer than `12 m`
(and than 1e-6 pixels) is not used: glyphs never cross a seam of the map. -/
theorem C283_seam (qs : List ℝ → List ℝ) (hq : IsQsortUp qs) (ny nx : ℕ) (disp : ℕ → Option (ℝ × ℝ)) (m : ℝ)
    (hm : Spec.total ny nx (Spec.nodes nx disp) < 4 * Spec.short ny nx (Spec.nodes nx disp) m)
    (j i : ℕ) (hi : i < nx - 1) (e) (he : e ∈ Spec.cellSides j i) (l : ℝ) (hl : Spec.len (Spec.nodes nx disp) e = some l)
    (h12 : 12 * m < l) (h6 : 1 / 10 ^ 6 < l) : ¬ Spec.Usable qs ny nx disp j i := by
  rw [usable_iff hi]
  intro hu
  obtain ⟨l', hl', hJ⟩ := hu e he
  rw [hl] at hl'; cases hl'
  rw [← sides_length, ← sides_short] at hm
  cases hJ' : jumpLimit qs (sides ny nx disp) with
  | none =>
    unfold jumpLimit at hJ'
    split at hJ'
    · rename_i h0; rw [h0] at hm
      have := List.countP_le_length (l := sides ny nx disp) (p := fun l => decide (l ≤ m))
      omega
    · cases hJ'
  | some J =>
    have := hJ J hJ'
    have h2 := limit_le hq hm hJ'
    rcases le_max_iff.1 (this.trans h2) with h | h <;> linarith

/-- **C283** (ordinary cells). If no side of the grid is shorter than `m` (those of 1e-9 pixels or less aside), a cell with four corners
on the panel and no side longer than `12 m`, or than 1e-6 pixels, is used. -/
theorem C283_kept (qs : List ℝ → List ℝ) (hq : IsQsortUp qs) (ny nx : ℕ) (disp : ℕ → Option (ℝ × ℝ)) (m : ℝ)
    (hm : ∀ e ∈ Spec.sideSet ny nx, ∀ l, Spec.len (Spec.nodes nx disp) e = some l → l ≤ 1 / 10 ^ 9 ∨ m ≤ l)
    (j i : ℕ) (hi : i < nx - 1)
    (hc : ∀ e ∈ Spec.cellSides j i, ∃ l, Spec.len (Spec.nodes nx disp) e = some l ∧ l ≤ max (12 * m) (1 / 10 ^ 6)) :
    Spec.Usable qs ny nx disp j i := by
  rw [usable_iff hi]
  intro e he
  obtain ⟨l, hl, h⟩ := hc e he
  refine ⟨l, hl, fun J hJ => h.trans (le_limit hq ?_ hJ)⟩
  intro l' hl'
  obtain ⟨e', he', h1, h2⟩ := mem_sides.1 hl'
  rcases hm e' he' l' h1 with h | h
  · linarith
  · exact h

/-- Straight axes: node `(j, i)` is drawn at `(a + b i, d + f j)`. -/
def Spec.Straight (ny nx : ℕ) (disp : ℕ → Option (ℝ × ℝ)) (a b d f : ℝ) : Prop :=
  ∀ j < ny, ∀ i < nx, Spec.nodes nx disp j i = some (a + b * i, d + f * j)

private theorem straight_len {ny nx : ℕ} {disp : ℕ → Option (ℝ × ℝ)} {a b d f : ℝ} (hs : Spec.Straight ny nx disp a b d f) :
    (∀ j < ny, ∀ i < nx - 1, Spec.len (Spec.nodes nx disp) ((j, i), (j, i + 1)) = some |b|) ∧
    (∀ j < ny - 1, ∀ i < nx, Spec.len (Spec.nodes nx disp) ((j, i), (j + 1, i)) = some |f|) := by
  constructor
  · intro j hj i hi
    unfold Spec.len
    rw [hs j hj i (by omega), hs j hj (i + 1) (by omega)]
    simp only [Option.some.injEq]
    rw [← Real.sqrt_sq_eq_abs]
    congr 1; push_cast; ring
  · intro j hj i hi
    unfold Spec.len
    rw [hs j (by omega) i hi, hs (j + 1) (by omega) i hi]
    simp only [Option.some.injEq]
    rw [← Real.sqrt_sq_eq_abs]
    congr 1; push_cast; ring

private theorem straight_short {ny nx : ℕ} {disp : ℕ → Option (ℝ × ℝ)} {a b d f : ℝ} (hs : Spec.Straight ny nx disp a b d f)
    (hy : 2 ≤ ny) (hx : 2 ≤ nx) (hb : 1 / 10 ^ 9 < |b|) (hf : 1 / 10 ^ 9 < |f|) :
    Spec.total ny nx (Spec.nodes nx disp) < 4 * Spec.short ny nx (Spec.nodes nx disp) (min |b| |f|) := by
  classical
  obtain ⟨hH, hV⟩ := straight_len hs
  have htot : Spec.total ny nx (Spec.nodes nx disp) ≤ ny * (nx - 1) + (ny - 1) * nx := by
    unfold Spec.total
    refine (Finset.card_filter_le _ _).trans ?_
    unfold Spec.sideSet
    refine (Finset.card_union_le _ _).trans ?_
    refine add_le_add (Finset.card_image_le.trans ?_) (Finset.card_image_le.trans ?_) <;>
      rw [Finset.card_product, Finset.card_range, Finset.card_range]
  obtain ⟨x, rfl⟩ : ∃ x, nx = x + 2 := ⟨nx - 2, by omega⟩
  obtain ⟨y, rfl⟩ : ∃ y, ny = y + 2 := ⟨ny - 2, by omega⟩
  rcases le_total |b| |f| with h | h
  · rw [min_eq_left h]
    have : (y + 2) * (x + 1) ≤ Spec.short (y + 2) (x + 2) (Spec.nodes (x + 2) disp) |b| := by
      unfold Spec.short
      rw [show (y + 2) * (x + 1) = ((Finset.range (y + 2) ×ˢ Finset.range (x + 1)).image
        fun p : ℕ × ℕ => (p, (p.1, p.2 + 1))).card by
          rw [Finset.card_image_of_injective _ (fun a b h => (Prod.mk.inj h).1), Finset.card_product, Finset.card_range,
            Finset.card_range]]
      refine Finset.card_le_card fun e he => ?_
      obtain ⟨p, hp, rfl⟩ := Finset.mem_image.1 he
      rw [Finset.mem_product, Finset.mem_range, Finset.mem_range] at hp
      refine Finset.mem_filter.2 ⟨?_, |b|, hH _ hp.1 _ hp.2, hb, le_rfl⟩
      unfold Spec.sideSet
      exact Finset.mem_union_left _ (Finset.mem_image.2 ⟨p, by simp; omega, rfl⟩)
    have e1 : y + 2 - 1 = y + 1 := by omega
    have e2 : x + 2 - 1 = x + 1 := by omega
    rw [e1, e2] at htot
    nlinarith
  · rw [min_eq_right h]
    have : (y + 1) * (x + 2) ≤ Spec.short (y + 2) (x + 2) (Spec.nodes (x + 2) disp) |f| := by
      unfold Spec.short
      rw [show (y + 1) * (x + 2) = ((Finset.range (y + 1) ×ˢ Finset.range (x + 2)).image
        fun p : ℕ × ℕ => (p, (p.1 + 1, p.2))).card by
          rw [Finset.card_image_of_injective _ (fun a b h => (Prod.mk.inj h).1), Finset.card_product, Finset.card_range,
            Finset.card_range]]
      refine Finset.card_le_card fun e he => ?_
      obtain ⟨p, hp, rfl⟩ := Finset.mem_image.1 he
      rw [Finset.mem_product, Finset.mem_range, Finset.mem_range] at hp
      refine Finset.mem_filter.2 ⟨?_, |f|, hV _ hp.1 _ hp.2, hf, le_rfl⟩
      unfold Spec.sideSet
      exact Finset.mem_union_right _ (Finset.mem_image.2 ⟨p, by simp; omega, rfl⟩)
    have e1 : y + 2 - 1 = y + 1 := by omega
    have e2 : x + 2 - 1 = x + 1 := by omega
    rw [e1, e2] at htot
    nlinarith

/-- **C284** (expected). On a panel with straight axes, every cell may be used. -/
def C284_statement : Prop :=
  ∀ (qs : List ℝ → List ℝ), IsQsortUp qs → ∀ (ny nx : ℕ), 2 ≤ ny → 2 ≤ nx → ∀ (disp : ℕ → Option (ℝ × ℝ)) (a b d f : ℝ),
    1 / 10 ^ 9 < |b| → 1 / 10 ^ 9 < |f| → Spec.Straight ny nx disp a b d f →
    ∀ j < ny - 1, ∀ i < nx - 1, Spec.Usable qs ny nx disp j i

/-- **C284** (what holds). On a panel with straight axes, a cell is used exactly if its longer side is at most 12 times its shorter
side (or 1e-6 pixels); as all cells have the same shape, either all of them are used or none is. -/
theorem C284_partial (qs : List ℝ → List ℝ) (hq : IsQsortUp qs) (ny nx : ℕ) (hy : 2 ≤ ny) (hx : 2 ≤ nx)
    (disp : ℕ → Option (ℝ × ℝ)) (a b d f : ℝ) (hb : 1 / 10 ^ 9 < |b|) (hf : 1 / 10 ^ 9 < |f|)
    (hs : Spec.Straight ny nx disp a b d f) (j : ℕ) (hj : j < ny - 1) (i : ℕ) (hi : i < nx - 1) :
    Spec.Usable qs ny nx disp j i ↔ max |b| |f| ≤ max (12 * min |b| |f|) (1 / 10 ^ 6) := by
  obtain ⟨hH, hV⟩ := straight_len hs
  have hcell : ∀ e ∈ Spec.cellSides j i, Spec.len (Spec.nodes nx disp) e = some |b| ∨
      Spec.len (Spec.nodes nx disp) e = some |f| := by
    intro e he
    simp only [Spec.cellSides, List.mem_cons, List.not_mem_nil, or_false] at he
    rcases he with rfl | rfl | rfl | rfl
    · exact Or.inl (hH _ (by omega) _ (by omega))
    · exact Or.inl (hH _ (by omega) _ (by omega))
    · exact Or.inr (hV _ (by omega) _ (by omega))
    · exact Or.inr (hV _ (by omega) _ (by omega))
  constructor
  · intro hu
    by_contra hc
    rw [not_le, max_lt_iff] at hc
    have hsh := straight_short hs hy hx hb hf
    rcases le_total |b| |f| with h | h
    · rw [max_eq_right h] at hc
      exact C283_seam qs hq ny nx disp _ hsh j i hi ((j, i), (j + 1, i)) (by simp [Spec.cellSides]) |f| (hV j hj i (by omega)) hc.1 hc.2 hu
    · rw [max_eq_left h] at hc
      exact C283_seam qs hq ny nx disp _ hsh j i hi ((j, i), (j, i + 1)) (by simp [Spec.cellSides]) |b| (hH j (by omega) i hi) hc.1 hc.2 hu
  · intro h
    refine C283_kept qs hq ny nx disp (min |b| |f|) ?_ j i hi ?_
    · intro e he l hl
      right
      unfold Spec.sideSet at he
      simp only [Finset.mem_union, Finset.mem_image, Finset.mem_product, Finset.mem_range] at he
      rcases he with ⟨p, hp, rfl⟩ | ⟨p, hp, rfl⟩
      · rw [hH _ hp.1 _ hp.2] at hl; cases hl; exact min_le_left _ _
      · rw [hV _ hp.1 _ hp.2] at hl; cases hl; exact min_le_right _ _
    · intro e he
      rcases hcell e he with h' | h'
      · exact ⟨_, h', (le_max_left _ _).trans h⟩
      · exact ⟨_, h', (le_max_right _ _).trans h⟩

/-- A `qsort`: the contract can be met. -/
noncomputable def qsortUp (l : List ℝ) : List ℝ := l.mergeSort fun a b => decide (a ≤ b)

theorem qsortUp_ok : IsQsortUp qsortUp where
  perm l := List.mergeSort_perm l _
  sorted l := by
    have := List.pairwise_mergeSort (le := fun a b : ℝ => decide (a ≤ b)) (by simpa using fun a b c => le_trans)
      (by simpa using fun a b => le_total a b) l
    unfold qsortUp
    simpa using this

/-- A 2×2 grid whose cell is 1 pixel wide and 13 pixels high. -/
noncomputable def tallD (k : ℕ) : Option (ℝ × ℝ) := some ((k % 2 : ℕ), 13 * (k / 2 : ℕ))

theorem tallD_straight : Spec.Straight 2 2 tallD 0 1 0 13 := by
  intro j _ i hi
  unfold Spec.nodes tallD
  have h1 : (j * 2 + i) % 2 = i := by omega
  have h2 : (j * 2 + i) / 2 = j := by omega
  rw [h1, h2]; simp

/-- **C284** (false). On a panel where cells are more than 12 times higher than wide, no cell is used. -/
theorem C284_false : ¬ C284_statement := by
  intro h
  have := h qsortUp qsortUp_ok 2 2 le_rfl le_rfl tallD 0 1 0 13 (by norm_num) (by norm_num) tallD_straight 0 (by norm_num) 0 (by norm_num)
  rw [C284_partial qsortUp qsortUp_ok 2 2 le_rfl le_rfl tallD 0 1 0 13 (by norm_num) (by norm_num) tallD_straight 0 (by norm_num) 0
    (by norm_num)] at this
  norm_num at this

/-- The hypotheses of C283_seam and C284_partial are met, with a cell that is not used. -/
example : Spec.total 2 2 (Spec.nodes 2 tallD) < 4 * Spec.short 2 2 (Spec.nodes 2 tallD) 1 := by
  have := straight_short tallD_straight le_rfl le_rfl (by norm_num) (by norm_num)
  simpa using this

/-! ## Resizing the figure -/

private theorem sorted_unique {l l' : List ℝ} (h : l.Perm l') (h1 : l.Pairwise (· ≤ ·)) (h2 : l'.Pairwise (· ≤ ·)) : l = l' :=
  h.eq_of_pairwise (fun a b _ _ hab hba => le_antisymm hab hba) h1 h2

/-- **C285**. Enlarging, moving or turning the panel (any map `M` that multiplies all distances by `c ≥ 1`) changes no cell, as long as
the sides are not shorter than 1e-6 pixels. -/
theorem C285_resize (qs : List ℝ → List ℝ) (hq : IsQsortUp qs) (ny nx : ℕ) (disp : ℕ → Option (ℝ × ℝ)) (M : ℝ × ℝ → ℝ × ℝ) (c : ℝ)
    (hc : 1 ≤ c)
    (hM : ∀ p q, Real.sqrt (((M q).1 - (M p).1) ^ 2 + ((M q).2 - (M p).2) ^ 2) = c * Real.sqrt ((q.1 - p.1) ^ 2 + (q.2 - p.2) ^ 2))
    (hlong : ∀ e ∈ Spec.sideSet ny nx, ∀ l, Spec.len (Spec.nodes nx disp) e = some l → 1 / 10 ^ 6 ≤ l)
    (j i : ℕ) (hj : j < ny - 1) (hi : i < nx - 1) :
    Spec.Usable qs ny nx (fun k => (disp k).map M) j i ↔ Spec.Usable qs ny nx disp j i := by
  have hlen : ∀ e, Spec.len (Spec.nodes nx fun k => (disp k).map M) e = (Spec.len (Spec.nodes nx disp) e).map (c * ·) := by
    intro e
    unfold Spec.len Spec.nodes
    dsimp only
    cases disp (e.1.1 * nx + e.1.2) <;> cases disp (e.2.1 * nx + e.2.2) <;> simp [hM]
  have hsides : sides ny nx (fun k => (disp k).map M) = (sides ny nx disp).map (c * ·) := by
    rw [sides_eq, sides_eq, List.map_filterMap]
    refine List.filterMap_congr fun e he => ?_
    rw [hlen]
    cases hl : Spec.len (Spec.nodes nx disp) e with
    | none => simp [counted]
    | some l =>
      have h6 := hlong e ((mem_edgeList ny nx e).1 he) l hl
      have h9 : (1 : ℝ) / 10 ^ 9 < 1 / 10 ^ 6 := by norm_num
      have h1 : 1 / 10 ^ 9 < l := h9.trans_le h6
      have h2 : 1 / 10 ^ 9 < c * l := by nlinarith
      simp only [Option.map_some, counted, if_pos h1, if_pos h2]
  have hsort : qs ((sides ny nx disp).map (c * ·)) = (qs (sides ny nx disp)).map (c * ·) := by
    refine sorted_unique ((hq.perm _).trans ((hq.perm _).map _).symm) (hq.sorted _) ?_
    refine List.Pairwise.map _ (fun a b hab => ?_) (hq.sorted _)
    exact mul_le_mul_of_nonneg_left hab (by linarith)
  have hget : ∀ (l : List ℝ) k, (l.map (c * ·)).getD k 0 = c * l.getD k 0 := by
    intro l k
    rw [List.getD_eq_getElem?_getD, List.getD_eq_getElem?_getD, List.getElem?_map]
    cases l[k]? <;> simp
  have hlim : jumpLimit qs (sides ny nx fun k => (disp k).map M) = (jumpLimit qs (sides ny nx disp)).map (c * ·) := by
    have hge : ∀ J, jumpLimit qs (sides ny nx disp) = some J → max (12 * (1 / 10 ^ 6 : ℝ)) (1 / 10 ^ 6) ≤ J := by
      intro J hJ
      refine le_limit hq (fun l hl => ?_) hJ
      obtain ⟨e, he, h1, _⟩ := mem_sides.1 hl
      exact hlong e he l h1
    rw [hsides]
    unfold jumpLimit at hge ⊢
    rw [List.length_map, hsort]
    split
    · rfl
    · rename_i h0
      rw [if_neg h0] at hge
      have hge := hge _ rfl
      simp only [hget, Option.map_some, Option.some.injEq]
      rw [← mul_add, mul_left_comm (1 / 2 : ℝ) c, ← mul_ite]
      generalize (if (if (sides ny nx disp).length / 2 < 1 then 1 else (sides ny nx disp).length / 2) % 2 = 1 then _ else _ : ℝ) = q at *
      have hq12 : 1 / 10 ^ 6 ≤ q * 12 := by
        rcases le_max_iff.1 ((le_max_left _ _).trans hge) with h | h
        · linarith
        · exfalso; norm_num at h
      have : 1 / 10 ^ 6 ≤ c * q * 12 := by nlinarith
      rw [max_eq_left this, max_eq_left hq12, mul_assoc]
  rw [usable_iff hi, usable_iff hi]
  refine forall₂_congr fun e he => ?_
  rw [hlen, hlim]
  cases hl : Spec.len (Spec.nodes nx disp) e with
  | none => simp
  | some l =>
    cases jumpLimit qs (sides ny nx disp) with
    | none => simp
    | some J =>
      simp only [Option.map_some, Option.some.injEq, exists_eq_left', forall_eq']
      exact mul_le_mul_iff_right₀ (by linarith)

/-- The hypotheses of C285_resize are met: turning by a quarter and doubling. -/
example : ∀ p q : ℝ × ℝ, Real.sqrt (((-2 * q.2) - (-2 * p.2)) ^ 2 + ((2 * q.1) - (2 * p.1)) ^ 2) =
    2 * Real.sqrt ((q.1 - p.1) ^ 2 + (q.2 - p.2) ^ 2) := by
  intro p q
  rw [show ((-2 * q.2) - (-2 * p.2)) ^ 2 + ((2 * q.1) - (2 * p.1)) ^ 2 = 2 ^ 2 * ((q.1 - p.1) ^ 2 + (q.2 - p.2) ^ 2) by ring,
    Real.sqrt_mul (by norm_num), Real.sqrt_sq (by norm_num)]

end Skyborn.Plot.Curly
