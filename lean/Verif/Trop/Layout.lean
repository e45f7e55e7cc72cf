import Verif.Trop.Grid
import Mathlib.Data.List.NodupEquivFin

namespace Skyborn

/-- The named-axis meaning of `np.transpose`. -/
theorem Lay.transpose {α : Type} {dims : List ℕ} {b : NDArr α} {sz : ℕ → ℕ} {val : (ℕ → ℕ) → α} (h : Lay dims b sz val)
    {q : List ℕ} (hq : q.Perm (List.range dims.length)) : Lay (q.map fun j => dims.getD j 0) (b.transpose q) sz val := by
  have hnd : q.Nodup := hq.nodup_iff.mpr List.nodup_range
  have hlen : b.shape.length = dims.length := by rw [h.1, List.length_map]
  have hlt : ∀ j ∈ q, j < dims.length := fun j hj => List.mem_range.mp (hq.mem_iff.mp hj)
  refine ⟨?_, fun f hf => ?_⟩
  · unfold NDArr.transpose
    simp only [h.1, List.map_map]
    apply List.map_congr_left
    intro j hj
    have := hlt j hj
    simp only [Function.comp]
    rw [List.getD_eq_getElem _ _ (by simpa using this), List.getD_eq_getElem _ _ this, List.getElem_map]
  · have hf' : ∀ d ∈ dims, f d < sz d := by
      intro d hd
      obtain ⟨j, hj, rfl⟩ := List.mem_iff_getElem.mp hd
      apply hf
      rw [List.mem_map]
      exact ⟨j, hq.mem_iff.mpr (List.mem_range.mpr hj), List.getD_eq_getElem _ _ hj⟩
    rw [← h.2 f hf']
    unfold NDArr.transpose
    simp only [hlen]
    congr 1
    apply List.ext_getElem (by simp)
    intro j h1 h2
    have hj : j < dims.length := by simpa using h2
    have hjq : j ∈ q := hq.mem_iff.mpr (List.mem_range.mpr hj)
    rw [List.getElem_map, List.getElem_range, List.getElem_map, List.map_map,
      List.getD_eq_getElem _ _ (by simpa using List.idxOf_lt_length_of_mem hjq), List.getElem_map, List.getElem_idxOf]
    simp only [Function.comp]
    rw [List.getD_eq_getElem _ _ hj]

namespace Trop

/-! #### argsort -/

theorem argsort_eq {κ : Type} [LinearOrder κ] {n : ℕ} {key : ℕ → κ} {l : List ℕ} (hl : l.Perm (List.range n))
    (hs : l.Pairwise (fun i j => key i ≤ key j)) (hinj : ∀ i j, i < n → j < n → key i = key j → i = j) : argsort n key = l := by
  unfold argsort
  have h1 := List.perm_insertionSort (fun i j => key i ≤ key j) (List.range n)
  have h2 : ((List.range n).insertionSort (fun i j => key i ≤ key j)).Pairwise (fun i j => key i ≤ key j) := by
    haveI : Std.Total (fun i j : ℕ => key i ≤ key j) := ⟨fun i j => le_total _ _⟩
    haveI : IsTrans ℕ (fun i j : ℕ => key i ≤ key j) := ⟨fun i j k => le_trans⟩
    exact List.pairwise_insertionSort _ _
  refine List.Perm.eq_of_pairwise ?_ h2 hs (h1.trans hl.symm)
  intro a b ha hb hab hba
  have ha' := List.mem_range.mp (h1.mem_iff.mp ha)
  have hb' := List.mem_range.mp (hl.mem_iff.mp hb)
  exact hinj a b ha' hb' (le_antisymm hab hba)

/-! #### The axis order -/

theorem order_perm {n : ℕ} {L : List ℕ} (hn : L.Nodup) (hlt : ∀ d ∈ L, d < n) :
    (L ++ (List.range n).filter (fun d => d ∉ L)).Perm (List.range n) := by
  apply (List.perm_ext_iff_of_nodup ?_ List.nodup_range).mpr
  · intro d
    simp only [List.mem_append, List.mem_filter, List.mem_range, decide_eq_true_eq]
    constructor
    · rintro (h | h)
      · exact hlt d h
      · exact h.1
    · intro h
      by_cases hd : d ∈ L
      · exact Or.inl hd
      · exact Or.inr ⟨h, hd⟩
  · apply List.Nodup.append hn (List.nodup_range.filter _)
    intro d h1 h2
    rw [List.mem_filter] at h2
    simpa [h1] using h2.2

theorem cast_filter (n : ℕ) (L : List ℕ) :
    ((List.range n).map (fun i : ℕ => (i : ℤ))).filter (fun i => i ∉ L.map (fun i : ℕ => (i : ℤ))) =
      ((List.range n).filter (fun d => d ∉ L)).map (fun i : ℕ => (i : ℤ)) := by
  rw [List.filter_map]
  congr 1
  apply List.filter_congr
  intro d _
  simp only [Function.comp, decide_eq_decide, List.mem_map, Nat.cast_inj, exists_eq_right]

/-- The axis assignments `trop_wmo` is documented for: a level axis and either (2-D) one horizontal axis, (3-D) both horizontal
axes or one of them and time, or (4-D) both horizontal axes and any fourth axis (`timedim` or unnamed). Absent axes are negative
(or, for time, `None`). -/
structure Layout (n : ℕ) (xdim ydim levdim : ℤ) (timedim : Option ℤ) : Prop where
  lev : 0 ≤ levdim
  bound : xdim < n ∧ ydim < n ∧ levdim < n ∧ timedim.getD (-1) < n
  distinct : (0 ≤ xdim → xdim ≠ ydim ∧ xdim ≠ levdim ∧ xdim ≠ timedim.getD (-1)) ∧ ydim ≠ levdim ∧
    (0 ≤ ydim → ydim ≠ timedim.getD (-1)) ∧ levdim ≠ timedim.getD (-1)
  shape : (n = 2 ∧ (0 ≤ xdim ∨ 0 ≤ ydim)) ∨
    (n = 3 ∧ ((0 ≤ xdim ∧ 0 ≤ ydim) ∨ ((0 ≤ xdim ∨ 0 ≤ ydim) ∧ 0 ≤ timedim.getD (-1)))) ∨ (n = 4 ∧ 0 ≤ xdim ∧ 0 ≤ ydim)

/-- Position of the level axis in the kernels' layout. -/
def levPos (n : ℕ) : ℕ := if n = 2 then 1 else 2

theorem newOrder_ok {n : ℕ} {xdim ydim levdim : ℤ} {timedim : Option ℤ} (h : Layout n xdim ydim levdim timedim) :
    ∃ perm : List ℕ, newOrder n xdim ydim levdim timedim = .ok (perm.map (fun i : ℕ => (i : ℤ))) ∧ perm.Perm (List.range n) ∧
      perm[levPos n]? = some levdim.toNat := by
  have fin : ∀ L : List ℕ, L.Nodup → (∀ d ∈ L, d < n) → L[levPos n]? = some levdim.toNat →
      ∃ perm : List ℕ, (Except.ok (L.map (fun i : ℕ => (i : ℤ)) ++
        ((List.range n).map (fun i : ℕ => (i : ℤ))).filter (fun i => i ∉ L.map (fun i : ℕ => (i : ℤ)))) : Except TErr (List ℤ)) =
          .ok (perm.map (fun i : ℕ => (i : ℤ))) ∧ perm.Perm (List.range n) ∧ perm[levPos n]? = some levdim.toNat := by
    intro L h1 h2 h3
    refine ⟨L ++ (List.range n).filter (fun d => d ∉ L), by rw [cast_filter, List.map_append], order_perm h1 h2, ?_⟩
    obtain ⟨h4, h5⟩ := List.getElem?_eq_some_iff.mp h3
    rw [List.getElem?_append_left h4, h3]
  obtain ⟨hlev, ⟨bx, by', bl, bt⟩, ⟨dx, dyl, dyt, dlt⟩, hsh⟩ := h
  obtain ⟨lv, rfl⟩ := Int.eq_ofNat_of_zero_le hlev
  unfold newOrder
  rcases hsh with ⟨rfl, hxy⟩ | ⟨rfl, hxy⟩ | ⟨rfl, hx, hy⟩
  · rw [if_pos rfl]
    by_cases hy : 0 ≤ ydim
    · rw [if_pos hy]
      obtain ⟨y, rfl⟩ := Int.eq_ofNat_of_zero_le hy
      exact fin [y, lv] (by simp; omega) (by simp; omega) (by simp [levPos])
    · have hx : 0 ≤ xdim := by omega
      rw [if_neg hy, if_pos hx]
      obtain ⟨x, rfl⟩ := Int.eq_ofNat_of_zero_le hx
      exact fin [x, lv] (by simp; omega) (by simp; omega) (by simp [levPos])
  · rw [if_neg (by omega)]
    by_cases hb : 0 ≤ xdim ∧ 0 ≤ ydim
    · obtain ⟨x, rfl⟩ := Int.eq_ofNat_of_zero_le hb.1
      obtain ⟨y, rfl⟩ := Int.eq_ofNat_of_zero_le hb.2
      have htd : timedim.getD (-1) < 0 := by
        by_contra hc
        have h3 := dyt hb.2
        have h4 := (dx hb.1)
        generalize timedim.getD (-1) = td at *
        omega
      cases timedim with
      | none =>
        simp only [hb.1, hb.2, hlev, if_true]
        exact fin [y, x, lv] (by simp; omega) (by simp; omega) (by simp [levPos])
      | some td =>
        have htd' : td < 0 := htd
        dsimp only
        rw [if_neg (by omega)]
        simp only [hb.1, hb.2, hlev, if_true]
        rw [if_neg (by omega), List.append_nil]
        exact fin [y, x, lv] (by simp; omega) (by simp; omega) (by simp [levPos])
    · have hone : (0 ≤ xdim ∨ 0 ≤ ydim) ∧ 0 ≤ timedim.getD (-1) := by tauto
      cases timedim with
      | none => simp at hone
      | some td =>
        simp only [Option.getD_some] at dx dyt dlt bt hone
        obtain ⟨q, rfl⟩ := Int.eq_ofNat_of_zero_le hone.2
        dsimp only
        rw [if_pos ⟨rfl, hone.2, by tauto⟩]
        by_cases hy : 0 ≤ ydim
        · rw [if_pos hy]
          obtain ⟨y, rfl⟩ := Int.eq_ofNat_of_zero_le hy
          have := dyt hy
          exact fin [y, q, lv] (by simp; omega) (by simp; omega) (by simp [levPos])
        · rw [if_neg hy]
          have hx : 0 ≤ xdim := by tauto
          obtain ⟨x, rfl⟩ := Int.eq_ofNat_of_zero_le hx
          have := dx hx
          exact fin [x, q, lv] (by simp; omega) (by simp; omega) (by simp [levPos])
  · rw [if_neg (by omega)]
    obtain ⟨x, rfl⟩ := Int.eq_ofNat_of_zero_le hx
    obtain ⟨y, rfl⟩ := Int.eq_ofNat_of_zero_le hy
    have h1 := dx hx
    have h2 := dyt hy
    cases timedim with
    | none =>
      simp only [hx, hy, hlev, if_true]
      exact fin [y, x, lv] (by simp; omega) (by simp; omega) (by simp [levPos])
    | some td =>
      simp only [Option.getD_some] at h1 h2 dlt bt
      dsimp only
      rw [if_neg (by omega)]
      simp only [hx, hy, hlev, if_true]
      by_cases htd : 0 ≤ td
      · rw [if_pos htd]
        obtain ⟨q, rfl⟩ := Int.eq_ofNat_of_zero_le htd
        exact fin [y, x, lv, q] (by simp; omega) (by simp; omega) (by simp [levPos])
      · rw [if_neg htd, List.append_nil]
        exact fin [y, x, lv] (by simp; omega) (by simp; omega) (by simp [levPos])

theorem checkAxes_ok {n : ℕ} {perm : List ℕ} (hp : perm.Perm (List.range n)) :
    checkAxes n (perm.map (fun i : ℕ => (i : ℤ))) = .ok perm := by
  unfold checkAxes
  have hlt : ∀ d ∈ perm, d < n := fun d hd => List.mem_range.mp (hp.mem_iff.mp hd)
  have hc : (perm.map (fun i : ℕ => (i : ℤ))).length = n ∧ ∀ d ∈ perm.map (fun i : ℕ => (i : ℤ)), -(n : ℤ) ≤ d ∧ d < n := by
    refine ⟨by rw [List.length_map, hp.length_eq, List.length_range], fun d hd => ?_⟩
    obtain ⟨e, he, rfl⟩ := List.mem_map.mp hd
    have := hlt e he
    omega
  rw [if_pos hc]
  dsimp only
  have : (perm.map (fun i : ℕ => (i : ℤ))).map (fun d : ℤ => if d < 0 then (d + (n : ℤ)).toNat else d.toNat) = perm := by
    rw [List.map_map]
    conv_rhs => rw [← List.map_id perm]
    apply List.map_congr_left
    intro d _
    simp only [Function.comp, id]
    rw [if_neg (by omega)]
    omega
  rw [this, if_pos (hp.nodup_iff.mpr List.nodup_range)]

theorem inverse_eq {n : ℕ} {perm : List ℕ} (hp : perm.Perm (List.range n)) :
    argsort n (fun i => (perm.map (fun i : ℕ => (i : ℤ))).getD i 0) = (List.range n).map perm.idxOf := by
  have hnd : perm.Nodup := hp.nodup_iff.mpr List.nodup_range
  have hlen : perm.length = n := by rw [hp.length_eq, List.length_range]
  have hget : ∀ i, i < n → (perm.map (fun i : ℕ => (i : ℤ))).getD i 0 = ((perm.getD i 0 : ℕ) : ℤ) := by
    intro i hi
    rw [List.getD_eq_getElem _ _ (by simpa [hlen] using hi), List.getElem_map, List.getD_eq_getElem _ _ (by omega)]
  have hidx : ∀ d, d < n → perm.idxOf d < n := fun d hd => by
    rw [← hlen]; exact List.idxOf_lt_length_of_mem (hp.mem_iff.mpr (List.mem_range.mpr hd))
  have hback : ∀ d, d < n → perm.getD (perm.idxOf d) 0 = d := fun d hd => by
    rw [List.getD_eq_getElem _ _ (by rw [hlen]; exact hidx d hd), List.getElem_idxOf]
  apply argsort_eq
  · apply (List.perm_ext_iff_of_nodup ?_ List.nodup_range).mpr
    · intro j
      simp only [List.mem_map, List.mem_range]
      constructor
      · rintro ⟨d, hd, rfl⟩; exact hidx d hd
      · intro hj
        refine ⟨perm[j], List.mem_range.mp (hp.mem_iff.mp (List.getElem_mem (by omega))), hnd.idxOf_getElem j (by omega)⟩
    · apply List.Nodup.map_on _ List.nodup_range
      intro a ha b hb hab
      rw [← hback a (List.mem_range.mp ha), hab, hback b (List.mem_range.mp hb)]
  · rw [List.pairwise_map]
    have : (List.range n).Pairwise (· < ·) := List.pairwise_lt_range
    apply this.imp_of_mem
    intro a b ha hb hab
    have ha := List.mem_range.mp ha
    have hb := List.mem_range.mp hb
    rw [hget _ (hidx a ha), hget _ (hidx b hb), hback a ha, hback b hb]
    exact_mod_cast hab.le
  · intro i j hi hj hij
    rw [hget i hi, hget j hj, Int.natCast_inj, List.getD_eq_getElem _ _ (by omega), List.getD_eq_getElem _ _ (by omega)] at hij
    exact (hnd.getElem_inj_iff).mp hij

theorem restore_eq {n : ℕ} {perm : List ℕ} (hp : perm.Perm (List.range n)) {lv : ℕ} (hl : perm[2]? = some lv) :
    (restoreOrder ((List.range n).map perm.idxOf)).Perm (List.range (n - 1)) ∧
    (restoreOrder ((List.range n).map perm.idxOf)).map (fun j => (perm.eraseIdx 2).getD j 0) = (List.range n).filter (fun d => d ≠ lv) := by
  have hnd : perm.Nodup := hp.nodup_iff.mpr List.nodup_range
  have hlen : perm.length = n := by rw [hp.length_eq, List.length_range]
  obtain ⟨h2, rfl⟩ := List.getElem?_eq_some_iff.mp hl
  have hidx : ∀ d, d < n → perm.idxOf d < n := fun d hd => by
    rw [← hlen]; exact List.idxOf_lt_length_of_mem (hp.mem_iff.mpr (List.mem_range.mpr hd))
  have hback : ∀ d (hd : d < n), perm[perm.idxOf d]'(by rw [hlen]; exact hidx d hd) = d := fun d hd => List.getElem_idxOf _
  have hne : ∀ d, d < n → (perm.idxOf d ≠ 2 ↔ d ≠ perm[2]) := by
    intro d hd
    rw [not_iff_not]
    constructor
    · intro h; have := hback d hd; simp only [h] at this; exact this.symm
    · intro h; rw [h, hnd.idxOf_getElem 2 h2]
  have e : restoreOrder ((List.range n).map perm.idxOf) =
      ((List.range n).filter (fun d => d ≠ perm[2])).map (fun d => if 2 < perm.idxOf d then perm.idxOf d - 1 else perm.idxOf d) := by
    unfold restoreOrder
    rw [List.filter_map, List.map_map]
    congr 1
    apply List.filter_congr
    intro d hd
    have := hne d (List.mem_range.mp hd)
    simp only [Function.comp, decide_eq_decide]
    exact this
  have hmap : ((List.range n).filter (fun d => d ≠ perm[2])).map (fun d => (perm.eraseIdx 2).getD
      (if 2 < perm.idxOf d then perm.idxOf d - 1 else perm.idxOf d) 0) = (List.range n).filter (fun d => d ≠ perm[2]) := by
    conv_rhs => rw [← List.map_id ((List.range n).filter (fun d => d ≠ perm[2]))]
    apply List.map_congr_left
    intro d hd
    rw [List.mem_filter, List.mem_range, decide_eq_true_eq] at hd
    have h1 := (hne d hd.1).mpr hd.2
    have h3 := hidx d hd.1
    have hb := hback d hd.1
    have hle : (perm.eraseIdx 2).length = n - 1 := by rw [List.length_eraseIdx, if_pos h2, hlen]
    have hin : (if 2 < perm.idxOf d then perm.idxOf d - 1 else perm.idxOf d) < (perm.eraseIdx 2).length := by
      rw [hle]; split <;> omega
    rw [List.getD_eq_getElem _ _ hin, List.getElem_eraseIdx, id]
    by_cases hlt : 2 < perm.idxOf d
    · simp only [if_pos hlt]
      rw [dif_neg (by omega)]
      simp only [show perm.idxOf d - 1 + 1 = perm.idxOf d by omega]
      exact hb
    · simp only [if_neg hlt]
      rw [dif_pos (by omega)]
      exact hb
  refine ⟨?_, by rw [e, List.map_map]; exact hmap⟩
  have hle : (perm.eraseIdx 2).length = n - 1 := by rw [List.length_eraseIdx, if_pos h2, hlen]
  rw [e]
  have hnd' : ((List.range n).filter (fun d => d ≠ perm[2])).Nodup := List.nodup_range.filter _
  apply List.Subperm.perm_of_length_le
  · apply List.Nodup.subperm
    · apply List.Nodup.of_map (fun j => (perm.eraseIdx 2).getD j 0)
      rw [List.map_map]
      rw [show ((fun j => (perm.eraseIdx 2).getD j 0) ∘ fun d => if 2 < perm.idxOf d then perm.idxOf d - 1 else perm.idxOf d) =
        (fun d => (perm.eraseIdx 2).getD (if 2 < perm.idxOf d then perm.idxOf d - 1 else perm.idxOf d) 0) from rfl, hmap]
      exact hnd'
    · intro j hj
      obtain ⟨d, hd, rfl⟩ := List.mem_map.mp hj
      rw [List.mem_filter, List.mem_range, decide_eq_true_eq] at hd
      have h1 := (hne d hd.1).mpr hd.2
      have h3 := hidx d hd.1
      rw [List.mem_range]
      split <;> omega
  · rw [List.length_range, List.length_map]
    have hp2 : perm[2] < n := List.mem_range.mp (hp.mem_iff.mp (List.getElem_mem h2))
    have : (List.range n).filter (fun d => d ≠ perm[2]) = (List.range n).erase perm[2] := by
      rw [List.nodup_range.erase_eq_filter]
      apply List.filter_congr; intro d _
      by_cases h : d = perm[2] <;> simp [h]
    rw [this, List.length_erase_of_mem (List.mem_range.mpr hp2), List.length_range]

end Trop
end Skyborn
