/-
Properties C27 and C32 at the level of the public function `fill`.
-/
import Verif.Gridfill.Fill
import Verif.Gridfill.Props

namespace Skyborn.Gridfill

open Skyborn

variable {K : Type} [Field K] [LinearOrder K] {α : Type}

theorem orderDims_ok {n x y : ℕ} (hx : x < n) (hy : y < n) (hxy : x ≠ y) {a : NDArr α} {sz : ℕ → ℕ} {val : (ℕ → ℕ) → α}
    (h : Lay (List.range n) a sz val) : ∃ b, orderDims a x y = some (b, y :: x :: otherDims n x y) ∧ Lay (y :: x :: otherDims n x y) b sz val := by
  have hn : a.shape.length = n := by rw [h.1]; simp
  have hyr : y ∈ (List.range n).erase x := by rw [List.mem_erase_of_ne hxy.symm]; simpa using hy
  obtain ⟨b1, b2, e1, e2, h2⟩ := h.rollTwo hx hy hxy
  refine ⟨_, ?_, h2⟩
  unfold orderDims removeInt
  rw [hn, if_pos ⟨by omega, by simpa using hx⟩]
  simp only [Int.toNat_natCast, Option.bind_eq_bind, Option.bind_some]
  rw [if_pos ⟨by omega, by simpa using hyr⟩]
  simp only [Option.bind_some, e1, erase_erase]
  have : (if (y : ℤ) < (x : ℤ) then (y : ℤ) + 1 else (y : ℤ)).toNat = if y < x then y + 1 else y := by
    split <;> split <;> omega
  rw [this, e2]
  simp

theorem prepData_ok {n x y : ℕ} (hx : x < n) (hy : y < n) (hxy : x ≠ y) {a : NDArr α} {sz : ℕ → ℕ} {val : (ℕ → ℕ) → α}
    (h : Lay (List.range n) a sz val) :
    ∃ c, prepData a x y = some (c, ⟨(y :: x :: otherDims n x y).map sz, y :: x :: otherDims n x y, n⟩) ∧
      c.shape = [sz y, sz x, ((otherDims n x y).map sz).prod] ∧
      ∀ f : ℕ → ℕ, (∀ d, d < n → f d < sz d) →
        c.get [f y, f x, ravel ((otherDims n x y).map sz) ((otherDims n x y).map f)] = val f := by
  obtain ⟨b, e, hb⟩ := orderDims_ok hx hy hxy h
  obtain ⟨c, ec, hc, hv⟩ := hb.merge
  refine ⟨c, ?_, hc, ?_⟩
  · unfold prepData
    simp only [e, Option.bind_eq_bind, Option.bind_some, hb.1, List.map_cons]
    have hn : a.shape.length = n := by rw [h.1]; simp
    simp [ec, hn]
  · intro f hf
    apply hv
    intro d hd
    exact hf d (by simpa using (perm_order hx hy hxy).mem_iff.mp hd)

theorem mapM_indexOf {l : List ℕ} : ∀ {ds : List ℕ}, (∀ d ∈ ds, d ∈ l) → ds.mapM (fun d => indexOf? l d) = some (ds.map fun d => l.idxOf d) := by
  intro ds
  induction ds with
  | nil => intro _; rfl
  | cons d ds ih =>
    intro h
    rw [List.mapM_cons, ih fun e he => h e (List.mem_cons_of_mem _ he)]
    simp [indexOf?, h d (by simp)]

theorem recoverData_ok {n x y : ℕ} (hx : x < n) (hy : y < n) (hxy : x ≠ y) {c : NDArr α} {sz : ℕ → ℕ}
    (hc : c.shape = [sz y, sz x, ((otherDims n x y).map sz).prod]) :
    ∃ b, recoverData c ⟨(y :: x :: otherDims n x y).map sz, y :: x :: otherDims n x y, n⟩ = some b ∧
      Lay (List.range n) b sz fun f => c.get [f y, f x, ravel ((otherDims n x y).map sz) ((otherDims n x y).map f)] := by
  obtain ⟨b, e, hb⟩ := lay_split hc
  obtain ⟨b', e', hb'⟩ := rollLoop_restores List.nodup_range (perm_order hx hy hxy) hb
  refine ⟨b', ?_, hb'⟩
  unfold recoverData
  rw [e]
  simp only [Option.bind_eq_bind, Option.bind_some]
  rw [mapM_indexOf (by
    intro d hd
    exact (perm_order hx hy hxy).mem_iff.mpr (by simpa using hd))]
  simpa using e'

/-- The 2-D slice of `a` through `idx` along the axes `y`, `x`: `(i, j) ↦ a[.., y := i, .., x := j, ..]`, `dflt` standing for masked
elements. Entries outside the grid are 0. -/
def sliceThrough (a : NDArr (Option K)) (x y : ℕ) (dflt : K) (idx : List ℕ) : ℕ → ℕ → K := fun i j =>
  if i < a.shape.getD y 0 ∧ j < a.shape.getD x 0 then (a.get ((idx.set y i).set x j)).getD dflt else 0

/-- The mask (1 = missing) of the same slice. -/
def maskThrough (a : NDArr (Option K)) (x y : ℕ) (idx : List ℕ) : ℕ → ℕ → ℤ := fun i j =>
  if i < a.shape.getD y 0 ∧ j < a.shape.getD x 0 then (if (a.get ((idx.set y i).set x j)).isNone then 1 else 0) else 0

theorem poissonFillGrids_ok [IsStrictOrderedRing K] {nlat nlon ngrid : ℕ} (h1 : 3 ≤ nlat) (h2 : 3 ≤ nlon) (o : Opts K) (g : NDArr K) (m : NDArr ℤ)
    (hg : g.shape = [nlat, nlon, ngrid]) (hm : m.shape = g.shape) :
    ∃ out it res, poissonFillGrids o g m = .ok (out, it, res) ∧ out.shape = g.shape ∧
      ∀ k, k < ngrid → ∃ g', poissonFill nlat nlon o (slice3 nlat nlon m k) (slice3 nlat nlon g k) = some (g', it k, res k) ∧
        ∀ i j, i < nlat → j < nlon → out.get [i, j, k] = g' i j := by
  unfold poissonFillGrids
  simp only [hg, List.getD_cons_zero, List.getD_cons_succ]
  rw [if_neg (by omega), if_neg (by rw [hm, hg]; simp)]
  obtain ⟨st, e, hs, hdone, -⟩ := forM_inv (lo := 0) (hi := ngrid) (Nat.zero_le _) (s := (g, (fun _ => 0 : ℕ → ℕ), (fun _ => 0 : ℕ → K)))
    (f := fun k st => do
      let r ← poissonFill nlat nlon o (slice3 nlat nlon m k) (slice3 nlat nlon st.1 k)
      return (storeSlice st.1 k r.1, Function.update st.2.1 k r.2.1, Function.update st.2.2 k r.2.2))
    (fun t st => st.1.shape = g.shape ∧
      (∀ k, k < t → ∃ g', poissonFill nlat nlon o (slice3 nlat nlon m k) (slice3 nlat nlon g k) = some (g', st.2.1 k, st.2.2 k) ∧
        ∀ i j, i < nlat → j < nlon → st.1.get [i, j, k] = g' i j) ∧
      (∀ k, t ≤ k → ∀ i j, st.1.get [i, j, k] = g.get [i, j, k]))
    ⟨rfl, fun k hk => absurd hk (by omega), fun _ _ _ _ => rfl⟩
    (by
      rintro t ⟨s, it, res⟩ - ht ⟨p1, p2, p3⟩
      have hsl : slice3 nlat nlon s t = slice3 nlat nlon g t := by
        funext i j; unfold slice3; rw [p3 t le_rfl i j]
      obtain ⟨g', n, r, e, -⟩ := C27_observed_unchanged (mask := slice3 nlat nlon m t) h1 h2 o (slice3 nlat nlon g t)
      refine ⟨(storeSlice s t g', Function.update it t n, Function.update res t r), by simp [hsl, e], p1, ?_, ?_⟩
      · intro k hk
        by_cases hkt : k = t
        · subst hkt
          exact ⟨g', by simpa using e, fun i j _ _ => by simp [storeSlice]⟩
        · obtain ⟨g'', e'', hv⟩ := p2 k (by omega)
          refine ⟨g'', by simpa [Function.update_of_ne hkt] using e'', fun i j hi hj => ?_⟩
          simp only [storeSlice, if_neg hkt]
          exact hv i j hi hj
      · intro k hk i j
        simp only [storeSlice, if_neg (show k ≠ t by omega)]
        exact p3 k (by omega) i j)
  refine ⟨st.1, st.2.1, st.2.2, ?_, hs.trans hg, hdone⟩
  rw [e]

theorem set_set_eq {n x y : ℕ} (hx : x < n) (hy : y < n) (hxy : x ≠ y) (idx : List ℕ) (hl : idx.length = n) (i j : ℕ) :
    (List.range n).map (fun d => if d = x then j else if d = y then i else idx.getD d 0) = (idx.set y i).set x j := by
  apply List.ext_getElem (by simp [hl])
  intro k h1 h2
  simp only [List.getElem_map, List.getElem_range, List.getElem_set]
  have hk : k < idx.length := by simpa using h2
  by_cases e1 : k = x
  · subst e1; simp
  · by_cases e2 : k = y
    · subst e2; simp [e1, Ne.symm e1]
    · simp [e1, e2, Ne.symm e1, Ne.symm e2, hk]

/-- C32: for every rank, shape and every pair of distinct axes of at least 3 points, `fill` returns an array of the original shape
and axis order in which every 2-D slice is the kernel's fill of that slice alone, and one convergence flag per slice, in C order
of the remaining axes. -/
theorem C32_fill_slices [IsStrictOrderedRing K] (a : NDArr (Option K)) {x y : ℕ} (hx : x < a.shape.length) (hy : y < a.shape.length) (hxy : x ≠ y)
    (h3x : 3 ≤ a.shape.getD x 0) (h3y : 3 ≤ a.shape.getD y 0) (o : Opts K) :
    ∃ out conv, fill (.masked a) x y o = .ok (out, conv) ∧ out.shape = a.shape ∧
      conv.length = ((otherDims a.shape.length x y).map fun d => a.shape.getD d 0).prod ∧
      ∀ idx, InB a.shape idx → ∃ g' n r,
        poissonFill (a.shape.getD y 0) (a.shape.getD x 0) o (maskThrough a x y idx) (sliceThrough a x y (10 ^ 20) idx) = some (g', n, r) ∧
        (∀ i j, i < a.shape.getD y 0 → j < a.shape.getD x 0 → out.get ((idx.set y i).set x j) = g' i j) ∧
        conv[ravel ((otherDims a.shape.length x y).map fun d => a.shape.getD d 0) ((otherDims a.shape.length x y).map fun d => idx.getD d 0)]?
          = some (decide (r ≤ o.tolerance)) := by
  obtain ⟨n, hn⟩ : ∃ n, n = a.shape.length := ⟨_, rfl⟩
  obtain ⟨sz, hsz⟩ : ∃ sz : ℕ → ℕ, sz = fun d => a.shape.getD d 0 := ⟨_, rfl⟩
  have hszy : a.shape.getD y 0 = sz y := by rw [hsz]
  have hszx : a.shape.getD x 0 = sz x := by rw [hsz]
  have hLay : Lay (List.range n) a sz (fun f => a.get ((List.range n).map f)) := by
    refine (lay_self (L := ℕ) List.nodup_range a (by simp [hn])).congr ?_ (fun _ _ => rfl)
    intro d hd
    rw [hsz]; simp only
    rw [idxOf_range (by simpa using hd)]
  rw [← hn] at hx hy ⊢
  obtain ⟨c, ec, hcs, hcv⟩ := prepData_ok hx hy hxy hLay
  rw [hszx] at h3x; rw [hszy] at h3y
  obtain ⟨out3, it, res, e3, hs3, h3⟩ := poissonFillGrids_ok h3y h3x o ⟨c.shape, fun idx => (c.get idx).getD (10 ^ 20)⟩
    ⟨c.shape, fun idx => if (c.get idx).isNone then 1 else 0⟩ hcs rfl
  have hs3' : out3.shape = [sz y, sz x, ((otherDims n x y).map sz).prod] := hs3.trans hcs
  obtain ⟨b, eb, hb⟩ := recoverData_ok hx hy hxy hs3'
  have hfill : fill (.masked a) x y o = .ok (b, (List.range (((otherDims n x y).map sz).prod)).map fun k => !decide (res k > o.tolerance)) := by
    simp only [fill, ec, e3, eb]
    rw [hcs]; simp
  refine ⟨b, _, hfill, ?_, by rw [← hsz]; simp, ?_⟩
  · rw [hb.1, hLay.1]
  · intro idx hidx
    have hl : idx.length = n := by rw [hidx.length, hn]
    have hb2 := (inB_iff.mp hidx).2
    have hlt : ∀ d, d < n → idx.getD d 0 < sz d := fun d hd => by rw [hsz]; exact hb2 d (hn ▸ hd)
    rw [← hsz]
    have hmapF : ∀ i j, (otherDims n x y).map (fun d => if d = x then j else if d = y then i else idx.getD d 0) =
        (otherDims n x y).map fun d => idx.getD d 0 := by
      intro i j
      apply List.map_congr_left
      intro d hd
      have := (List.mem_filter.mp hd).2
      simp only [decide_eq_true_eq] at this
      rw [if_neg this.1, if_neg this.2]
    have hFlt : ∀ i j, i < sz y → j < sz x → ∀ d, d < n → (if d = x then j else if d = y then i else idx.getD d 0) < sz d := by
      intro i j hi hj d hd
      split
      · next h => rw [h]; exact hj
      · split
        · next h => rw [h]; exact hi
        · exact hlt d hd
    obtain ⟨k, hk⟩ : ∃ k, k = ravel ((otherDims n x y).map sz) ((otherDims n x y).map fun d => idx.getD d 0) := ⟨_, rfl⟩
    have hklt : k < ((otherDims n x y).map sz).prod := by
      rw [hk]
      apply ravel_lt
      rw [inB_map]
      intro d hd
      exact hlt d (by simpa using (List.mem_filter.mp hd).1)
    have hcell : ∀ i j, i < sz y → j < sz x → c.get [i, j, k] = a.get ((idx.set y i).set x j) := by
      intro i j hi hj
      have := hcv _ (hFlt i j hi hj)
      rw [hmapF, ← hk, set_set_eq hx hy hxy idx hl] at this
      simpa [hxy.symm] using this
    obtain ⟨g', eg, hg'⟩ := h3 k hklt
    have hsm : slice3 (sz y) (sz x) (⟨c.shape, fun idx => if (c.get idx).isNone then 1 else 0⟩ : NDArr ℤ) k = maskThrough a x y idx := by
      funext i j
      unfold slice3 maskThrough
      rw [hszx, hszy]
      by_cases h : i < sz y ∧ j < sz x
      · rw [if_pos h, if_pos h]; simp only [hcell i j h.1 h.2]
      · rw [if_neg h, if_neg h]
    have hsg : slice3 (sz y) (sz x) (⟨c.shape, fun idx => (c.get idx).getD (10 ^ 20)⟩ : NDArr K) k = sliceThrough a x y (10 ^ 20) idx := by
      funext i j
      unfold slice3 sliceThrough
      rw [hszx, hszy]
      by_cases h : i < sz y ∧ j < sz x
      · rw [if_pos h, if_pos h]; simp only [hcell i j h.1 h.2]
      · rw [if_neg h, if_neg h]
    rw [hsm, hsg] at eg
    refine ⟨g', it k, res k, by rw [hszx, hszy]; exact eg, ?_, ?_⟩
    · intro i j hi hj
      rw [hszy] at hi; rw [hszx] at hj
      have := hb.2 _ (fun d hd => hFlt i j hi hj d (by simpa using hd))
      rw [set_set_eq hx hy hxy idx hl] at this
      rw [this]
      simp only [if_true, hxy.symm, if_false, hmapF, ← hk]
      exact hg' i j hi hj
    · rw [← hk, List.getElem?_map, List.getElem?_range hklt]
      simp [← not_lt]

theorem inB_set2 {s idx : List ℕ} (h : InB s idx) {x y i j : ℕ} (hi : i < s.getD y 0) (hj : j < s.getD x 0) :
    InB s ((idx.set y i).set x j) := by
  rw [inB_iff] at h ⊢
  refine ⟨by simpa using h.1, fun k hk => ?_⟩
  rw [List.getD_eq_getElem _ _ (by simp only [List.length_set]; omega)]
  simp only [List.getElem_set]
  by_cases e1 : x = k
  · subst e1; simpa using hj
  · by_cases e2 : y = k
    · subst e2; simpa [e1] using hi
    · have := h.2 k hk
      rw [List.getD_eq_getElem _ _ (by omega)] at this
      simpa [e1, e2] using this

/-- C27 for the public function: `fill` returns every unmasked value unchanged at its own position, for every rank, axis choice and
setting. -/
theorem C27_fill_keeps_observed [IsStrictOrderedRing K] (a : NDArr (Option K)) {x y : ℕ} (hx : x < a.shape.length) (hy : y < a.shape.length)
    (hxy : x ≠ y) (h3x : 3 ≤ a.shape.getD x 0) (h3y : 3 ≤ a.shape.getD y 0) (o : Opts K) :
    ∃ out conv, fill (.masked a) x y o = .ok (out, conv) ∧ out.shape = a.shape ∧
      ∀ idx v, InB a.shape idx → a.get idx = some v → out.get idx = v := by
  obtain ⟨out, conv, e, hs, -, hsl⟩ := C32_fill_slices a hx hy hxy h3x h3y o
  refine ⟨out, conv, e, hs, fun idx v hidx hv => ?_⟩
  obtain ⟨g', n, r, eg, hg, -⟩ := hsl idx hidx
  have hb := inB_iff.mp hidx
  have hself : (idx.set y (idx.getD y 0)).set x (idx.getD x 0) = idx := by
    rw [List.getD_eq_getElem _ _ (by omega), List.getD_eq_getElem _ _ (by omega)]
    simp
  have h1 := hg _ _ (hb.2 y hy) (hb.2 x hx)
  rw [hself] at h1
  obtain ⟨g'', n', r', eg', ho⟩ := C27_observed_unchanged (mask := maskThrough a x y idx) h3y h3x o (sliceThrough a x y (10 ^ 20) idx)
  rw [eg] at eg'
  simp only [Option.some.injEq, Prod.mk.injEq] at eg'
  rw [h1, eg'.1, ho]
  · unfold sliceThrough
    rw [if_pos ⟨hb.2 y hy, hb.2 x hx⟩, hself, hv]; rfl
  · rintro ⟨-, -, hm⟩
    apply hm
    unfold maskThrough
    rw [if_pos ⟨hb.2 y hy, hb.2 x hx⟩, hself, hv]; simp

/-- C32: `fill` raises a ValueError exactly when the axis numbers are not two different numbers in `0 .. ndim-1` or one of the two axes has
fewer than 3 points; negative axis numbers are refused. -/
theorem C32_fill_errors [IsStrictOrderedRing K] (a : NDArr (Option K)) (xdim ydim : ℤ) (o : Opts K) :
    fill (.masked a) xdim ydim o = .error .valueError ↔
      ¬ (0 ≤ xdim ∧ xdim < a.shape.length ∧ 0 ≤ ydim ∧ ydim < a.shape.length ∧ xdim ≠ ydim ∧
        3 ≤ a.shape.getD xdim.toNat 0 ∧ 3 ≤ a.shape.getD ydim.toNat 0) := by
  by_cases hd : 0 ≤ xdim ∧ xdim < a.shape.length ∧ 0 ≤ ydim ∧ ydim < a.shape.length ∧ xdim ≠ ydim
  · obtain ⟨h0, h1, h2, h3, h4⟩ := hd
    obtain ⟨x, rfl⟩ := Int.eq_ofNat_of_zero_le h0
    obtain ⟨y, rfl⟩ := Int.eq_ofNat_of_zero_le h2
    simp only [Int.ofNat_eq_natCast, Int.toNat_natCast] at *
    have hx : x < a.shape.length := by omega
    have hy : y < a.shape.length := by omega
    have hxy : x ≠ y := by omega
    by_cases hs : 3 ≤ a.shape.getD x 0 ∧ 3 ≤ a.shape.getD y 0
    · obtain ⟨out, conv, e, -⟩ := C32_fill_slices a hx hy hxy hs.1 hs.2 o
      rw [e]
      constructor
      · intro h; simp at h
      · intro h; exact absurd ⟨h0, h1, h2, h3, h4, hs.1, hs.2⟩ h
    · refine ⟨fun _ h => hs ⟨h.2.2.2.2.2.1, h.2.2.2.2.2.2⟩, fun _ => ?_⟩
      have hLay : Lay (List.range a.shape.length) a (fun d => a.shape.getD d 0) (fun f => a.get ((List.range a.shape.length).map f)) := by
        refine (lay_self (L := ℕ) List.nodup_range a (by simp)).congr ?_ (fun _ _ => rfl)
        intro d hd
        beta_reduce
        rw [idxOf_range (by simpa using hd)]
      obtain ⟨c, ec, hcs, -⟩ := prepData_ok hx hy hxy hLay
      simp only [fill, ec]
      have : poissonFillGrids o (⟨c.shape, fun idx => (c.get idx).getD (10 ^ 20)⟩ : NDArr K)
          ⟨c.shape, fun idx => if (c.get idx).isNone then 1 else 0⟩ = .error .valueError := by
        unfold poissonFillGrids
        simp only [hcs, List.getD_cons_zero, List.getD_cons_succ]
        rw [if_pos (by omega)]
      rw [this]
  · refine ⟨fun _ h => hd ⟨h.1, h.2.1, h.2.2.1, h.2.2.2.1, h.2.2.2.2.1⟩, fun _ => ?_⟩
    have : prepData a xdim ydim = none := by
      unfold prepData orderDims removeInt
      by_cases h1 : 0 ≤ xdim ∧ xdim.toNat ∈ List.range a.shape.length
      · rw [if_pos h1]
        have : ¬ (0 ≤ ydim ∧ ydim.toNat ∈ (List.range a.shape.length).erase xdim.toNat) := by
          rintro ⟨h2, h3⟩
          rw [List.nodup_range.mem_erase_iff] at h3
          simp only [List.mem_range] at h1 h3
          exact hd ⟨h1.1, by omega, h2, by omega, by omega⟩
        simp [this]
      · simp only [if_neg h1]; rfl
    simp only [fill, this]

/-- C32: an array without mask is refused, never silently returned unfilled. -/
theorem C32_needs_mask (a : NDArr K) (xdim ydim : ℤ) (o : Opts K) :
    (∃ e, fill (.plain a) xdim ydim o = .error e) ∧ fill (.nomask a) xdim ydim o = .error .valueError := by
  constructor
  · simp only [fill]; split <;> exact ⟨_, rfl⟩
  · simp only [fill]; split <;> rfl

/-- A 4-D array (time, lon, level, lat) of shape 2 x 4 x 2 x 3 satisfies the hypotheses of C27 and C32 with `xdim = 1`, `ydim = 3`. -/
example : let a : NDArr (Option ℚ) := ⟨[2, 4, 2, 3], fun idx => if idx = [1, 2, 0, 1] then none else some (idx.sum : ℚ)⟩
    1 < a.shape.length ∧ 3 < a.shape.length ∧ 3 ≤ a.shape.getD 1 0 ∧ 3 ≤ a.shape.getD 3 0 ∧ InB a.shape [1, 2, 0, 1] := by
  simp [InB]

end Skyborn.Gridfill
