/-
Properties C24 (latitude reversal), C25 (get_apiorder), C26 (to3d), C59 (inspect_gridtype).
-/
import Verif.Windspharm.ToolsProps
import Mathlib.Tactic.Positivity

namespace Skyborn.Windspharm

open Skyborn

variable {α : Type}

/-! ## C24 -/

theorem normAxis_lt {n ax : ℕ} {axis : ℤ} (h : normAxis n axis = some ax) : ax < n := by
  unfold normAxis at h
  split at h
  · simp at h
  · simp only [Option.some.injEq] at h
    subst h
    split <;> omega

/-- The accepted axis numbers: `axis` in `0 .. ndim-1` means itself, `-1 .. -ndim` counts from the end. -/
theorem normAxis_eq_some {n ax : ℕ} {axis : ℤ} : normAxis n axis = some ax ↔ ax < n ∧ (axis = ax ∨ axis = (ax : ℤ) - n) := by
  unfold normAxis
  split
  · simp; omega
  · simp only [Option.some.injEq]
    split <;> omega

theorem flip_idx_inB {s idx : List ℕ} (h : InB s idx) {ax : ℕ} : InB s (idx.set ax (s.getD ax 0 - 1 - idx.getD ax 0)) := by
  rw [inB_iff] at h ⊢
  refine ⟨by simpa using h.1, fun k hk => ?_⟩
  rw [List.getD_eq_getElem _ _ (by simp only [List.length_set]; omega), List.getElem_set]
  have := h.2 k hk
  split
  · next e => subst e; omega
  · rwa [List.getD_eq_getElem _ _ (by omega)] at this

theorem flip_flip_idx {s idx : List ℕ} (h : InB s idx) {ax : ℕ} (ha : ax < s.length) :
    (idx.set ax (s.getD ax 0 - 1 - idx.getD ax 0)).set ax (s.getD ax 0 - 1 - (idx.set ax (s.getD ax 0 - 1 - idx.getD ax 0)).getD ax 0) = idx := by
  have hb := inB_iff.mp h
  have h1 := hb.2 ax ha
  have hl : ax < idx.length := by omega
  obtain ⟨q, hq⟩ : ∃ q, q = s.getD ax 0 - 1 - idx.getD ax 0 := ⟨_, rfl⟩
  rw [← hq, List.set_set]
  have h2 : (idx.set ax q).getD ax 0 = q := by
    rw [List.getD_eq_getElem _ _ (by simpa using hl), List.getElem_set_self]
  rw [h2, hq, show s.getD ax 0 - 1 - (s.getD ax 0 - 1 - idx.getD ax 0) = idx.getD ax 0 by omega, List.getD_eq_getElem _ _ hl]
  simp

/-- C24: `reverse_latdim` succeeds for same-shaped fields and every valid axis (negative included), keeps the shape, and puts the value of
latitude row `i` in row `n - 1 - i`, nothing else moves. -/
theorem C24_reverse (u v : NDArr α) (hs : u.shape = v.shape) {axis : ℤ} {ax : ℕ} (ha : ax < u.shape.length)
    (hax : axis = ax ∨ axis = (ax : ℤ) - u.shape.length) :
    ∃ u' v', reverseLatdim u v axis = some (u', v') ∧ u'.shape = u.shape ∧ v'.shape = v.shape ∧
      ∀ idx, u'.get idx = u.get (idx.set ax (u.shape.getD ax 0 - 1 - idx.getD ax 0)) ∧
        v'.get idx = v.get (idx.set ax (v.shape.getD ax 0 - 1 - idx.getD ax 0)) := by
  refine ⟨flipAxis u ax, flipAxis v ax, ?_, rfl, rfl, fun idx => ⟨rfl, rfl⟩⟩
  unfold reverseLatdim
  rw [if_neg (by simpa using hs), normAxis_eq_some.mpr ⟨ha, hax⟩]
  rfl

/-- C24: `reverse_latdim` is an involution. -/
theorem C24_involution (u v : NDArr α) (axis : ℤ) {u' v' : NDArr α} (h : reverseLatdim u v axis = some (u', v')) :
    ∃ u'' v'', reverseLatdim u' v' axis = some (u'', v'') ∧ NDArr.Eqv u'' u ∧ NDArr.Eqv v'' v := by
  unfold reverseLatdim at h
  split at h
  · simp at h
  · next hs =>
    push Not at hs
    obtain ⟨ax, e, h⟩ := Option.bind_eq_some_iff.mp h
    simp only [Option.pure_def, Option.some.injEq, Prod.mk.injEq] at h
    obtain ⟨rfl, rfl⟩ := h
    have ha := normAxis_lt e
    refine ⟨flipAxis (flipAxis u ax) ax, flipAxis (flipAxis v ax) ax, ?_, ⟨rfl, fun idx hi => ?_⟩, ⟨rfl, fun idx hi => ?_⟩⟩
    · unfold reverseLatdim
      rw [if_neg (by simpa [flipAxis] using hs), show (flipAxis u ax).shape = u.shape from rfl, e]
      rfl
    · show u.get _ = _
      exact congrArg u.get (flip_flip_idx (s := u.shape) hi ha)
    · show v.get _ = _
      exact congrArg v.get (flip_flip_idx (s := v.shape) hi (hs ▸ ha))

/-- C24: `order_latdim` keeps every (latitude, u, v) triple together: there is one row map `σ` (the identity or the reversal) with
`lat'[i] = lat[σ i]`, `u'[.., i, ..] = u[.., σ i, ..]`, `v'[.., i, ..] = v[.., σ i, ..]`; and the first latitude is never south of the last. -/
theorem C24_order_triples {K : Type} [LinearOrder K] (lat : List K) (u v : NDArr α) {axis : ℤ} {ax : ℕ} (hs : u.shape = v.shape)
    (ha : ax < u.shape.length) (hax : axis = ax ∨ axis = (ax : ℤ) - u.shape.length) (hl : lat.length = u.shape.getD ax 0) (hne : lat ≠ []) :
    ∃ (lat' : List K) (u' v' : NDArr α) (σ : ℕ → ℕ), orderLatdim lat u v axis = some (lat', u', v') ∧ lat'.length = lat.length ∧
      u'.shape = u.shape ∧ v'.shape = v.shape ∧
      (∀ i, i < lat.length → σ i < lat.length ∧ σ (σ i) = i) ∧
      (∀ i, i < lat.length → lat'[i]? = lat[σ i]?) ∧
      (∀ idx, InB u.shape idx → u'.get idx = u.get (idx.set ax (σ (idx.getD ax 0))) ∧ v'.get idx = v.get (idx.set ax (σ (idx.getD ax 0)))) ∧
      ∀ f l, lat'.head? = some f → lat'.getLast? = some l → l ≤ f := by
  have hn : normAxis u.shape.length axis = some ax := normAxis_eq_some.mpr ⟨ha, hax⟩
  obtain ⟨first, ef⟩ : ∃ f, lat.head? = some f := ⟨lat.head hne, List.head?_eq_some_head hne⟩
  obtain ⟨last, el⟩ : ∃ f, lat.getLast? = some f := ⟨lat.getLast hne, List.getLast?_eq_some_getLast hne⟩
  by_cases hlt : first < last
  · refine ⟨lat.reverse, flipAxis u ax, flipAxis v ax, fun i => lat.length - 1 - i, ?_, by simp, rfl, rfl, ?_, ?_, ?_, ?_⟩
    · unfold orderLatdim reverseLatdim
      rw [if_neg (by simpa using hs)]
      simp only [hn, Option.bind_eq_bind, Option.bind_some]
      rw [if_neg (by simpa using hl)]
      simp [ef, el, hlt, hs]
    · intro i hi; beta_reduce; constructor <;> omega
    · intro i hi
      rw [List.getElem?_reverse (by omega)]
    · intro idx hidx
      constructor
      · show u.get _ = _; rw [hl]
      · show v.get _ = _; rw [hl, hs]
    · intro f l h1 h2
      rw [List.head?_reverse, el] at h1
      rw [List.getLast?_reverse, ef] at h2
      simp only [Option.some.injEq] at h1 h2
      subst h1; subst h2; exact hlt.le
  · refine ⟨lat, u, v, id, ?_, rfl, rfl, rfl, fun i hi => ⟨hi, rfl⟩, fun i _ => rfl, ?_, ?_⟩
    · unfold orderLatdim
      rw [if_neg (by simpa using hs)]
      simp only [hn, Option.bind_eq_bind, Option.bind_some]
      rw [if_neg (by simpa using hl)]
      simp [ef, el, hlt]
    · intro idx hidx
      have hb := inB_iff.mp hidx
      have : idx.set ax (id (idx.getD ax 0)) = idx := by
        rw [id, List.getD_eq_getElem _ _ (by omega)]; simp
      rw [this]; exact ⟨rfl, rfl⟩
    · intro f l h1 h2
      rw [ef] at h1; rw [el] at h2
      simp only [Option.some.injEq] at h1 h2
      subst h1; subst h2; exact not_lt.mp hlt

/-- C24: a strictly monotone latitude vector comes back strictly north-to-south. -/
theorem C24_order_monotone {K : Type} [LinearOrder K] (lat : List K) (u v : NDArr α) (axis : ℤ) {lat' : List K} {u' v' : NDArr α}
    (h : orderLatdim lat u v axis = some (lat', u', v')) (hm : lat.Pairwise (· < ·) ∨ lat.Pairwise (· > ·)) : lat'.Pairwise (· > ·) := by
  unfold orderLatdim at h
  split at h
  · simp at h
  · obtain ⟨ax, e, h⟩ := Option.bind_eq_some_iff.mp h
    split at h
    · simp at h
    · obtain ⟨f, ef, h⟩ := Option.bind_eq_some_iff.mp h
      obtain ⟨l, el, h⟩ := Option.bind_eq_some_iff.mp h
      split at h
      · next hlt =>
        obtain ⟨r, er, h⟩ := Option.bind_eq_some_iff.mp h
        simp only [Option.pure_def, Option.some.injEq, Prod.mk.injEq] at h
        rw [← h.1]
        rcases hm with hm | hm
        · rw [List.pairwise_reverse]; exact hm
        · exfalso
          cases lat with
          | nil => simp at ef
          | cons a t =>
            simp only [List.head?_cons, Option.some.injEq] at ef
            subst ef
            rw [List.pairwise_cons] at hm
            rcases List.mem_cons.mp (List.mem_of_getLast? el) with h' | h'
            · exact absurd hlt (by rw [h']; exact lt_irrefl _)
            · exact lt_asymm hlt (hm.1 _ h')
      · next hlt =>
        simp only [Option.pure_def, Option.some.injEq, Prod.mk.injEq] at h
        rw [← h.1]
        rcases hm with hm | hm
        · cases lat with
          | nil => simp at ef
          | cons a t =>
            simp only [List.head?_cons, Option.some.injEq] at ef
            subst ef
            rw [List.pairwise_cons] at hm
            cases t with
            | nil => simp
            | cons b t =>
              exfalso
              apply hlt
              have : l ∈ b :: t := by
                rw [List.getLast?_cons_cons] at el
                exact List.mem_of_getLast? el
              exact hm.1 _ this
        · exact hm

/-- C24: `order_latdim` is idempotent. -/
theorem C24_order_idempotent {K : Type} [LinearOrder K] (lat : List K) (u v : NDArr α) (axis : ℤ) {lat' : List K} {u' v' : NDArr α}
    (h : orderLatdim lat u v axis = some (lat', u', v')) : orderLatdim lat' u' v' axis = some (lat', u', v') := by
  have h0 := h
  unfold orderLatdim at h
  split at h
  · simp at h
  · next hs =>
    push Not at hs
    obtain ⟨ax, e, h⟩ := Option.bind_eq_some_iff.mp h
    split at h
    · simp at h
    · next hl =>
      push Not at hl
      obtain ⟨f, ef, h⟩ := Option.bind_eq_some_iff.mp h
      obtain ⟨l, el, h⟩ := Option.bind_eq_some_iff.mp h
      split at h
      · next hlt =>
        unfold reverseLatdim at h
        rw [if_neg (by simpa using hs), e] at h
        simp only [Option.bind_eq_bind, Option.bind_some, Option.pure_def, Option.some.injEq, Prod.mk.injEq] at h
        obtain ⟨rfl, rfl, rfl⟩ := h
        unfold orderLatdim
        have h1 : lat.reverse.head? = some l := by rw [List.head?_reverse, el]
        have h2 : lat.reverse.getLast? = some f := by rw [List.getLast?_reverse, ef]
        rw [if_neg (by simpa [flipAxis] using hs), show (flipAxis u ax).shape = u.shape from rfl, e]
        simp only [Option.bind_eq_bind, Option.bind_some]
        rw [if_neg (by simpa using hl), h1, h2]
        simp [not_lt.mpr hlt.le]
      · simp only [Option.pure_def, Option.some.injEq, Prod.mk.injEq] at h
        obtain ⟨rfl, rfl, rfl⟩ := h
        exact h0

/-- South-to-north latitudes on axis -2 of a 2 x 3 x 4 field meet the hypotheses of C24. -/
example : (1 : ℕ) < [2, 3, 4].length ∧ ((-2 : ℤ) = (1 : ℕ) ∨ (-2 : ℤ) = ((1 : ℕ) : ℤ) - ([2, 3, 4].length : ℕ)) ∧
    ([-45, 0, 45] : List ℚ).length = [2, 3, 4].getD 1 0 ∧ ([-45, 0, 45] : List ℚ).Pairwise (· < ·) := by
  refine ⟨by decide, Or.inr (by decide), rfl, ?_⟩
  norm_num

/-! ## C25 -/

/-- C25: for two different axis numbers in range, `apiorder` is latitude, longitude, then the other axes in order, a permutation of all axes,
and `reorder` lists the position of every axis in it. -/
theorem C25_apiorder {ndim lat lon : ℕ} (h1 : lat < ndim) (h2 : lon < ndim) (h : lat ≠ lon) :
    getApiorder ndim lat lon = some (lat :: lon :: otherDims ndim lon lat,
      (List.range ndim).map fun i => (lat :: lon :: otherDims ndim lon lat).idxOf i) ∧
    (lat :: lon :: otherDims ndim lon lat).Perm (List.range ndim) := by
  refine ⟨?_, perm_order h2 h1 h.symm⟩
  have hm : lon ∈ (List.range ndim).erase lat := by rw [List.mem_erase_of_ne h.symm]; simpa using h2
  have ho : otherDims ndim lat lon = otherDims ndim lon lat := by
    unfold otherDims; apply List.filter_congr; intro d _; simp [and_comm]
  unfold getApiorder removeInt
  rw [if_pos ⟨by omega, by simpa using h1⟩]
  simp only [Int.toNat_natCast, Option.bind_eq_bind, Option.bind_some]
  rw [if_pos ⟨by omega, by simpa using hm⟩]
  simp [erase_erase, ho]

/-- C25: every other pair of axis numbers (equal, negative or too large) raises. -/
theorem C25_errors {ndim : ℕ} {lat lon : ℤ} (h : ¬ (0 ≤ lat ∧ lat < ndim ∧ 0 ≤ lon ∧ lon < ndim ∧ lat ≠ lon)) :
    getApiorder ndim lat lon = none := by
  unfold getApiorder removeInt
  by_cases h1 : 0 ≤ lat ∧ lat.toNat ∈ List.range ndim
  · rw [if_pos h1]
    have : ¬ (0 ≤ lon ∧ lon.toNat ∈ (List.range ndim).erase lat.toNat) := by
      rintro ⟨h2, h3⟩
      rw [List.nodup_range.mem_erase_iff] at h3
      have h1 := h1
      simp only [List.mem_range] at h1 h3
      exact h ⟨h1.1, by omega, h2, by omega, by omega⟩
    simp [this]
  · rw [if_neg h1]; rfl

/-- transposing by a permutation of the axes: the axes come in that order -/
theorem transpose_get (a : NDArr α) {perm : List ℕ} (hp : perm.Perm (List.range a.shape.length)) (f : ℕ → ℕ) :
    (a.transpose perm).get (perm.map f) = a.get ((List.range a.shape.length).map f) := by
  unfold NDArr.transpose
  simp only
  congr 1
  apply List.map_congr_left
  intro d hd
  have hm : d ∈ perm := hp.mem_iff.mpr hd
  have hl : perm.idxOf d < perm.length := List.idxOf_lt_length_of_mem hm
  rw [List.getD_eq_getElem _ _ (by simpa using hl), List.getElem_map, List.getElem_idxOf]

/-- C25: transposing by `apiorder` puts latitude and longitude first, and transposing the result by `reorder` restores the array. -/
theorem C25_transpose_restores (a : NDArr α) {lat lon : ℕ} (h1 : lat < a.shape.length) (h2 : lon < a.shape.length) (h : lat ≠ lon) :
    ∃ api re, getApiorder a.shape.length lat lon = some (api, re) ∧
      (a.transpose api).shape.take 2 = [a.shape.getD lat 0, a.shape.getD lon 0] ∧
      NDArr.Eqv ((a.transpose api).transpose re) a := by
  obtain ⟨e, hp⟩ := C25_apiorder h1 h2 h
  refine ⟨_, _, e, by simp [NDArr.transpose], ?_⟩
  obtain ⟨api, hapi⟩ : ∃ api, api = lat :: lon :: otherDims a.shape.length lon lat := ⟨_, rfl⟩
  rw [← hapi] at hp ⊢
  obtain ⟨n, hn⟩ : ∃ n, n = a.shape.length := ⟨_, rfl⟩
  rw [← hn] at hp ⊢
  have hlen : api.length = n := by rw [hp.length_eq]; simp
  have hnd : api.Nodup := hp.nodup_iff.mpr List.nodup_range
  have hidx : ∀ i, i < n → api.idxOf i < n := fun i hi => by
    rw [← hlen]; exact List.idxOf_lt_length_of_mem (hp.mem_iff.mpr (by simpa using hi))
  have hshape : ((a.transpose api).transpose ((List.range n).map fun i => api.idxOf i)).shape = a.shape := by
    unfold NDArr.transpose
    simp only
    apply List.ext_getElem (by simp [hn])
    intro i h3 h4
    have hi : i < n := by rw [hn]; exact h4
    have hk := hidx i hi
    simp only [List.map_map, List.getElem_map, List.getElem_range, Function.comp]
    rw [List.getD_eq_getElem _ _ (by rw [List.length_map, hlen]; exact hk), List.getElem_map, List.getElem_idxOf,
      List.getD_eq_getElem _ _ h4]
  refine ⟨hshape, fun idx hi => ?_⟩
  rw [hshape] at hi
  have hil : idx.length = n := by rw [hi.length, hn]
  have hre : ((List.range n).map fun i => api.idxOf i).Perm (List.range (a.transpose api).shape.length) := by
    have hl2 : (a.transpose api).shape.length = n := by simp [NDArr.transpose, hlen]
    rw [hl2]
    have hnd2 : ((List.range n).map fun i => api.idxOf i).Nodup := by
      refine (List.nodup_map_iff_inj_on List.nodup_range).mpr ?_
      intro i hi j hj e
      have hi' : i ∈ api := hp.mem_iff.mpr hi
      exact (List.idxOf_inj hi').mp e
    refine (List.perm_ext_iff_of_nodup hnd2 List.nodup_range).mpr fun k => ?_
    constructor
    · intro hk
      obtain ⟨i, hi, rfl⟩ := List.mem_map.mp hk
      simpa using hidx i (by simpa using hi)
    · intro hk
      have hk' : k < api.length := by rw [hlen]; simpa using hk
      exact List.mem_map.mpr ⟨api[k], hp.mem_iff.mp (List.getElem_mem hk'), hnd.idxOf_getElem k hk'⟩
  have e1 : idx = ((List.range n).map fun i => api.idxOf i).map fun k => idx.getD (api.getD k 0) 0 := by
    apply List.ext_getElem (by simp [hil])
    intro i h3 h4
    have hi' : i < n := by omega
    have hk := hidx i hi'
    have hg : api.getD (api.idxOf i) 0 = i := by
      rw [List.getD_eq_getElem _ _ (by rw [hlen]; exact hk), List.getElem_idxOf]
    rw [List.getElem_map, List.getElem_map, List.getElem_range, hg, List.getD_eq_getElem _ _ h3]
  conv_lhs => rw [e1]
  rw [transpose_get _ hre]
  have hl2 : (a.transpose api).shape.length = n := by simp [NDArr.transpose, hlen]
  rw [hl2]
  have e2 : (List.range n).map (fun k => idx.getD (api.getD k 0) 0) = api.map fun d => idx.getD d 0 := by
    apply List.ext_getElem (by simp [hlen])
    intro i h3 h4
    have : i < api.length := by simpa using h4
    simp [List.getD_eq_getElem _ _ this, this]
  rw [e2, transpose_get a (by rw [← hn]; exact hp), ← hn, range_map_getD hil]

/-! ## C26 -/

/-- C26: `to3d` keeps the first two axes and merges the others in C order; arrays with fewer than 2 axes raise. -/
theorem C26_to3d (a : NDArr α) {ny nx : ℕ} {rest : List ℕ} (hs : a.shape = ny :: nx :: rest) :
    ∃ c, to3d a = some c ∧ c.shape = [ny, nx, rest.prod] ∧
      ∀ i j t, i < ny → j < nx → InB rest t → ravel rest t < rest.prod ∧ c.get [i, j, ravel rest t] = a.get (i :: j :: t) := by
  refine ⟨⟨[ny, nx, rest.prod], fun idx => a.get (unravel a.shape (ravel [ny, nx, rest.prod] idx))⟩, ?_, rfl, fun i j t hi hj ht => ⟨ravel_lt ht, ?_⟩⟩
  · unfold to3d NDArr.reshape
    rw [hs]; simp
  · have hin : InB a.shape (i :: j :: t) := by rw [hs]; exact ⟨hi, hj, ht⟩
    have : ravel [ny, nx, rest.prod] [i, j, ravel rest t] = ravel a.shape (i :: j :: t) := by rw [hs]; simp [ravel]
    simp only [this, unravel_ravel hin]

/-- C26: fewer than two axes. -/
theorem C26_low_rank (a : NDArr α) : to3d a = none ↔ a.shape.length < 2 := by
  constructor
  · intro h
    by_contra hl
    obtain ⟨ny, nx, rest, hs⟩ : ∃ ny nx rest, a.shape = ny :: nx :: rest := by
      match hh : a.shape with
      | [] => rw [hh] at hl; simp at hl
      | [_] => rw [hh] at hl; simp at hl
      | b :: c :: r => exact ⟨b, c, r, rfl⟩
    obtain ⟨c, e, -⟩ := C26_to3d a hs
    rw [h] at e; simp at e
  · intro h; unfold to3d; rw [if_pos h]

/-! ## C59 -/

section
variable {K : Type} [Field K] [LinearOrder K] [IsStrictOrderedRing K]

/-- C59: a vector is reported `regular` only if every latitude is within 5e-4 degrees of the global equally spaced north-to-south grid of that
size, and `gaussian` only if within 5e-4 of the Gaussian latitudes. -/
theorem C59_sound (gauss : ℕ → Option (ℕ → K)) (lat : List K) :
    (inspectGridtype gauss lat = some .regular → 2 ≤ lat.length ∧ ∀ k (h : k < lat.length), |lat[k] - regularLat lat.length k| ≤ 5 / 10000) ∧
    (inspectGridtype gauss lat = some .gaussian → 2 ≤ lat.length ∧ ∃ g, gauss lat.length = some g ∧ ∀ k (h : k < lat.length), |lat[k] - g k| ≤ 5 / 10000) := by
  unfold inspectGridtype
  constructor
  · intro h
    simp only at h
    split at h
    · simp at h
    · next h2 =>
      refine ⟨by omega, fun k hk => ?_⟩
      split at h
      · split at h
        · simp at h
        · next hh =>
          simp only [List.any_eq_true, decide_eq_true_eq, not_exists, not_and, not_lt, List.mem_range] at hh
          have := hh k hk
          rwa [List.getD_eq_getElem _ _ hk] at this
      · exfalso
        obtain ⟨g, -, h⟩ := Option.bind_eq_some_iff.mp h
        split at h <;> simp at h
  · intro h
    simp only at h
    split at h
    · simp at h
    · next h2 =>
      refine ⟨by omega, ?_⟩
      split at h
      · exfalso; split at h <;> simp at h
      · obtain ⟨g, eg, h⟩ := Option.bind_eq_some_iff.mp h
        refine ⟨g, eg, fun k hk => ?_⟩
        split at h
        · simp at h
        · next hh =>
          simp only [List.any_eq_true, decide_eq_true_eq, not_exists, not_and, not_lt, List.mem_range] at hh
          have := hh k hk
          rwa [List.getD_eq_getElem _ _ hk] at this

/-- the step of the regular grid: 180/(n-1) degrees with poles, 180/n without -/
theorem regularLat_step {n : ℕ} (hn : 2 ≤ n) (k : ℕ) :
    (regularLat n (k + 1) : K) - regularLat n k = -(if n % 2 = 1 then 180 / ((n : K) - 1) else 180 / n) := by
  have h1 : (2 : K) ≤ n := by exact_mod_cast hn
  have h2 : (n : K) - 1 ≠ 0 := by linarith
  have h3 : (n : K) ≠ 0 := by linarith
  unfold regularLat linspace
  split
  · push_cast; field_simp; ring
  · push_cast; field_simp; ring

/-- C59: the exact global regular grid of every size is recognised, poles included for odd sizes, half a step off the poles for even sizes. -/
theorem C59_regular_accepted (gauss : ℕ → Option (ℕ → K)) {n : ℕ} (hn : 2 ≤ n) :
    inspectGridtype gauss ((List.range n).map fun k => (regularLat n k : K)) = some .regular := by
  unfold inspectGridtype
  have hget : ∀ k, k < n → ((List.range n).map fun k => (regularLat n k : K)).getD k 0 = regularLat n k := by
    intro k hk
    rw [List.getD_eq_getElem _ _ (by simpa using hk)]; simp
  simp only [List.length_map, List.length_range]
  rw [if_neg (by omega), if_pos, if_neg]
  · simp only [List.any_eq_true, decide_eq_true_eq, not_exists, not_and, not_lt, List.mem_range]
    intro k hk
    rw [hget k hk]; simp; positivity
  · rw [List.all_eq_true]
    intro k hk
    have hk' : k < n - 1 := by simpa using hk
    rw [decide_eq_true_eq]
    rw [hget _ (by omega), hget _ (by omega), hget _ (by omega), hget _ (by omega), regularLat_step hn, regularLat_step hn]
    simp

/-- C59: the regular grid runs from north to south, so the same latitudes in south-to-north order are never reported `regular`. -/
theorem C59_northfirst (gauss : ℕ → Option (ℕ → K)) (lat : List K) (h : inspectGridtype gauss lat = some .regular) :
    ∀ (h0 : 0 < lat.length), lat[lat.length - 1] < lat[0] := by
  intro h0
  obtain ⟨h2, hk⟩ := (C59_sound gauss lat).1 h
  have a := hk 0 h0
  have b := hk (lat.length - 1) (by omega)
  rw [abs_le] at a b
  have h1 : (2 : K) ≤ (lat.length : K) := by exact_mod_cast h2
  have hcast : ((lat.length - 1 : ℕ) : K) = (lat.length : K) - 1 := by
    rw [Nat.cast_sub (by omega)]; simp
  have hne : (lat.length : K) - 1 ≠ 0 := by linarith
  have hgap : (regularLat lat.length 0 : K) - regularLat lat.length (lat.length - 1) ≥ 90 := by
    unfold regularLat linspace
    rw [hcast]
    split
    · rw [mul_div_cancel₀ _ hne]; simp
    · simp only
      rw [mul_div_cancel₀ _ hne]
      simp only [Nat.cast_zero, zero_mul, add_zero]
      have : (180 : K) / (lat.length : K) ≤ 90 := by
        rw [div_le_iff₀ (by linarith)]; linarith
      linarith
  norm_num at a b
  linarith [a.1, b.2]
end

example : inspectGridtype (K := ℚ) (fun _ => none) [90, 45, 0, -45, -90] = some .regular := by
  have := C59_regular_accepted (K := ℚ) (fun _ => none) (n := 5) (by norm_num)
  have e : ((List.range 5).map fun k => (regularLat 5 k : ℚ)) = [90, 45, 0, -45, -90] := by
    simp only [List.range_succ, List.range_zero, List.nil_append, List.map_append, List.map_cons, List.map_nil, List.cons_append, regularLat, linspace]
    norm_num
  rwa [e] at this

end Skyborn.Windspharm
