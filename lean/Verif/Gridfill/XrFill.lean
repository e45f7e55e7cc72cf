/-
C228: filling a labelled array.
-/
import Verif.Gridfill.Xr

namespace Skyborn.Gridfill.Xr

open Skyborn Gridfill

variable {K : Type} [Field K] [LinearOrder K]

/-- Number of points along the dimension called `n`. -/
def Spec.size (d : DArr K) (n : String) : ℕ := d.data.shape.getD (d.dims.idxOf n) 0

/-- The element at the point whose index along every dimension `n` is `f n`. -/
def Spec.at (d : DArr K) (f : String → ℕ) : Option K := d.data.get (d.dims.map f)

/-- `f` is a point of the array. -/
def Spec.Point (d : DArr K) (f : String → ℕ) : Prop := ∀ n ∈ d.dims, f n < Spec.size d n

/-- A DataArray: different dimension names, one per axis. -/
structure Spec.Labelled (d : DArr K) : Prop where
  nodup : d.dims.Nodup
  rank : d.data.shape.length = d.dims.length

/-- The horizontal slice through `f`: the known values. Unknown ones are represented by `1e20`, and positions outside by 0: the solver
does not look at either. -/
def Spec.slice (d : DArr K) (x y : String) (f : String → ℕ) : ℕ → ℕ → K := fun i j =>
  if i < Spec.size d y ∧ j < Spec.size d x then (Spec.at d (Function.update (Function.update f y i) x j)).getD (10 ^ 20) else 0

/-- Which points of that slice are missing (1). -/
def Spec.gaps (d : DArr K) (x y : String) (f : String → ℕ) : ℕ → ℕ → ℤ := fun i j =>
  if i < Spec.size d y ∧ j < Spec.size d x then (if (Spec.at d (Function.update (Function.update f y i) x j)).isNone then 1 else 0) else 0

theorem map_set {L : Type} [DecidableEq L] {dims : List L} (hd : dims.Nodup) {n : L} (f : L → ℕ) (i : ℕ) :
    (dims.map f).set (dims.idxOf n) i = dims.map (Function.update f n i) := by
  apply List.ext_getElem (by simp)
  intro k h1 h2
  have hk : k < dims.length := by simpa using h1
  rw [List.getElem_set, List.getElem_map, List.getElem_map]
  by_cases h : dims.idxOf n = k
  · rw [if_pos h]
    have : dims[k] = n := by subst h; exact List.getElem_idxOf hk
    rw [this, Function.update_self]
  · rw [if_neg h, Function.update_of_ne]
    intro e
    apply h
    rw [← e]; exact hd.idxOf_getElem k hk

theorem inB_point {d : DArr K} (h : Spec.Labelled d) (f : String → ℕ) : InB d.data.shape (d.dims.map f) ↔ Spec.Point d f := by
  rw [← exists_assign h.nodup h.rank, inB_map]; rfl

theorem exists_point {d : DArr K} (h : Spec.Labelled d) {idx : List ℕ} (hi : InB d.data.shape idx) :
    ∃ f, Spec.Point d f ∧ d.dims.map f = idx := by
  have e := exists_assign h.nodup (hi.length.trans h.rank)
  refine ⟨_, ?_, e⟩
  rw [← inB_point h, e]; exact hi

theorem slice_eq {d : DArr K} (h : Spec.Labelled d) (x y : String) (f : String → ℕ) :
    sliceThrough d.data (d.dims.idxOf x) (d.dims.idxOf y) (10 ^ 20) (d.dims.map f) = Spec.slice d x y f := by
  funext i j
  unfold sliceThrough Spec.slice Spec.at
  rw [map_set h.nodup, map_set h.nodup]; rfl

theorem gaps_eq {d : DArr K} (h : Spec.Labelled d) (x y : String) (f : String → ℕ) :
    maskThrough d.data (d.dims.idxOf x) (d.dims.idxOf y) (d.dims.map f) = Spec.gaps d x y f := by
  funext i j
  unfold maskThrough Spec.gaps Spec.at
  rw [map_set h.nodup, map_set h.nodup]; rfl

/-- Every coordinate tuple of the remaining axes is met by a flag. -/
theorem mem_flags {s : List ℕ} {P : List ℕ → Bool} {conv : List Bool} (hl : conv.length = s.prod)
    (h : ∀ idx, InB s idx → conv[ravel s idx]? = some (P idx)) : (conv.countP (fun b => !b) = 0 ↔ ∀ idx, InB s idx → P idx = true) := by
  rw [List.countP_eq_zero]
  constructor
  · intro h0 idx hi
    have := List.mem_of_getElem? (h idx hi)
    simpa using h0 _ this
  · intro h0 b hb
    obtain ⟨k, hk, rfl⟩ := List.mem_iff_getElem.mp hb
    have hk' : k < s.prod := by omega
    have h1 := h _ (unravel_inB hk')
    rw [ravel_unravel hk', List.getElem?_eq_getElem hk] at h1
    rw [Option.some.inj h1, h0 _ (unravel_inB hk')]; simp

/-- The array function on a labelled array with axes found by name. -/
theorem core_ok [IsStrictOrderedRing K] {d : DArr K} (h : Spec.Labelled d) {x y : String} (hx : x ∈ d.dims) (hy : y ∈ d.dims) (hxy : x ≠ y)
    (h3x : 3 ≤ Spec.size d x) (h3y : 3 ≤ Spec.size d y) (o : Opts K) :
    ∃ out conv, Gridfill.fill (.masked d.data) (d.dims.idxOf x : ℕ) (d.dims.idxOf y : ℕ) o = .ok (out, conv) ∧ out.shape = d.data.shape ∧
      (∀ f, Spec.Point d f → ∃ g n r, poissonFill (Spec.size d y) (Spec.size d x) o (Spec.gaps d x y f) (Spec.slice d x y f) = some (g, n, r) ∧
        (∀ i j, i < Spec.size d y → j < Spec.size d x → out.get (d.dims.map (Function.update (Function.update f y i) x j)) = g i j)) ∧
      (∀ f v, Spec.Point d f → Spec.at d f = some v → out.get (d.dims.map f) = v) ∧
      (conv.countP (fun b => !b) = 0 ↔ ∀ f, Spec.Point d f → ∀ g n r,
        poissonFill (Spec.size d y) (Spec.size d x) o (Spec.gaps d x y f) (Spec.slice d x y f) = some (g, n, r) → r ≤ o.tolerance) := by
  have hxl : d.dims.idxOf x < d.data.shape.length := by rw [h.rank]; exact List.idxOf_lt_length_of_mem hx
  have hyl : d.dims.idxOf y < d.data.shape.length := by rw [h.rank]; exact List.idxOf_lt_length_of_mem hy
  have hne : d.dims.idxOf x ≠ d.dims.idxOf y := fun e => hxy ((List.idxOf_inj hx).mp e)
  obtain ⟨out, conv, e, hs, hcl, hsl⟩ := C32_fill_slices d.data hxl hyl hne h3x h3y o
  obtain ⟨out', conv', e', -, hobs⟩ := C27_fill_keeps_observed d.data hxl hyl hne h3x h3y o
  rw [e] at e'
  simp only [Except.ok.injEq, Prod.mk.injEq] at e'
  obtain ⟨rfl, rfl⟩ := e'
  refine ⟨out, conv, e, hs, fun f hf => ?_, fun f v hf hv => hobs _ v ((inB_point h f).mpr hf) hv, ?_⟩
  · obtain ⟨g, n, r, eg, hg, -⟩ := hsl _ ((inB_point h f).mpr hf)
    rw [slice_eq h, gaps_eq h] at eg
    refine ⟨g, n, r, eg, fun i j hi hj => ?_⟩
    rw [← hg i j hi hj, map_set h.nodup, map_set h.nodup]
  · set s := (otherDims d.data.shape.length (d.dims.idxOf x) (d.dims.idxOf y)).map fun q => d.data.shape.getD q 0 with hsdef
    have hpos : ∀ t, InB s t → ∃ f, Spec.Point d f ∧
        (otherDims d.data.shape.length (d.dims.idxOf x) (d.dims.idxOf y)).map (fun q => (d.dims.map f).getD q 0) = t := by
      intro t ht
      have hnd : (otherDims d.data.shape.length (d.dims.idxOf x) (d.dims.idxOf y)).Nodup := List.nodup_range.filter _
      have hlt : t.length = (otherDims d.data.shape.length (d.dims.idxOf x) (d.dims.idxOf y)).length := by
        rw [ht.length, hsdef, List.length_map]
      have et := exists_assign hnd hlt
      set φ : ℕ → ℕ := fun q => t.getD ((otherDims d.data.shape.length (d.dims.idxOf x) (d.dims.idxOf y)).idxOf q) 0 with hφ
      have hφs : ∀ q ∈ otherDims d.data.shape.length (d.dims.idxOf x) (d.dims.idxOf y), φ q < d.data.shape.getD q 0 := by
        rw [← et, hsdef, inB_map] at ht; exact ht
      refine ⟨fun n => if n = x ∨ n = y then 0 else φ (d.dims.idxOf n), ?_, ?_⟩
      · intro n hn
        beta_reduce
        by_cases hc : n = x ∨ n = y
        · rw [if_pos hc]; rcases hc with rfl | rfl <;> omega
        · rw [if_neg hc]
          refine hφs _ ?_
          push Not at hc
          have h1 : d.dims.idxOf n < d.data.shape.length := by rw [h.rank]; exact List.idxOf_lt_length_of_mem hn
          have h2 : d.dims.idxOf n ≠ d.dims.idxOf x := fun e => hc.1 ((List.idxOf_inj hn).mp e)
          have h3 : d.dims.idxOf n ≠ d.dims.idxOf y := fun e => hc.2 ((List.idxOf_inj hn).mp e)
          simp [otherDims, h1, h2, h3]
      · rw [← et]
        refine List.map_congr_left fun q hq => ?_
        have hq' : q < d.data.shape.length ∧ q ≠ d.dims.idxOf x ∧ q ≠ d.dims.idxOf y := by simpa [otherDims] using hq
        have hql : q < d.dims.length := by rw [← h.rank]; exact hq'.1
        beta_reduce
        rw [List.getD_eq_getElem _ _ (by simpa using hql), List.getElem_map, h.nodup.idxOf_getElem q hql, if_neg]
        rintro (e | e)
        · exact hq'.2.1 (by rw [← e, h.nodup.idxOf_getElem q hql])
        · exact hq'.2.2 (by rw [← e, h.nodup.idxOf_getElem q hql])
    have hP : ∀ f, Spec.Point d f → ∃ g n r,
        poissonFill (Spec.size d y) (Spec.size d x) o (Spec.gaps d x y f) (Spec.slice d x y f) = some (g, n, r) ∧
        conv[ravel s ((otherDims d.data.shape.length (d.dims.idxOf x) (d.dims.idxOf y)).map (fun q => (d.dims.map f).getD q 0))]? = some (decide (r ≤ o.tolerance)) := by
      intro f hf
      obtain ⟨g, n, r, eg, -, hc⟩ := hsl _ ((inB_point h f).mpr hf)
      rw [slice_eq h, gaps_eq h] at eg
      exact ⟨g, n, r, eg, hc⟩
    rw [mem_flags (s := s) (P := fun t => (conv[ravel s t]?).getD false) hcl (by
      intro t ht
      obtain ⟨f, hf, ef⟩ := hpos t ht
      obtain ⟨g, n, r, -, hc⟩ := hP f hf
      rw [ef] at hc; rw [hc]; rfl)]
    constructor
    · intro h0 f hf g n r eg
      obtain ⟨g', n', r', eg', hc⟩ := hP f hf
      rw [eg] at eg'
      simp only [Option.some.injEq, Prod.mk.injEq] at eg'
      have hin : InB s ((otherDims d.data.shape.length (d.dims.idxOf x) (d.dims.idxOf y)).map (fun q => (d.dims.map f).getD q 0)) := by
        rw [hsdef, inB_map]
        intro q hq
        have hq' : q < d.data.shape.length := (by simpa [otherDims] using hq : _ ∧ _ ∧ _).1
        exact (inB_iff.mp ((inB_point h f).mpr hf)).2 q hq'
      have h1 := h0 _ hin
      rw [hc] at h1
      rw [eg'.2.2]
      simpa using h1
    · intro h0 t ht
      obtain ⟨f, hf, ef⟩ := hpos t ht
      obtain ⟨g, n, r, eg, hc⟩ := hP f hf
      rw [ef] at hc
      rw [hc]
      simpa using h0 f hf g n r eg

/-- C228: with both dimensions named, every horizontal slice of the result is the solver's fill of that slice alone, whatever the order
and number of the other dimensions; dimensions, coordinates and name are those of the input, every known value is unchanged, no value is
missing, attributes are kept apart from the history (or dropped when asked), and a non-convergence warning is given exactly when
the residual of some slice exceeds the tolerance. -/
theorem C228_labelled [IsStrictOrderedRing K] {d : DArr K} (h : Spec.Labelled d) {x y : String} (hx : x ∈ d.dims) (hy : y ∈ d.dims)
    (hxy : x ≠ y) (h3x : 3 ≤ Spec.size d x) (h3y : 3 ≤ Spec.size d y) (hm : ∃ f, Spec.Point d f ∧ Spec.at d f = none) (o : Opts K)
    (keep : Bool) (note : String) :
    ∃ out w, fill d o (some x) (some y) (some o.cyclic) keep note = .ok (out, w) ∧
      out.dims = d.dims ∧ out.coords = d.coords ∧ out.name = d.name ∧ out.data.shape = d.data.shape ∧
      (∀ f, Spec.Point d f → ∃ g n r, poissonFill (Spec.size d y) (Spec.size d x) o (Spec.gaps d x y f) (Spec.slice d x y f) = some (g, n, r) ∧
        ∀ i j, i < Spec.size d y → j < Spec.size d x → Spec.at out (Function.update (Function.update f y i) x j) = some (g i j)) ∧
      (∀ f v, Spec.Point d f → Spec.at d f = some v → Spec.at out f = some v) ∧
      (∀ f, (Spec.at out f).isSome) ∧
      (∀ k, k ≠ "history" → out.attrs.lookup k = if keep then d.attrs.lookup k else none) ∧
      (out.attrs.lookup "history" = if keep then some ((d.attrs.lookup "history").getD "" ++ note) else none) ∧
      (w = 0 ↔ ∀ f, Spec.Point d f → ∀ g n r,
        poissonFill (Spec.size d y) (Spec.size d x) o (Spec.gaps d x y f) (Spec.slice d x y f) = some (g, n, r) → r ≤ o.tolerance) := by
  obtain ⟨out, conv, e, hs, hsl, hobs, hw⟩ := core_ok h hx hy hxy h3x h3y o
  refine ⟨{ d with data := ⟨out.shape, fun idx => some (out.get idx)⟩, attrs := newAttrs keep d.attrs note }, conv.countP fun b => !b, ?_,
    rfl, rfl, rfl, hs, fun f hf => ?_, fun f v hf hv => congrArg some (hobs f v hf hv), fun f => rfl, ?_, ?_, hw⟩
  · have hi : ∀ n ∈ d.dims, indexOf? d.dims n = some (d.dims.idxOf n) := fun n hn => if_pos hn
    unfold fill fillDims
    simp only [hi x hx, hi y hy, resolveCyclic]
    rw [if_neg]
    · rw [e]
    · obtain ⟨f, hf, hf'⟩ := hm
      exact not_not.mpr ⟨_, (inB_point h f).mpr hf, hf'⟩
  · obtain ⟨g, n, r, eg, hg⟩ := hsl f hf
    exact ⟨g, n, r, eg, fun i j hi hj => congrArg some (hg i j hi hj)⟩
  · intro k hk
    show (newAttrs keep d.attrs note).lookup k = _
    cases keep with
    | false => rfl
    | true =>
      simp only [newAttrs, if_true]
      unfold setAttr
      split
      · generalize (d.attrs.lookup "history").getD "" ++ note = v
        induction d.attrs with
        | nil => rfl
        | cons p l ih =>
          obtain ⟨a, b⟩ := p
          rw [List.map_cons]
          by_cases ha : a = "history"
          · subst ha
            have h1 : (k == "history") = false := by simpa using hk
            simp only [if_true, List.lookup_cons, h1]; exact ih
          · rw [if_neg ha]
            simp only [List.lookup_cons]
            split
            · rfl
            · exact ih
      · rw [List.lookup_append]
        have h1 : (k == "history") = false := by simpa using hk
        simp [List.lookup_cons, h1]
  · show (newAttrs keep d.attrs note).lookup "history" = _
    cases keep with
    | false => rfl
    | true =>
      simp only [newAttrs, if_true]
      unfold setAttr
      split
      · rename_i hsome
        generalize (d.attrs.lookup "history").getD "" ++ note = v
        revert hsome
        induction d.attrs with
        | nil => intro h; simp at h
        | cons p l ih =>
          obtain ⟨a, b⟩ := p
          intro h
          rw [List.map_cons]
          by_cases ha : a = "history"
          · subst ha
            simp [List.lookup_cons]
          · have h1 : ("history" == a) = false := by simpa using fun h => ha h.symm
            rw [if_neg ha]
            simp only [List.lookup_cons, h1] at h ⊢
            exact ih h
      · rename_i hnone
        rw [List.lookup_append]
        have : d.attrs.lookup "history" = none := Option.not_isSome_iff_eq_none.mp hnone
        rw [this]
        simp [List.lookup_cons]

/-- C228: an array without gaps is returned as it is. -/
theorem C228_complete {d : DArr K} (h : Spec.Labelled d) (hm : ∀ f, Spec.Point d f → Spec.at d f ≠ none) (o : Opts K) (xDim yDim : Option String)
    (cyclic : Option Bool) (keep : Bool) (note : String) {out : DArr K} {w : ℕ}
    (e : fill d o xDim yDim cyclic keep note = .ok (out, w)) : out = d ∧ w = 0 := by
  have hno : ¬ ∃ idx, InB d.data.shape idx ∧ d.data.get idx = none := by
    rintro ⟨idx, hi, hn⟩
    obtain ⟨f, hf, rfl⟩ := exists_point h hi
    exact hm f hf hn
  unfold fill at e
  split at e
  · simp at e
  · split at e
    · simp at e
    · rw [if_pos hno] at e
      simp only [Except.ok.injEq, Prod.mk.injEq] at e
      exact ⟨e.1.symm, e.2.symm⟩

/-- C228: the order of the dimensions of the input does not matter: inputs with the same values at the same labelled points give results
with the same values at the same labelled points. -/
theorem C228_order [IsStrictOrderedRing K] {d d' : DArr K} (h : Spec.Labelled d) (h' : Spec.Labelled d') (hp : d.dims.Perm d'.dims)
    (hsz : ∀ n ∈ d.dims, Spec.size d n = Spec.size d' n) (hv : ∀ f, Spec.Point d f → Spec.at d f = Spec.at d' f)
    {x y : String} (hx : x ∈ d.dims) (hy : y ∈ d.dims) (hxy : x ≠ y) (h3x : 3 ≤ Spec.size d x) (h3y : 3 ≤ Spec.size d y)
    (hm : ∃ f, Spec.Point d f ∧ Spec.at d f = none) (o : Opts K) (keep : Bool) (note : String) :
    ∃ out out' w w', fill d o (some x) (some y) (some o.cyclic) keep note = .ok (out, w) ∧
      fill d' o (some x) (some y) (some o.cyclic) keep note = .ok (out', w') ∧ ∀ f, Spec.Point d f → Spec.at out f = Spec.at out' f := by
  have hpt : ∀ f, Spec.Point d f ↔ Spec.Point d' f := by
    intro f
    constructor
    · intro hf n hn
      have := hp.mem_iff.mpr hn
      rw [← hsz n this]; exact hf n this
    · intro hf n hn
      rw [hsz n hn]; exact hf n (hp.mem_iff.mp hn)
  have hsx := hsz x hx
  have hsy := hsz y hy
  have hup : ∀ f, Spec.Point d f → ∀ i j, i < Spec.size d y → j < Spec.size d x →
      Spec.Point d (Function.update (Function.update f y i) x j) := by
    intro f hf i j hi hj n hn
    by_cases h1 : n = x
    · subst h1; rw [Function.update_self]; exact hj
    · rw [Function.update_of_ne h1]
      by_cases h2 : n = y
      · subst h2; rw [Function.update_self]; exact hi
      · rw [Function.update_of_ne h2]; exact hf n hn
  obtain ⟨out, w, e, -, -, -, -, hg, -⟩ := C228_labelled h hx hy hxy h3x h3y hm o keep note
  obtain ⟨out', w', e', -, -, -, -, hg', -⟩ := C228_labelled h' (hp.mem_iff.mp hx) (hp.mem_iff.mp hy) hxy (hsx ▸ h3x) (hsy ▸ h3y)
    (by obtain ⟨f, hf, hn⟩ := hm; exact ⟨f, (hpt f).mp hf, by rw [← hv f hf]; exact hn⟩) o keep note
  refine ⟨out, out', w, w', e, e', fun f hf => ?_⟩
  obtain ⟨g, n, r, eg, h1⟩ := hg f hf
  obtain ⟨g', n', r', eg', h1'⟩ := hg' f ((hpt f).mp hf)
  have hsl : Spec.slice d x y f = Spec.slice d' x y f := by
    funext i j
    unfold Spec.slice
    rw [← hsx, ← hsy]
    split
    · next hc => rw [hv _ (hup f hf i j hc.1 hc.2)]
    · rfl
  have hgp : Spec.gaps d x y f = Spec.gaps d' x y f := by
    funext i j
    unfold Spec.gaps
    rw [← hsx, ← hsy]
    split
    · next hc => rw [hv _ (hup f hf i j hc.1 hc.2)]
    · rfl
  rw [← hsl, ← hgp, ← hsx, ← hsy, eg] at eg'
  simp only [Option.some.injEq, Prod.mk.injEq] at eg'
  have hself : Function.update (Function.update f y (f y)) x (f x) = f := by simp
  have a := h1 (f y) (f x) (hf y hy) (hf x hx)
  have b := h1' (f y) (f x) (hsy ▸ hf y hy) (hsx ▸ hf x hx)
  rw [hself] at a b
  rw [a, b, eg'.1]

/-- A (time, longitude, latitude) array of 2 x 4 x 3 points with one gap, and the same with its dimensions in another order. -/
example : let d : DArr ℚ := ⟨["time", "lon", "lat"], ⟨[2, 4, 3], fun idx => if idx = [1, 2, 0] then none else some (idx.sum : ℚ)⟩, [], none, [("units", "K")]⟩
    let d' : DArr ℚ := ⟨["lat", "time", "lon"], ⟨[3, 2, 4], fun idx => if idx = [0, 1, 2] then none else some (idx.sum : ℚ)⟩, [], none, []⟩
    Spec.Labelled d ∧ Spec.Labelled d' ∧ d.dims.Perm d'.dims ∧ 3 ≤ Spec.size d "lon" ∧ 3 ≤ Spec.size d "lat" ∧
    (∃ f, Spec.Point d f ∧ Spec.at d f = none) := by
  refine ⟨⟨by decide, rfl⟩, ⟨by decide, rfl⟩, by decide, by decide, by decide,
    fun n => if n = "time" then 1 else if n = "lon" then 2 else 0, ?_, ?_⟩
  · intro n hn
    simp only [List.mem_cons, List.not_mem_nil, or_false] at hn
    rcases hn with rfl | rfl | rfl <;> decide
  · simp [Spec.at]

end Skyborn.Gridfill.Xr
