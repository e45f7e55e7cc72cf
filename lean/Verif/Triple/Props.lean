import Verif.Triple.Grid

/-! `grid_to_triple`, and the general properties of `triple_to_grid` (C141, C142, C145, C146, C148). -/

namespace Skyborn.Triple
open Spec

/-! ### C141: the list of triples -/

theorem encode_eq {M : ℝ} {mp v : V} (h : v ≠ mp → v ≠ some M) : encode M mp v = some M ↔ v = mp := by
  unfold encode
  by_cases hv : v = mp
  · simp [hv]
  · rw [if_neg hv]
    exact ⟨fun e => absurd e (h hv), fun e => absurd e hv⟩

theorem encode_of_ne {M : ℝ} {mp v : V} (h : v ≠ mp) : encode M mp v = v := by
  unfold encode
  rw [if_neg h]

theorem decode_encode {M : ℝ} {mp v : V} (h : v ≠ mp → v ≠ some M) : decode M mp (encode M mp v) = v := by
  unfold decode encode
  by_cases hv : v = mp
  · simp [hv]
  · rw [if_neg hv, if_neg (h hv)]

theorem rowsList_eq {M : ℝ} {nx ny : ℕ} {data x y : Arr} {mp : V}
    (hM : ∀ j i, j < ny → i < nx → data.get [j, i] ≠ mp → data.get [j, i] ≠ some M) :
    rowsList nx (fun m => x.get [m - 1]) (fun n => y.get [n - 1]) (fun m n => encode M mp (data.get [n - 1, m - 1])) M ny = triples nx ny data x y mp := by
  classical
  unfold rowsList triples rowList
  refine List.flatMap_congr fun j hj => ?_
  refine List.filterMap_congr fun i hi => ?_
  rw [List.mem_range] at hj hi
  simp only [Nat.add_sub_cancel]
  by_cases hv : data.get [j, i] = mp
  · rw [if_pos ((encode_eq (hM j i hj hi)).mpr hv), if_pos hv]
  · rw [if_neg (fun h => hv ((encode_eq (hM j i hj hi)).mp h)), if_neg hv, encode_of_ne hv]

/-- C141. `grid_to_triple` returns a 3 × n array that lists exactly the cells whose value is not the missing value, row by row, each with
its x, its y and its value. -/
theorem C141_grid_to_triple (M : ℝ) (d0 : ℕ → V × V × V) {nx ny : ℕ} {data x y : Arr} (mp : Option V) (hd : data.shape = [ny, nx]) (hx : x.shape = [nx])
    (hy : y.shape = [ny]) (hM : ∀ j i, j < ny → i < nx → data.get [j, i] ≠ mp.getD none → data.get [j, i] ≠ some M) :
    ∃ out after, gridToTriple M d0 data (some x) (some y) mp = .ok (out, after) ∧ out.shape = [3, (triples nx ny data x y (mp.getD none)).length] ∧
      ∀ k (h : k < (triples nx ny data x y (mp.getD none)).length),
        out.get [0, k] = (triples nx ny data x y (mp.getD none))[k].1 ∧ out.get [1, k] = (triples nx ny data x y (mp.getD none))[k].2.1 ∧
        out.get [2, k] = (triples nx ny data x y (mp.getD none))[k].2.2 := by
  obtain ⟨⟨ld, d⟩, e, h⟩ := grid2triple_run nx ny (fun m => x.get [m - 1]) (fun n => y.get [n - 1])
    (fun m n => encode M (mp.getD none) (data.get [n - 1, m - 1])) M d0
  rw [rowsList_eq hM] at h
  obtain ⟨h1, h2⟩ := h
  dsimp only at h1 h2
  subst h1
  refine ⟨⟨[3, (triples nx ny data x y (mp.getD none)).length], fun ix => comp (d (ix.getD 1 0 + 1)) (ix.getD 0 0)⟩,
    ⟨[ny, nx], fun ix => after M (mp.getD none) (∃ jx, InB [ny, nx] jx ∧ data.get jx = mp.getD none) (data.get ix)⟩, ?_, ?_⟩
  · unfold gridToTriple
    dsimp only
    rw [hd, hx, hy]
    simp only [List.length_cons, List.length_nil, List.getD_cons_zero, List.getD_cons_succ]
    rw [if_neg (by simp), if_neg (by simp), if_neg (by simp), if_neg (by simp), if_neg (by simp)]
    unfold gridToTripleInner
    rw [hd, hx, hy]
    dsimp only
    rw [if_neg (by simp), e]
  · refine ⟨rfl, fun k hk => ?_⟩
    simp [comp, h2 k hk]

/-- C141, errors: the call succeeds exactly when `x` and `y` are given, `data` is two-dimensional and `x`, `y` are one-dimensional with as many
points as columns and rows; it raises `CoordinateError` without coordinates and `DimensionError` otherwise, and never leaves an array. -/
theorem C141_errors (M : ℝ) (d0 : ℕ → V × V × V) (data : Arr) (x y : Option Arr) (mp : Option V) :
    (x = none ∨ y = none → gridToTriple M d0 data x y mp = .error .coordinate) ∧
    (∀ x' y', x = some x' → y = some y' → ¬ (∃ nx ny, data.shape = [ny, nx] ∧ x'.shape = [nx] ∧ y'.shape = [ny]) →
      gridToTriple M d0 data x y mp = .error .dimension) ∧
    (∀ x' y', x = some x' → y = some y' → (∃ nx ny, data.shape = [ny, nx] ∧ x'.shape = [nx] ∧ y'.shape = [ny]) →
      ∃ r, gridToTriple M d0 data x y mp = .ok r) := by
  refine ⟨?_, ?_, ?_⟩
  · rintro (rfl | rfl)
    · rfl
    · cases x <;> rfl
  · rintro x' y' rfl rfl hno
    unfold gridToTriple
    dsimp only
    split
    · rfl
    · next h1 =>
      split
      · rfl
      · next h2 =>
        split
        · rfl
        · next h3 =>
          split
          · rfl
          · next h4 =>
            split
            · rfl
            · next h5 =>
              exfalso
              push Not at h1 h2 h3 h4 h5
              obtain ⟨a, b, hd⟩ := List.length_eq_two.mp h1
              obtain ⟨c, hx⟩ := List.length_eq_one_iff.mp h2
              obtain ⟨d, hy⟩ := List.length_eq_one_iff.mp h3
              rw [hx, hd] at h4
              rw [hy, hd] at h5
              simp at h4 h5
              subst h4 h5
              exact hno ⟨_, _, hd, hx, hy⟩
  · rintro x' y' rfl rfl ⟨nx, ny, hd, hx, hy⟩
    obtain ⟨⟨ld, d⟩, e, -⟩ := grid2triple_run nx ny (fun m => x'.get [m - 1]) (fun n => y'.get [n - 1])
      (fun m n => encode M (mp.getD none) (data.get [n - 1, m - 1])) M d0
    unfold gridToTriple
    dsimp only
    rw [hd, hx, hy]
    simp only [List.length_cons, List.length_nil, List.getD_cons_zero, List.getD_cons_succ]
    rw [if_neg (by simp), if_neg (by simp), if_neg (by simp), if_neg (by simp), if_neg (by simp)]
    unfold gridToTripleInner
    rw [hd, hx, hy]
    dsimp only
    rw [if_neg (by simp), e]
    exact ⟨_, rfl⟩

/-- Beside C141: a 2 × 2 grid with one NaN cell gives three triples, (x1, y0), (x0, y1), (x1, y1) in this order. -/
example : triples 2 2 ⟨[2, 2], fun ix => if ix = [0, 0] then none else some 7⟩ ⟨[2], fun ix => some (ix.getD 0 0 : ℕ)⟩ ⟨[2], fun ix => some (10 + ix.getD 0 0 : ℕ)⟩ none
    = [(some 1, some 10, some 7), (some 0, some 11, some 7), (some 1, some 11, some 7)] := by
  unfold triples
  simp [List.range_succ, List.filterMap_cons]
  norm_num

/-! ### C142: the caller's array -/

/-- C142. After `grid_to_triple` the caller's data array holds what it held before (provided no value is the largest float64, which the
program uses as a marker while it works in place). -/
theorem C142_unchanged (M : ℝ) (d0 : ℕ → V × V × V) {data : Arr} {x y : Option Arr} {mp : Option V} {out after : Arr}
    (hM : ∀ ix, InB data.shape ix → data.get ix ≠ some M) (h : gridToTriple M d0 data x y mp = .ok (out, after)) : after.Eqv data := by
  have key : ∀ x' y', gridToTripleInner M d0 data x' y' (mp.getD none) = .ok (out, after) → after.Eqv data := by
    intro x' y' h
    unfold gridToTripleInner at h
    split at h
    · split at h
      · cases h
      · split at h
        · cases h
        · simp only [Except.ok.injEq, Prod.mk.injEq] at h
          rw [← h.2]
          refine ⟨rfl, fun ix hix => ?_⟩
          dsimp only at hix ⊢
          unfold Triple.after
          split
          · exact decode_encode fun _ => hM ix hix
          · rfl
    · cases h
  unfold gridToTriple at h
  split at h
  · iterate 5
      split at h
      · cases h
    exact key _ _ h
  · cases h

/-- C142 fails without the proviso: the largest float64 itself comes back as the missing value, in the caller's own array. -/
theorem C142_marker_false (M : ℝ) : ∃ (data x y out after : Arr), gridToTriple M (fun _ => (none, none, none)) data (some x) (some y) none = .ok (out, after) ∧
    data.get [0, 1] = some M ∧ after.get [0, 1] = none := by
  let data : Arr := ⟨[1, 2], fun ix => if ix = [0, 1] then some M else none⟩
  let x : Arr := ⟨[2], fun _ => some 0⟩
  let y : Arr := ⟨[1], fun _ => some 0⟩
  obtain ⟨⟨ld, d⟩, e, -⟩ := grid2triple_run 2 1 (fun m => x.get [m - 1]) (fun n => y.get [n - 1])
    (fun m n => encode M none (data.get [n - 1, m - 1])) M (fun _ => (none, none, none))
  refine ⟨data, x, y, ⟨[3, ld], fun ix => comp (d (ix.getD 1 0 + 1)) (ix.getD 0 0)⟩,
    ⟨[1, 2], fun ix => after M none (∃ jx, InB data.shape jx ∧ data.get jx = none) (data.get ix)⟩, ?_, by simp [data], ?_⟩
  · unfold gridToTriple
    simp only [data, x, y]
    rw [if_neg (by simp), if_neg (by simp), if_neg (by simp), if_neg (by simp), if_neg (by simp)]
    unfold gridToTripleInner
    dsimp only
    rw [if_neg (by simp)]
    simp only [Option.getD_none]
    simp only [data, x, y] at e
    rw [show (2 * 1 : ℕ) = 2 from rfl] at e ⊢
    rw [e]
  · dsimp only
    unfold after
    rw [if_pos ⟨⟨[0, 0], by simp [data, InB], by simp [data]⟩, by simp⟩]
    simp [data, decode, encode]

/-! ### C145: uninitialised memory -/

theorem looksEven_iff {n : ℕ} {g : NDArr ℝ} : LooksEven n (fun m => g.get [m - 1]) ↔ NearlyEven n g := by
  unfold LooksEven NearlyEven
  constructor
  · intro h i h1 h2
    simpa using h (i + 1) (by omega) h2
  · intro h i h1 h2
    obtain ⟨i, rfl⟩ : ∃ j, i = j + 1 := ⟨i - 1, by omega⟩
    simpa using h i (by omega) h2

/-- C145 (partial). With great-circle distances (`method = 1`), or when neither axis looks evenly spaced, the result of `triple_to_grid` does
not depend on the contents of uninitialised memory. Missing: `method = 0` with an evenly spaced axis, where it does (`C145_false`). -/
theorem C145_deterministic_partial (g g' : ℕ → Garbage) (M : ℝ) (data : Arr) (x y gx gy : NDArr ℝ) (method : ℤ) (domain : ℝ) (distmx : Option ℝ)
    (mp : Option V) {mx ny : ℕ} (hgx : gx.shape = [mx]) (hgy : gy.shape = [ny]) (hx : 3 ≤ mx) (hy : 3 ≤ ny)
    (h : method = 1 ∨ (¬ NearlyEven mx gx ∧ ¬ NearlyEven ny gy)) :
    tripleToGrid g M data x y gx gy method domain distmx mp = tripleToGrid g' M data x y gx gy method domain distmx mp := by
  have hs : ∀ i kz z, sliceGrid (g i) M kz mx ny z (fun k => x.get [k]) (fun k => y.get [k]) (fun m => gx.get [m]) (fun n => gy.get [n]) domain method
      distmx (mp.getD none) = sliceGrid (g' i) M kz mx ny z (fun k => x.get [k]) (fun k => y.get [k]) (fun m => gx.get [m]) (fun n => gy.get [n]) domain
      method distmx (mp.getD none) := by
    intro i kz z
    unfold sliceGrid
    rw [triple2grid1_indep (g i) (g' i) hx hy]
    rcases h with rfl | h
    · exact Or.inl (by norm_num)
    · exact Or.inr ⟨fun hc => h.1 (looksEven_iff.mp hc), fun hc => h.2 (looksEven_iff.mp hc)⟩
  unfold tripleToGrid
  simp only [hgx, hgy, List.getD_cons_zero]
  simp only [hs]

/-! ### C146: no access outside the arrays -/

/-- C146 (partial). With three or more points on both axes, no call of `triple_to_grid` reads or writes outside an array, whatever the data.
Missing: axes of one or two points (`C146_two_points_false`). -/
theorem C146_safe_partial (g : ℕ → Garbage) (M : ℝ) (data : Arr) (x y gx gy : NDArr ℝ) (method : ℤ) (domain : ℝ) (distmx : Option ℝ) (mp : Option V)
    (hx : 3 ≤ gx.shape.getD 0 0) (hy : 3 ≤ gy.shape.getD 0 0) : tripleToGrid g M data x y gx gy method domain distmx mp ≠ .error .crash := by
  intro h
  unfold tripleToGrid at h
  dsimp only at h
  iterate 7
    split at h
    · cases h
  have hs : ∀ i kz z, ∃ F, sliceGrid (g i) M kz (gx.shape.getD 0 0) (gy.shape.getD 0 0) z (fun k => x.get [k]) (fun k => y.get [k])
      (fun m => gx.get [m]) (fun n => gy.get [n]) domain method distmx (mp.getD none) = .ok F := by
    intro i kz z
    obtain ⟨gr, e⟩ := triple2grid1_safe (g i) (kz := kz) hx hy (fun k => ⟨x.get [k - 1], y.get [k - 1], encode M (mp.getD none) (z (k - 1))⟩) M
      (fun m => gx.get [m - 1]) (fun n => gy.get [n - 1]) domain method (distmx.getD (10 ^ 20))
    exact ⟨_, sliceGrid_ok e⟩
  choose F hF using hs
  rw [mapM_ok (F := fun i => F i (data.shape.getLastD 0) (fun k => data.get (unravel data.shape (i * data.shape.getLastD 0 + k))))
    (fun i _ => hF i _ _)] at h
  cases h

/-- C146 fails for a longitude axis of two points: any call whose non-missing observations all lie inside the grid reads `gx(3)`. -/
theorem C146_two_points_false (g : ℕ → Garbage) (M : ℝ) {kz ny : ℕ} {data : Arr} {x y gx gy : NDArr ℝ} {method : ℤ} {distmx : Option ℝ}
    (h : Good [] kz 2 ny data x y gx gy method distmx) (hy : 3 ≤ ny) (domain : ℝ) (hno : ∃ k, k < kz ∧ data.get [k] ≠ none)
    (hM : ∀ k, k < kz → data.get [k] ≠ some M)
    (hin : ∀ k, k < kz → gx.get [0] ≤ x.get [k] ∧ x.get [k] ≤ gx.get [1] ∧ gy.get [0] ≤ y.get [k] ∧ y.get [k] ≤ gy.get [ny - 1]) :
    tripleToGrid g M data x y gx gy method domain distmx none = .error .crash := by
  obtain ⟨h1, h2, h3, h4, h5, h6, h7, h8⟩ := h
  simp only [List.nil_append] at h1
  have hslice : sliceGrid (g 0) M kz 2 ny (fun k => data.get (unravel [kz] (0 * kz + k))) (fun k => x.get [k]) (fun k => y.get [k])
      (fun m => gx.get [m]) (fun n => gy.get [n]) domain method distmx none = .error .crash := by
    unfold sliceGrid
    set o : ℕ → Obs := fun k => ⟨x.get [k - 1], y.get [k - 1], encode M none (data.get (unravel [kz] (0 * kz + (k - 1))))⟩ with ho
    set gx' : ℕ → ℝ := fun m => gx.get [m - 1] with hgx'
    set gy' : ℕ → ℝ := fun m => gy.get [m - 1] with hgy'
    obtain ⟨⟨k, ko, w⟩, e, a1, a2⟩ := strip_run (kz := kz) (mx := 2) (ny := ny) (by omega) (by omega) o M gx' gy' (g 0).w
    dsimp only at a1 a2
    have hmem : ∀ b ∈ kept kz o M, ∃ k, k < kz ∧ b = o (k + 1) := by
      intro b hb
      unfold kept at hb
      obtain ⟨k, hk, hb⟩ := List.mem_filterMap.mp hb
      split at hb
      · cases hb
      · exact ⟨k, List.mem_range.mp hk, (Option.some.inj hb).symm⟩
    have hko : ko = 0 := by
      refine a2.mpr fun b hb => ?_
      obtain ⟨k, hk, rfl⟩ := hmem b hb
      obtain ⟨b1, b2, b3, b4⟩ := hin k hk
      unfold Outside
      simp only [ho, hgx', hgy', Nat.add_sub_cancel]
      push Not
      exact ⟨b1, b2, b3, b4⟩
    have hk0 : k ≠ 0 := by
      obtain ⟨i, hi, hne⟩ := hno
      have hun : unravel [kz] (0 * kz + i) = [i] := by simp [unravel]
      have : o (i + 1) ∈ kept kz o M := by
        unfold kept
        refine List.mem_filterMap.mpr ⟨i, List.mem_range.mpr hi, ?_⟩
        rw [if_neg]
        simp only [ho, Nat.add_sub_cancel, hun]
        intro hc
        exact hne ((encode_eq fun _ => hM i hi).mp hc)
      have hk := a1.1
      dsimp only at hk
      rw [hk]
      intro hc
      rw [List.length_eq_zero_iff] at hc
      rw [hc] at this
      cases this
    obtain ⟨mf, em, -⟩ := even_run (n := 2) (by omega) gx'
    obtain ⟨nf, en, -⟩ := even_run (n := ny) (by omega) gy'
    have : triple2grid1 (g 0) kz 2 ny o M gx' gy' domain method (distmx.getD (10 ^ 20)) = none := by
      unfold triple2grid1
      rw [e]
      simp only [Option.bind_eq_bind, Option.bind_some]
      rw [if_neg hk0, em, en]
      simp only [Option.bind_some]
      rw [if_pos hko]
      unfold trip2grd2
      have : rd 2 gx' 3 = none := by simp [rd]
      rw [this]
      rfl
    rw [this]
  unfold tripleToGrid
  simp only [h1, h2, h3, h4, h5, List.getD_cons_zero, List.length_singleton]
  rw [if_neg (by simp), if_neg (by simp), if_neg (by simp), if_neg (by rcases h6 with ⟨h, -⟩ | h <;> simp [h]),
    if_neg (by rcases h6 with ⟨h, h'⟩ | h <;> simp [*]), if_neg (by simpa using h7), if_neg (by simp)]
  have hl : ([kz] : List ℕ).getLastD 0 = kz := by simp
  have hd : ([kz] : List ℕ).dropLast = [] := by simp
  simp only [hl, hd, List.prod_nil, Option.getD_none]
  rw [show List.range 1 = [0] from rfl, List.mapM_cons, hslice]
  rfl

/-- Beside C146: such a call, one observation in the middle of a 2 × 3 grid. -/
example : ∃ (data : Arr) (x y gx gy : NDArr ℝ), Good [] 1 2 3 data x y gx gy 1 none ∧ data.get [0] = some 5 ∧
    (∀ k, k < 1 → gx.get [0] ≤ x.get [k] ∧ x.get [k] ≤ gx.get [1] ∧ gy.get [0] ≤ y.get [k] ∧ y.get [k] ≤ gy.get [3 - 1]) := by
  refine ⟨⟨[1], fun _ => some 5⟩, ⟨[1], fun _ => 1 / 2⟩, ⟨[1], fun _ => 1 / 2⟩, ⟨[2], fun ix => (ix.getD 0 0 : ℕ)⟩, ⟨[3], fun ix => (ix.getD 0 0 : ℕ)⟩,
    ⟨rfl, rfl, rfl, rfl, rfl, Or.inr rfl, by norm_num, by norm_num⟩, rfl, fun k hk => ?_⟩
  norm_num

/-! ### C148: leading dimensions -/

theorem sliceOf_safe (g : ℕ → Garbage) (M : ℝ) (kz mx ny : ℕ) (data : Arr) (x y gx gy : NDArr ℝ) (method : ℤ) (domain : ℝ) (distmx : Option ℝ)
    (mp : Option V) (hx : 3 ≤ mx) (hy : 3 ≤ ny) (i : ℕ) : ∃ F, sliceOf g M kz mx ny data x y gx gy method domain distmx mp i = .ok F := by
  obtain ⟨gr, e⟩ := triple2grid1_safe (g i) (kz := kz) hx hy
    (fun k => ⟨x.get [k - 1], y.get [k - 1], encode M (mp.getD none) (data.get (unravel data.shape (i * kz + (k - 1))))⟩) M
    (fun m => gx.get [m - 1]) (fun n => gy.get [n - 1]) domain method (distmx.getD (10 ^ 20))
  exact ⟨_, sliceGrid_ok e⟩

/-- What the kernel does not see beyond `kz` observations. -/
theorem triple2grid1_congr (G : Garbage) {kz mx ny : ℕ} {o o' : ℕ → Obs} (h : ∀ k, 1 ≤ k → k ≤ kz → o k = o' k) (zmsg : ℝ) (gx gy : ℕ → ℝ) (domain : ℝ)
    (method : ℤ) (distmx : ℝ) :
    triple2grid1 G kz mx ny o zmsg gx gy domain method distmx = triple2grid1 G kz mx ny o' zmsg gx gy domain method distmx := by
  have := rd_congr h
  unfold triple2grid1 strip
  rw [this]

/-- C148. Leading dimensions: the result has the leading dimensions of the data followed by (number of rows, number of columns), and at every
leading position it is what the call gives for the one-dimensional data found there. -/
theorem C148_leading (g : ℕ → Garbage) (M : ℝ) {lead : List ℕ} {kz mx ny : ℕ} {data : Arr} {x y gx gy : NDArr ℝ} {method : ℤ} {distmx : Option ℝ}
    (h : Good lead kz mx ny data x y gx gy method distmx) (hx : 3 ≤ mx) (hy : 3 ≤ ny) (domain : ℝ) (mp : Option V) :
    ∃ res, tripleToGrid g M data x y gx gy method domain distmx mp = .ok res ∧ res.shape = lead ++ [ny, mx] ∧
      ∀ l, InB lead l → ∃ one, tripleToGrid (fun _ => g (ravel lead l)) M ⟨[kz], fun ix => data.get (l ++ ix)⟩ x y gx gy method domain distmx mp = .ok one ∧
        one.shape = [ny, mx] ∧ ∀ a b, a < ny → b < mx → res.get (l ++ [a, b]) = one.get [a, b] := by
  choose F hF using sliceOf_safe g M kz mx ny data x y gx gy method domain distmx mp hx hy
  obtain ⟨res, e, hs, hr⟩ := tripleToGrid_run g M h domain mp F (fun i _ => hF i)
  refine ⟨res, e, hs, fun l hl => ?_⟩
  have hgood : Good [] kz mx ny ⟨[kz], fun ix => data.get (l ++ ix)⟩ x y gx gy method distmx :=
    ⟨rfl, h.x, h.y, h.gx, h.gy, h.method, h.kz, by simp⟩
  obtain ⟨one, e1, hs1, hr1⟩ := tripleToGrid_run (fun _ => g (ravel lead l)) M hgood domain mp (fun _ => F (ravel lead l)) (fun i hi => by
    have hi0 : i = 0 := by simpa using hi
    subst hi0
    rw [← hF (ravel lead l)]
    unfold sliceOf sliceGrid
    rw [triple2grid1_congr]
    intro k hk1 hk2
    simp only [Obs.mk.injEq, true_and]
    congr 1
    have e1 : unravel [kz] (0 * kz + (k - 1)) = [k - 1] := by simp [unravel]
    rw [e1, h.data, unravel_lead hl (by omega)])
  refine ⟨one, e1, hs1, fun a b ha hb => ?_⟩
  rw [hr l a b hl ha hb]
  exact (hr1 [] a b (by simp [InB]) ha hb).symm

/-- C148, errors: whatever the other arguments, a call with a bad `method`, or with `distmx` for `method = 0`, or with coordinates of the wrong
length, is refused. -/
theorem C148_rejects (g : ℕ → Garbage) (M : ℝ) (data : Arr) (x y gx gy : NDArr ℝ) (method : ℤ) (domain : ℝ) (distmx : Option ℝ) (mp : Option V) :
    (x.shape.getD 0 0 ≠ y.shape.getD 0 0 ∨ x.shape.getD 0 0 ≠ data.shape.getLastD 0 →
      tripleToGrid g M data x y gx gy method domain distmx mp = .error .dimension) ∧
    (method ≠ 0 ∧ method ≠ 1 → ∀ r, tripleToGrid g M data x y gx gy method domain distmx mp ≠ .ok r) ∧
    (method = 0 ∧ distmx ≠ none → ∀ r, tripleToGrid g M data x y gx gy method domain distmx mp ≠ .ok r) := by
  refine ⟨fun h => ?_, fun h r hr => ?_, fun h r hr => ?_⟩
  · unfold tripleToGrid
    dsimp only
    rw [if_pos h]
  · unfold tripleToGrid at hr
    dsimp only at hr
    rw [if_pos h] at hr
    iterate 3
      split at hr
      · cases hr
    cases hr
  · unfold tripleToGrid at hr
    dsimp only at hr
    rw [if_pos h] at hr
    iterate 4
      split at hr
      · cases hr
    cases hr

/-- Beside C148: data of shape (2, 1) on a 3 × 3 grid meets the hypotheses. -/
example : ∃ (data : Arr) (x y gx gy : NDArr ℝ), Good [2] 1 3 3 data x y gx gy 1 (some 100) :=
  ⟨⟨[2, 1], fun _ => some 5⟩, ⟨[1], fun _ => 1 / 2⟩, ⟨[1], fun _ => 1 / 2⟩, ⟨[3], fun ix => (ix.getD 0 0 : ℕ)⟩, ⟨[3], fun ix => (ix.getD 0 0 : ℕ)⟩,
    rfl, rfl, rfl, rfl, rfl, Or.inr rfl, by norm_num, by norm_num⟩

end Skyborn.Triple
