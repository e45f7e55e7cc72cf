import Verif.Triple.Props

/-! The values put on the grid by `triple_to_grid` (C143, C144, C147). -/

namespace Skyborn.Triple
open Spec

/-! ### Rounding -/

theorem fnint_of {i : ℤ} {r : ℝ} (hi : 0 ≤ i) (hr : 0 ≤ r) (h1 : (i : ℝ) - 1 / 2 ≤ r) (h2 : r < i + 1 / 2) : fnint r = i := by
  unfold fnint
  rw [if_pos hr, Int.floor_eq_iff]
  constructor <;> linarith

theorem fint_of {i : ℤ} {r : ℝ} (hr : 0 ≤ r) (h1 : (i : ℝ) ≤ r) (h2 : r < i + 1) : fint r = i := by
  unfold fint
  rw [if_pos hr, Int.floor_eq_iff]
  exact ⟨h1, h2⟩

/-! ### Observations exactly at grid points -/

/-- An evenly spaced axis (1-based). -/
def Arith (n : ℕ) (g : ℕ → ℝ) (d : ℝ) : Prop := 0 < d ∧ ∀ i, 1 ≤ i → i ≤ n → g i = g 1 + ((i : ℝ) - 1) * d

theorem exactEven_find {n : ℕ} {g : ℕ → ℝ} {d : ℝ} (h : Arith n g d) {m : ℕ} (h1 : 1 ≤ m) (h2 : m ≤ n) : exactEven n g d (g m) = some (some m) := by
  unfold exactEven
  rw [rd_ok le_rfl (by omega)]
  simp only [Option.bind_eq_bind, Option.bind_some]
  have e : (g m - g 1) / d = ((m - 1 : ℕ) : ℝ) := by
    rw [h.2 m h1 h2, Nat.cast_sub h1]
    have := h.1.ne'
    field_simp
    push_cast
    ring
  have hf : fnint ((g m - g 1) / d) = ((m - 1 : ℕ) : ℤ) := by
    rw [e]
    refine fnint_of (by positivity) (by positivity) ?_ ?_ <;> push_cast <;> linarith
  have hi : fnint ((g m - g 1) / d) + 1 = (m : ℤ) := by rw [hf]; omega
  rw [hi, if_neg (by omega), Int.toNat_natCast, rd_ok h1 h2]
  simp

/-- An observation exactly at grid point (m, n) is found there. -/
theorem exactAt_find {mx ny : ℕ} {gx gy : ℕ → ℝ} (hx : Inc mx gx) (hy : Inc ny gy) (dx dy : ℝ) {p q : Bool}
    (h : ¬ (p = true ∧ q = true) ∨ (Arith mx gx dx ∧ Arith ny gy dy)) {b : Obs} {m n : ℕ} (m1 : 1 ≤ m) (m2 : m ≤ mx) (n1 : 1 ≤ n) (n2 : n ≤ ny)
    (ex : b.x = gx m) (ey : b.y = gy n) : exactAt mx ny gx gy dx dy p q b = some (m, n) := by
  unfold exactAt exactCell
  by_cases hpq : p = true ∧ q = true
  · rw [if_pos hpq]
    obtain ⟨ax, ay⟩ := h.resolve_left (not_not.mpr hpq)
    rw [ex, ey, exactEven_find ax m1 m2, exactEven_find ay n1 n2]
    rfl
  · rw [if_neg hpq]
    obtain ⟨r, e, h1, h2⟩ := exactLoop_run (mx := mx) (ny := ny) gx gy b ny 1 le_rfl (by omega)
    rw [e]
    cases r with
    | none => exact absurd ⟨ex, ey⟩ (h2 rfl m n m1 m2 n1 (by omega))
    | some c =>
      obtain ⟨c1, c2, c3, c4⟩ := h1 c rfl
      rw [ex] at c3
      rw [ey] at c4
      have e1 := hx.inj m1 m2 c1.1 c1.2 c3
      have e2 := hy.inj n1 n2 c2.1 (by omega) c4
      show some c = _
      rw [e1, e2]

theorem exactAt_sound {mx ny : ℕ} (hx : 1 ≤ mx) (hy : 1 ≤ ny) (gx gy : ℕ → ℝ) (dx dy : ℝ) (p q : Bool) {b : Obs} {m n : ℕ}
    (h : exactAt mx ny gx gy dx dy p q b = some (m, n)) : (1 ≤ m ∧ m ≤ mx) ∧ (1 ≤ n ∧ n ≤ ny) ∧ b.x = gx m ∧ b.y = gy n := by
  obtain ⟨r, e, hr⟩ := exactCell_run hx hy gx gy dx dy p q b
  unfold exactAt at h
  rw [e] at h
  exact hr m n h

/-! ### Bridging to 0-based arrays -/

theorem inc_of_axis {n : ℕ} {g : NDArr ℝ} (h : Axis n g) : Inc n (fun m => g.get [m - 1]) := by
  intro i h1 h2
  obtain ⟨i, rfl⟩ : ∃ j, i = j + 1 := ⟨i - 1, by omega⟩
  simpa using h.2 i h2

theorem arith_of_even {n : ℕ} (hn : 3 ≤ n) {g : NDArr ℝ} (h : Even n g) :
    Arith n (fun m => g.get [m - 1]) |(fun m : ℕ => g.get [m - 1]) 3 - (fun m : ℕ => g.get [m - 1]) 2| := by
  obtain ⟨d, hd, h⟩ := h
  have e : |(fun m : ℕ => g.get [m - 1]) 3 - (fun m : ℕ => g.get [m - 1]) 2| = d := by
    simp only [show 3 - 1 = 2 from rfl, show 2 - 1 = 1 from rfl]
    rw [h 2 (by omega), h 1 (by omega)]
    push_cast
    rw [show g.get [0] + 2 * d - (g.get [0] + 1 * d) = d by ring, abs_of_pos hd]
  rw [e]
  refine ⟨hd, fun i h1 h2 => ?_⟩
  obtain ⟨i, rfl⟩ : ∃ j, i = j + 1 := ⟨i - 1, by omega⟩
  have := h i (by omega)
  simp only [Nat.add_sub_cancel, Nat.sub_self]
  rw [this]
  push_cast
  ring

theorem kept_mem {kz : ℕ} {o : ℕ → Obs} {M : ℝ} {b : Obs} : b ∈ kept kz o M ↔ ∃ k, k < kz ∧ (o (k + 1)).z ≠ some M ∧ b = o (k + 1) := by
  classical
  unfold kept
  rw [List.mem_filterMap]
  constructor
  · rintro ⟨k, hk, h⟩
    split at h
    · cases h
    · next hz => exact ⟨k, List.mem_range.mp hk, hz, (Option.some.inj h).symm⟩
  · rintro ⟨k, hk, hz, rfl⟩
    exact ⟨k, List.mem_range.mpr hk, by rw [if_neg hz]⟩

/-- An index of the work array and an observation that is kept. -/
theorem kept_index {kz : ℕ} {o w : ℕ → Obs} {M : ℝ} (h : Holds ((kept kz o M).length, w) (kept kz o M)) :
    (∀ j, 1 ≤ j → j ≤ (kept kz o M).length → ∃ k, k < kz ∧ (o (k + 1)).z ≠ some M ∧ w j = o (k + 1)) ∧
    ∀ k, k < kz → (o (k + 1)).z ≠ some M → ∃ j, 1 ≤ j ∧ j ≤ (kept kz o M).length ∧ w j = o (k + 1) := by
  constructor
  · intro j h1 h2
    obtain ⟨j, rfl⟩ : ∃ i, j = i + 1 := ⟨j - 1, by omega⟩
    have e := h.2 j (by omega)
    dsimp only at e
    rw [e]
    exact kept_mem.mp (List.getElem_mem _)
  · intro k hk hz
    obtain ⟨j, hj, e⟩ := List.mem_iff_getElem.mp (kept_mem.mpr ⟨k, hk, hz, rfl⟩)
    have := h.2 j hj
    dsimp only at this
    exact ⟨j + 1, by omega, by omega, by rw [this, e]⟩

/-- The observations of a call, 1-based. -/
noncomputable def obs (M : ℝ) (mp : V) (z : ℕ → V) (x y : ℕ → ℝ) (k : ℕ) : Obs := ⟨x (k - 1), y (k - 1), encode M mp (z (k - 1))⟩

theorem obs_kept {M : ℝ} {mp : V} {z : ℕ → V} {x y : ℕ → ℝ} {k : ℕ} (h : z k ≠ mp → z k ≠ some M) :
    (obs M mp z x y (k + 1)).z ≠ some M ↔ z k ≠ mp := by
  unfold obs
  simp only [Nat.add_sub_cancel]
  exact not_congr (encode_eq h)

/-! ### C147: values -/

/-- All values come from observations. -/
theorem CellResult.value {kpts : ℕ} {o : ℕ → Obs} {f : Obs → Option (ℕ × ℕ)} {t : Obs → Option (ℕ × ℕ × V)} {zmsg dd : ℝ} {m n : ℕ} {g : V}
    (h : CellResult kpts o f t zmsg dd m n g) : g = some zmsg ∨ ∃ j, 1 ≤ j ∧ j ≤ kpts ∧ g = (o j).z := by
  rcases h with ⟨j, a1, a2, -, -, a5⟩ | ⟨-, a2, -⟩ | ⟨-, -, j, d, a3, a4, -, -, -, a8, -⟩
  · exact Or.inr ⟨j, a1, a2, a5⟩
  · exact Or.inl a2
  · exact Or.inr ⟨j, a3, a4, a8⟩

theorem kernel_values (G : Garbage) (M : ℝ) {kz mx ny : ℕ} (hx : 3 ≤ mx) (hy : 3 ≤ ny) (o : ℕ → Obs) (gx gy : ℕ → ℝ) (domain : ℝ) (method : ℤ) (distmx : ℝ) :
    ∃ grid, triple2grid1 G kz mx ny o M gx gy domain method distmx = some grid ∧
      ∀ m n, grid m n = some M ∨ ∃ k, k < kz ∧ (o (k + 1)).z ≠ some M ∧ grid m n = (o (k + 1)).z := by
  obtain ⟨⟨k, ko, w⟩, e, h1, h2⟩ := strip_run (kz := kz) (mx := mx) (ny := ny) (by omega) (by omega) o M gx gy G.w
  dsimp only at h1 h2
  obtain ⟨mf, em, -⟩ := even_run (n := mx) (by omega) gx
  obtain ⟨nf, en, -⟩ := even_run (n := ny) (by omega) gy
  have hk : k = (kept kz o M).length := h1.1
  subst hk
  have pick : ∀ g, (g = some M ∨ ∃ j, 1 ≤ j ∧ j ≤ (kept kz o M).length ∧ g = (w j).z) → (g = some M ∨ ∃ k, k < kz ∧ (o (k + 1)).z ≠ some M ∧ g = (o (k + 1)).z) := by
    rintro g (h | ⟨j, j1, j2, h⟩)
    · exact Or.inl h
    · obtain ⟨k, a, b, c⟩ := (kept_index h1).1 j j1 j2
      exact Or.inr ⟨k, a, b, by rw [h, c]⟩
  unfold triple2grid1
  rw [e]
  simp only [Option.bind_eq_bind, Option.bind_some]
  split
  · exact ⟨_, rfl, fun m n => Or.inl rfl⟩
  · rw [em, en]
    simp only [Option.bind_some]
    split
    · obtain ⟨g, eg, hg⟩ := trip2grd2_run (kpts := (kept kz o M).length) hx hy w M gx gy mf nf method (if distmx ≤ 0 then 10 ^ 20 else distmx) G.slpx G.slpy
      exact ⟨g, eg, fun m n => pick _ (hg m n).value⟩
    · obtain ⟨bx, ex, -⟩ := bigAxis_run (n := mx) (by omega) gx domain G.gbx
      obtain ⟨by', ey, -⟩ := bigAxis_run (n := ny) (by omega) gy domain G.gby
      obtain ⟨g, eg, hg⟩ := trip2grd2_run (kpts := (kept kz o M).length) (mx := mx + 2) (ny := ny + 2) (by omega) (by omega) w M bx by' mf nf method
        (if distmx ≤ 0 then 10 ^ 20 else distmx) G.slpx G.slpy
      rw [ex, ey]
      simp only [Option.bind_some]
      rw [eg]
      exact ⟨_, rfl, fun m n => pick _ (hg (m + 1) (n + 1)).value⟩

theorem one_slice {kz : ℕ} {data : Arr} (h : data.shape = [kz]) (i : ℕ) (hi : i < ([] : List ℕ).prod) (k : ℕ) :
    data.get (unravel data.shape (i * kz + k)) = data.get [k] := by
  have : i = 0 := by simpa using hi
  subst this
  rw [h]
  simp [unravel]

/-- A one-dimensional call in terms of the kernel. -/
theorem oneCall (g : ℕ → Garbage) (M : ℝ) {kz mx ny : ℕ} {data : Arr} {x y gx gy : NDArr ℝ} {method : ℤ} {distmx : Option ℝ}
    (h : Good [] kz mx ny data x y gx gy method distmx) (domain : ℝ) (mp : Option V) (grid : ℕ → ℕ → V)
    (hk : triple2grid1 (g 0) kz mx ny (obs M (mp.getD none) (fun k => data.get [k]) (fun k => x.get [k]) (fun k => y.get [k])) M
      (fun m => gx.get [m - 1]) (fun n => gy.get [n - 1]) domain method (distmx.getD (10 ^ 20)) = some grid) :
    ∃ res, tripleToGrid g M data x y gx gy method domain distmx mp = .ok res ∧ res.shape = [ny, mx] ∧
      ∀ a b, a < ny → b < mx → res.get [a, b] = decode M (mp.getD none) (grid ((a * mx + b) / ny + 1) ((a * mx + b) % ny + 1)) := by
  obtain ⟨res, e, hs, hr⟩ := tripleToGrid_run g M h domain mp (fun _ k => decode M (mp.getD none) (grid (k / ny + 1) (k % ny + 1))) (by
    intro i hi
    have hi0 : i = 0 := by simpa using hi
    unfold sliceOf
    rw [show (fun k => data.get (unravel data.shape (i * kz + k))) = fun k => data.get [k] from funext fun k => one_slice h.data i hi k, hi0]
    exact sliceGrid_ok hk)
  exact ⟨res, e, hs, fun a b ha hb => hr [] a b (by simp [InB]) ha hb⟩

/-- C147 (partial). Whatever the arguments, every value on the returned grid is the missing value or the value of one of the non-missing
observations: nothing is averaged or invented. Missing: that `distmx` is a limit on the distance (`C147_distmx_false`). -/
theorem C147_values_partial (g : ℕ → Garbage) (M : ℝ) {kz mx ny : ℕ} {data : Arr} {x y gx gy : NDArr ℝ} {method : ℤ} {distmx : Option ℝ}
    (h : Good [] kz mx ny data x y gx gy method distmx) (hx : 3 ≤ mx) (hy : 3 ≤ ny) (domain : ℝ) (mp : Option V)
    (hM : ∀ k, k < kz → data.get [k] ≠ mp.getD none → data.get [k] ≠ some M) :
    ∃ res, tripleToGrid g M data x y gx gy method domain distmx mp = .ok res ∧ res.shape = [ny, mx] ∧
      ∀ a b, a < ny → b < mx → res.get [a, b] = mp.getD none ∨ ∃ k, k < kz ∧ data.get [k] ≠ mp.getD none ∧ res.get [a, b] = data.get [k] := by
  obtain ⟨grid, e, hg⟩ := kernel_values (g 0) M (kz := kz) hx hy (obs M (mp.getD none) (fun k => data.get [k]) (fun k => x.get [k]) (fun k => y.get [k]))
    (fun m => gx.get [m - 1]) (fun n => gy.get [n - 1]) domain method (distmx.getD (10 ^ 20))
  obtain ⟨res, er, hs, hr⟩ := oneCall g M h domain mp grid e
  refine ⟨res, er, hs, fun a b ha hb => ?_⟩
  rw [hr a b ha hb]
  rcases hg ((a * mx + b) / ny + 1) ((a * mx + b) % ny + 1) with h1 | ⟨k, k1, k2, k3⟩
  · left
    rw [h1]
    simp [decode]
  · right
    have hne := (obs_kept (hM k k1)).mp k2
    refine ⟨k, k1, hne, ?_⟩
    rw [k3]
    unfold obs
    simp only [Nat.add_sub_cancel]
    exact decode_encode (hM k k1)

/-! ### C143: round trip -/

/-- All observations exactly at grid points. -/
theorem kernel_exact (G : Garbage) (M : ℝ) {kz mx ny : ℕ} (hx : 3 ≤ mx) (hy : 3 ≤ ny) {o : ℕ → Obs} {gx gy : ℕ → ℝ} (ix : Inc mx gx) (iy : Inc ny gy)
    (hev : ¬ (LooksEven mx gx ∧ LooksEven ny gy) ∨ (Arith mx gx |gx 3 - gx 2| ∧ Arith ny gy |gy 3 - gy 2|)) (domain : ℝ) (method : ℤ) (distmx : ℝ)
    (hne : ∃ k, k < kz ∧ (o (k + 1)).z ≠ some M)
    (hex : ∀ k, k < kz → (o (k + 1)).z ≠ some M → ∃ m n, (1 ≤ m ∧ m ≤ mx) ∧ (1 ≤ n ∧ n ≤ ny) ∧ (o (k + 1)).x = gx m ∧ (o (k + 1)).y = gy n) :
    ∃ grid, triple2grid1 G kz mx ny o M gx gy domain method distmx = some grid ∧
      ∀ m n, 1 ≤ m → m ≤ mx → 1 ≤ n → n ≤ ny →
        (∃ k, k < kz ∧ (o (k + 1)).z ≠ some M ∧ (o (k + 1)).x = gx m ∧ (o (k + 1)).y = gy n ∧ grid m n = (o (k + 1)).z) ∨
        ((∀ k, k < kz → (o (k + 1)).z ≠ some M → ¬ ((o (k + 1)).x = gx m ∧ (o (k + 1)).y = gy n)) ∧ grid m n = some M) := by
  obtain ⟨grid, w, mf, nf, e, hw, hm, hn, hg⟩ := triple2grid1_inside G (kz := kz) hx hy o M gx gy domain method distmx
    (by
      obtain ⟨k, k1, k2⟩ := hne
      exact List.ne_nil_of_mem (kept_mem.mpr ⟨k, k1, k2, rfl⟩))
    (by
      intro b hb
      obtain ⟨k, k1, k2, rfl⟩ := kept_mem.mp hb
      obtain ⟨m, n, m1, n1, ex, ey⟩ := hex k k1 k2
      have a1 := ix.le le_rfl m1.1 m1.2
      have a2 := ix.le m1.1 m1.2 le_rfl
      have a3 := iy.le le_rfl n1.1 n1.2
      have a4 := iy.le n1.1 n1.2 le_rfl
      unfold Outside
      rw [ex, ey]
      push Not
      exact ⟨a1, a2, a3, a4⟩)
  have hcond : ¬ (mf = true ∧ nf = true) ∨ (Arith mx gx |gx 3 - gx 2| ∧ Arith ny gy |gy 3 - gy 2|) := by
    refine hev.imp (fun h hc => h ⟨hm.mp hc.1, hn.mp hc.2⟩) id
  obtain ⟨kI, kJ⟩ := kept_index hw
  refine ⟨grid, e, fun m n m1 m2 n1 n2 => ?_⟩
  have all : ∀ j, 1 ≤ j → j ≤ (kept kz o M).length → exactAt mx ny gx gy |gx 3 - gx 2| |gy 3 - gy 2| mf nf (w j) ≠ none := by
    intro j j1 j2
    obtain ⟨k, k1, k2, ek⟩ := kI j j1 j2
    obtain ⟨m, n, m1, n1, ex, ey⟩ := hex k k1 k2
    rw [ek, exactAt_find ix iy _ _ hcond m1.1 m1.2 n1.1 n1.2 ex ey]
    simp
  rcases hg m n with ⟨j, a1, a2, a3, a4, a5⟩ | ⟨a1, a2, a3⟩ | ⟨a1, a2, -⟩
  · obtain ⟨k, k1, k2, ek⟩ := kI j a1 a2
    obtain ⟨-, -, b1, b2⟩ := exactAt_sound (by omega) (by omega) gx gy _ _ _ _ a3
    rw [ek] at b1 b2 a5
    exact Or.inl ⟨k, k1, k2, b1, b2, a5⟩
  · refine Or.inr ⟨fun k k1 k2 hxy => ?_, a2⟩
    obtain ⟨j, j1, j2, ej⟩ := kJ k k1 k2
    refine a1 j j1 j2 ?_
    rw [ej]
    exact exactAt_find ix iy _ _ hcond m1 m2 n1 n2 hxy.1 hxy.2
  · obtain ⟨j, j1, j2, j3⟩ := a2
    exact absurd j3 (all j j1 j2)

theorem mem_triples {nx ny : ℕ} {data x y : Arr} {mp : V} {t : V × V × V} :
    t ∈ triples nx ny data x y mp ↔ ∃ j i, j < ny ∧ i < nx ∧ data.get [j, i] ≠ mp ∧ t = (x.get [i], y.get [j], data.get [j, i]) := by
  classical
  unfold triples
  simp only [List.mem_flatMap, List.mem_filterMap, List.mem_range]
  constructor
  · rintro ⟨j, hj, i, hi, h⟩
    split at h
    · cases h
    · next hv => exact ⟨j, i, hj, hi, hv, (Option.some.inj h).symm⟩
  · rintro ⟨j, i, hj, hi, hv, rfl⟩
    exact ⟨j, hj, i, hi, by rw [if_neg hv]⟩

theorem axis_inj {n : ℕ} {g : NDArr ℝ} (h : Axis n g) {i j : ℕ} (hi : i < n) (hj : j < n) (e : g.get [i] = g.get [j]) : i = j := by
  have := (inc_of_axis h).inj (i := i + 1) (j := j + 1) (by omega) (by omega) (by omega) (by omega) (by simpa using e)
  omega

/-- C143 (partial). Converting a grid to triples and back: the grid comes back, but with its cells in another order. Reading both grids by
their flat C-order position, position `k` of the result is the cell in row `k mod ny`, column `k / ny` of the original (the transpose when
the grid is square). Missing: that the result is the original, which is false (`C143_roundtrip_false`). The two axes have three or more strictly
increasing points and are either both exactly evenly spaced or not both taken for evenly spaced ones; see `C143_fine_false` for the rest. -/
theorem C143_roundtrip_partial (g : ℕ → Garbage) (M : ℝ) (d0 : ℕ → V × V × V) {mx ny : ℕ} (hx : 3 ≤ mx) (hy : 3 ≤ ny) {data : Arr} {gx gy : NDArr ℝ}
    (hd : data.shape = [ny, mx]) (ax : Axis mx gx) (ay : Axis ny gy)
    (hev : ¬ (NearlyEven mx gx ∧ NearlyEven ny gy) ∨ (Even mx gx ∧ Even ny gy)) (mp : Option V)
    (hM : ∀ j i, j < ny → i < mx → data.get [j, i] ≠ mp.getD none → data.get [j, i] ≠ some M)
    (hne : ∃ j i, j < ny ∧ i < mx ∧ data.get [j, i] ≠ mp.getD none) (method : ℤ) (distmx : Option ℝ)
    (hmeth : method = 0 ∧ distmx = none ∨ method = 1) (domain : ℝ) :
    ∃ t after res, gridToTriple M d0 data (some (toArr gx)) (some (toArr gy)) mp = .ok (t, after) ∧
      tripleToGrid g M (row t 2) (coordRow t 0) (coordRow t 1) gx gy method domain distmx mp = .ok res ∧ res.shape = data.shape ∧
      ∀ a b, a < ny → b < mx → res.get [a, b] = data.get [(a * mx + b) % ny, (a * mx + b) / ny] := by
  obtain ⟨t, after, e, hs, ht⟩ := C141_grid_to_triple M d0 mp hd (x := toArr gx) (y := toArr gy) ax.1 ay.1 hM
  set mpv := mp.getD none with hmpv
  set L := triples mx ny data (toArr gx) (toArr gy) mpv with hL
  have hLpos : L.length ≠ 0 := by
    obtain ⟨j, i, hj, hi, hv⟩ := hne
    intro h0
    have := (mem_triples (x := toArr gx) (y := toArr gy)).mpr ⟨j, i, hj, hi, hv, rfl⟩
    rw [← hL, List.length_eq_zero_iff.mp h0] at this
    cases this
  have hlen : t.shape.getD 1 0 = L.length := by rw [hs]; rfl
  -- the cell of every triple
  have hcell : ∀ k, k < L.length → ∃ j i, j < ny ∧ i < mx ∧ data.get [j, i] ≠ mpv ∧ (coordRow t 0).get [k] = gx.get [i] ∧
      (coordRow t 1).get [k] = gy.get [j] ∧ (row t 2).get [k] = data.get [j, i] := by
    intro k hk
    obtain ⟨j, i, hj, hi, hv, he⟩ := mem_triples.mp (List.getElem_mem hk)
    obtain ⟨h0, h1, h2⟩ := ht k hk
    refine ⟨j, i, hj, hi, hv, ?_, ?_, ?_⟩
    · simp only [coordRow, List.getD_cons_zero]
      rw [h0, he]
      rfl
    · simp only [coordRow, List.getD_cons_zero]
      rw [h1, he]
      rfl
    · simp only [row, List.getD_cons_zero]
      rw [h2, he]
  have hcover : ∀ j i, j < ny → i < mx → data.get [j, i] ≠ mpv → ∃ k, k < L.length ∧ (coordRow t 0).get [k] = gx.get [i] ∧
      (coordRow t 1).get [k] = gy.get [j] := by
    intro j i hj hi hv
    obtain ⟨k, hk, he⟩ := List.mem_iff_getElem.mp (mem_triples (x := toArr gx) (y := toArr gy) |>.mpr ⟨j, i, hj, hi, hv, rfl⟩)
    obtain ⟨h0, h1, -⟩ := ht k hk
    refine ⟨k, hk, ?_, ?_⟩
    · simp only [coordRow, List.getD_cons_zero]
      rw [h0, he]
      rfl
    · simp only [coordRow, List.getD_cons_zero]
      rw [h1, he]
      rfl
  have hz : ∀ k, k < L.length → (row t 2).get [k] ≠ mpv ∧ (row t 2).get [k] ≠ some M := by
    intro k hk
    obtain ⟨j, i, hj, hi, hv, -, -, e2⟩ := hcell k hk
    rw [e2]
    exact ⟨hv, hM j i hj hi hv⟩
  have hgood : Good [] L.length mx ny (row t 2) (coordRow t 0) (coordRow t 1) gx gy method distmx :=
    ⟨by simp only [row, hlen, List.nil_append], by simp only [coordRow, hlen], by simp only [coordRow, hlen], ax.1, ay.1, hmeth, hLpos, by simp⟩
  have hkeep : ∀ k, k < L.length → (obs M mpv (fun k => (row t 2).get [k]) (fun k => (coordRow t 0).get [k]) (fun k => (coordRow t 1).get [k]) (k + 1)).z ≠ some M :=
    fun k hk => (obs_kept fun _ => (hz k hk).2).mpr (hz k hk).1
  obtain ⟨grid, eg, hgrid⟩ := kernel_exact (g 0) M (kz := L.length) hx hy
    (o := obs M mpv (fun k => (row t 2).get [k]) (fun k => (coordRow t 0).get [k]) (fun k => (coordRow t 1).get [k]))
    (gx := fun m => gx.get [m - 1]) (gy := fun n => gy.get [n - 1]) (inc_of_axis ax) (inc_of_axis ay)
    (hev.imp (fun h hc => h ⟨looksEven_iff.mp hc.1, looksEven_iff.mp hc.2⟩) fun h => ⟨arith_of_even hx h.1, arith_of_even hy h.2⟩)
    domain method (distmx.getD (10 ^ 20)) ⟨0, by omega, hkeep 0 (by omega)⟩
    (by
      intro k hk _
      obtain ⟨j, i, hj, hi, -, e0, e1, -⟩ := hcell k hk
      exact ⟨i + 1, j + 1, ⟨by omega, by omega⟩, ⟨by omega, by omega⟩, by simpa [obs] using e0, by simpa [obs] using e1⟩)
  obtain ⟨res, er, hsr, hr⟩ := oneCall g M hgood domain mp grid eg
  refine ⟨t, after, res, e, er, by rw [hsr, hd], fun a b ha hb => ?_⟩
  rw [hr a b ha hb]
  have hab : a * mx + b < mx * ny := by
    calc a * mx + b < a * mx + mx := by omega
      _ = (a + 1) * mx := by ring
      _ ≤ ny * mx := Nat.mul_le_mul_right _ ha
      _ = mx * ny := Nat.mul_comm _ _
  generalize a * mx + b = p at hab ⊢
  have hp1 : p / ny < mx := Nat.div_lt_of_lt_mul (by rw [Nat.mul_comm]; exact hab)
  have hp2 : p % ny < ny := Nat.mod_lt _ (by omega)
  generalize p / ny = i at hp1 ⊢
  generalize p % ny = j at hp2 ⊢
  rcases hgrid (i + 1) (j + 1) (by omega) (by omega) (by omega) (by omega) with ⟨k, k1, k2, k3, k4, k5⟩ | ⟨k1, k2⟩
  · rw [k5]
    obtain ⟨j', i', hj', hi', hv, e0, e1, e2⟩ := hcell k k1
    simp only [obs, Nat.add_sub_cancel] at k3 k4 ⊢
    rw [e0] at k3
    rw [e1] at k4
    have h1 := axis_inj ax hi' hp1 k3
    have h2 := axis_inj ay hj' hp2 k4
    subst h1 h2
    rw [e2]
    exact decode_encode (hM _ _ hj' hi')
  · rw [k2]
    have hv : data.get [j, i] = mpv := by
      by_contra hv
      obtain ⟨k, hk, e0, e1⟩ := hcover j i hp2 hp1 hv
      exact k1 k hk (hkeep k hk) ⟨by simpa [obs] using e0, by simpa [obs] using e1⟩
    rw [hv]
    unfold decode
    rw [if_pos rfl]

end Skyborn.Triple
