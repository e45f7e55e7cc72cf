import Verif.Triple.Props3

/-! Counterexamples (C143, C144, C145, C147). -/

namespace Skyborn.Triple
open Spec

/-- Three points. -/
def axis3 (a b c : ℝ) : NDArr ℝ := ⟨[3], fun ix => match ix.getD 0 0 with | 0 => a | 1 => b | _ => c⟩

theorem axis3_axis {a b c : ℝ} (h1 : a < b) (h2 : b < c) : Axis 3 (axis3 a b c) := by
  refine ⟨rfl, fun i hi => ?_⟩
  obtain rfl | rfl : i = 0 ∨ i = 1 := by omega
  · exact h1
  · exact h2

theorem axis3_even : Even 3 (axis3 0 1 2) := by
  refine ⟨1, one_pos, fun i hi => ?_⟩
  obtain rfl | rfl | rfl : i = 0 ∨ i = 1 ∨ i = 2 := by omega
  all_goals simp [axis3]

/-! ### One observation -/

theorem CellResult.single {o : ℕ → Obs} {f : Obs → Option (ℕ × ℕ)} {t : Obs → Option (ℕ × ℕ × V)} {zmsg dd : ℝ} {m n : ℕ} {g : V}
    (h : CellResult 1 o f t zmsg dd m n g) :
    (f (o 1) = some (m, n) → g = (o 1).z) ∧
    (f (o 1) = none → ∀ d, t (o 1) = some (m, n, some d) → d < 10 ^ 20 → d < dd → g = (o 1).z) ∧
    (f (o 1) ≠ some (m, n) → (∀ d, t (o 1) = some (m, n, some d) → ¬ (d < 10 ^ 20 ∧ d < dd)) → g = some zmsg) := by
  have one : ∀ j, 1 ≤ j → j ≤ 1 → j = 1 := fun j h1 h2 => by omega
  rcases h with ⟨j, a1, a2, a3, -, a5⟩ | ⟨a1, a2, a3⟩ | ⟨a1, a2, j, d, a3, a4, a5, a6, a7, a8, -⟩
  · obtain rfl := one j a1 a2
    exact ⟨fun _ => a5, fun h => (by rw [h] at a3; cases a3), fun h => absurd a3 h⟩
  · refine ⟨fun h => absurd h (a1 1 le_rfl le_rfl), fun h d hd d1 d2 => ?_, fun _ _ => a2⟩
    rcases a3 with a3 | a3
    · exact absurd h (a3 1 le_rfl le_rfl)
    · exact absurd ⟨d1, d2⟩ (a3 1 le_rfl le_rfl d hd)
  · obtain rfl := one j a3 a4
    exact ⟨fun h => absurd h (a1 1 le_rfl le_rfl), fun _ _ _ _ _ => a8, fun _ h => absurd ⟨a6, a7⟩ (h d a5)⟩

/-- One observation with value 7 inside the grid; the missing value is NaN. -/
theorem single_run (g : ℕ → Garbage) {M : ℝ} (hM : M ≠ 7) {mx ny : ℕ} {gx gy : NDArr ℝ} (hgx : gx.shape = [mx]) (hgy : gy.shape = [ny]) (hx : 3 ≤ mx) (hy : 3 ≤ ny)
    {x y : ℝ} (x1 : gx.get [0] ≤ x) (x2 : x ≤ gx.get [mx - 1]) (y1 : gy.get [0] ≤ y) (y2 : y ≤ gy.get [ny - 1]) (method : ℤ) (distmx : Option ℝ)
    (hmeth : method = 0 ∧ distmx = none ∨ method = 1) (domain : ℝ) :
    ∃ res mf nf, tripleToGrid g M ⟨[1], fun _ => some 7⟩ ⟨[1], fun _ => x⟩ ⟨[1], fun _ => y⟩ gx gy method domain distmx none = .ok res ∧
      (mf = true ↔ NearlyEven mx gx) ∧ (nf = true ↔ NearlyEven ny gy) ∧ ∀ a b, a < ny → b < mx →
        let f := exactAt mx ny (fun m => gx.get [m - 1]) (fun n => gy.get [n - 1]) |gx.get [2] - gx.get [1]| |gy.get [2] - gy.get [1]| mf nf
        let t := tgt mx ny (fun m => gx.get [m - 1]) (fun n => gy.get [n - 1]) |gx.get [2] - gx.get [1]| |gy.get [2] - gy.get [1]| mf nf method
          (g 0).slpx (g 0).slpy
        let dd := if distmx.getD (10 ^ 20) ≤ 0 then 10 ^ 20 else distmx.getD (10 ^ 20)
        let c := ((a * mx + b) / ny + 1, (a * mx + b) % ny + 1)
        (f ⟨x, y, some 7⟩ = some c → res.get [a, b] = some 7) ∧
        (f ⟨x, y, some 7⟩ = none → ∀ d, t ⟨x, y, some 7⟩ = some (c.1, c.2, some d) → d < 10 ^ 20 → d < dd → res.get [a, b] = some 7) ∧
        (f ⟨x, y, some 7⟩ ≠ some c → (∀ d, t ⟨x, y, some 7⟩ = some (c.1, c.2, some d) → ¬ (d < 10 ^ 20 ∧ d < dd)) → res.get [a, b] = none) := by
  have hgood : Good [] 1 mx ny ⟨[1], fun _ => some 7⟩ ⟨[1], fun _ => x⟩ ⟨[1], fun _ => y⟩ gx gy method distmx :=
    ⟨rfl, rfl, rfl, hgx, hgy, hmeth, one_ne_zero, by simp⟩
  set o := obs M none (fun _ => some 7) (fun _ => x) (fun _ => y) with ho
  have o1 : ∀ k, o k = ⟨x, y, some 7⟩ := fun k => by simp [ho, obs, encode]
  have hk : kept 1 o M = [⟨x, y, some 7⟩] := by
    classical
    unfold kept
    simp [o1, List.filterMap_cons, hM.symm]
  obtain ⟨grid, w, mf, nf, e, hw, hm, hn, hg⟩ := triple2grid1_inside (g 0) (kz := 1) hx hy o M (fun m => gx.get [m - 1]) (fun n => gy.get [n - 1]) domain method
    (distmx.getD (10 ^ 20)) (by rw [hk]; simp)
    (by
      intro b hb
      rw [hk, List.mem_singleton] at hb
      subst hb
      unfold Outside
      push Not
      exact ⟨x1, x2, y1, y2⟩)
  have w1 : w 1 = ⟨x, y, some 7⟩ := by
    rw [hk] at hw
    exact hw.2 0 (by simp)
  rw [hk] at hg
  obtain ⟨res, er, -, hr⟩ := oneCall g M hgood domain none grid e
  refine ⟨res, mf, nf, er, hm.trans looksEven_iff, hn.trans looksEven_iff, fun a b ha hb => ?_⟩
  dsimp only
  obtain ⟨s1, s2, s3⟩ := (hg ((a * mx + b) / ny + 1) ((a * mx + b) % ny + 1)).single
  simp only [w1] at s1 s2 s3
  rw [hr a b ha hb]
  refine ⟨fun h => ?_, fun h d h1 h2 h3 => ?_, fun h h' => ?_⟩
  · rw [s1 h]; simp [decode, hM.symm]
  · rw [s2 h d h1 h2 h3]; simp [decode, hM.symm]
  · rw [s3 h h']; simp [decode]

theorem axis3_nearly {a b c : ℝ} : NearlyEven 3 (axis3 a b c) ↔ |(c - b) - (|b - a|)| ≤ 0.001 := by
  unfold NearlyEven
  constructor
  · exact fun h => h 1 le_rfl (by omega)
  · intro h i h1 h2
    obtain rfl : i = 1 := by omega
    exact h

/-- On the axis 0, 1, 2 the coordinate 1/4 is no grid point, and the program takes index 2 (1-based) for it. -/
theorem even_quarter (z s s' : V) (method : ℤ) (M : ℝ) :
    exactAt 3 3 (fun m => (axis3 0 1 2).get [m - 1]) (fun n => (axis3 0 1 2).get [n - 1]) |(axis3 0 1 2).get [2] - (axis3 0 1 2).get [1]|
      |(axis3 0 1 2).get [2] - (axis3 0 1 2).get [1]| true true ⟨1 / 4, 1 / 4, z⟩ = none ∧
    tgt 3 3 (fun m => (axis3 0 1 2).get [m - 1]) (fun n => (axis3 0 1 2).get [n - 1]) |(axis3 0 1 2).get [2] - (axis3 0 1 2).get [1]|
      |(axis3 0 1 2).get [2] - (axis3 0 1 2).get [1]| true true method s s' ⟨1 / 4, 1 / 4, z⟩ =
      some (2, 2, distance method ⟨1 / 4, 1 / 4, z⟩ 1 1 s s') := by
  have hd : |(axis3 0 1 2).get [2] - (axis3 0 1 2).get [1]| = 1 := by simp [axis3]; norm_num
  rw [hd]
  have h1 : (axis3 0 1 2).get [1 - 1] = 0 := rfl
  have hx : exactEven 3 (fun m => (axis3 0 1 2).get [m - 1]) 1 (1 / 4) = some none := by
    unfold exactEven
    rw [rd_ok le_rfl (by omega)]
    simp only [Option.bind_eq_bind, Option.bind_some, h1]
    rw [fnint_of (i := 0) le_rfl (by norm_num) (by norm_num) (by norm_num), if_neg (by norm_num), rd_ok (i := (0 + 1 : ℤ).toNat) (by simp) (by simp)]
    simp only [Option.bind_some]
    rw [if_pos]
    show (1 / 4 : ℝ) ≠ 0
    norm_num
  have ht : ∀ s, axisTarget 3 (fun m => (axis3 0 1 2).get [m - 1]) 1 true (1 / 4) s = some (2, s) := by
    intro s
    unfold axisTarget
    rw [if_pos rfl, rd_ok le_rfl (by omega)]
    simp only [Option.bind_eq_bind, Option.bind_some, h1]
    rw [fint_of (i := 0) (by norm_num) (by norm_num) (by norm_num)]
    rfl
  constructor
  · unfold exactAt exactCell
    rw [if_pos ⟨rfl, rfl⟩]
    dsimp only
    rw [hx]
    rfl
  · unfold tgt
    dsimp only
    rw [ht, ht]
    simp only [Option.bind_eq_bind, Option.bind_some]
    rw [if_pos (by norm_num)]
    rfl

theorem nearest_quarter {i : ℕ} (h : Nearest 3 (axis3 0 1 2) (1 / 4) i) : i = 0 := by
  obtain ⟨hi, h⟩ := h
  have h0 := h 0 (by omega)
  obtain rfl | rfl | rfl : i = 0 ∨ i = 1 ∨ i = 2 := by omega
  · rfl
  · simp only [axis3, List.getD_cons_zero] at h0
    norm_num [abs_of_pos, abs_of_neg] at h0
  · simp only [axis3, List.getD_cons_zero] at h0
    norm_num [abs_of_pos, abs_of_neg] at h0

/-- C144 is false on evenly spaced grids: the single observation at (1/4, 1/4) on the grid 0, 1, 2 × 0, 1, 2 is put on the point (1, 1); its
nearest point (0, 0) stays missing. -/
theorem C144_even_false (g : ℕ → Garbage) {M : ℝ} (hM : M ≠ 7) (domain : ℝ) :
    ∃ res, tripleToGrid g M ⟨[1], fun _ => some 7⟩ ⟨[1], fun _ => 1 / 4⟩ ⟨[1], fun _ => 1 / 4⟩ (axis3 0 1 2) (axis3 0 1 2) 1 domain none none = .ok res ∧
      Nearest 3 (axis3 0 1 2) (1 / 4) 0 ∧ (∀ i, Nearest 3 (axis3 0 1 2) (1 / 4) i → i = 0) ∧ res.get [0, 0] = none ∧ res.get [1, 1] = some 7 := by
  obtain ⟨res, mf, nf, e, hm, hn, hr⟩ := single_run g hM (gx := axis3 0 1 2) (gy := axis3 0 1 2) (x := 1 / 4) (y := 1 / 4) rfl rfl le_rfl le_rfl
    (by simp [axis3]) (by simp [axis3]; norm_num) (by simp [axis3]) (by simp [axis3]; norm_num) 1 none (Or.inr rfl) domain
  have hne : NearlyEven 3 (axis3 0 1 2) := axis3_nearly.mpr (by norm_num)
  obtain rfl := hm.mpr hne
  obtain rfl := hn.mpr hne
  obtain ⟨q1, q2⟩ := even_quarter (some 7) (g 0).slpx (g 0).slpy 1 M
  obtain ⟨d, hd, hlt⟩ := distance_lt ⟨1 / 4, 1 / 4, some 7⟩ 1 1 (g 0).slpx (g 0).slpy
  rw [hd] at q2
  refine ⟨res, e, ?_, fun i => nearest_quarter, ?_, ?_⟩
  · refine ⟨by norm_num, fun j hj => ?_⟩
    obtain rfl | rfl | rfl : j = 0 ∨ j = 1 ∨ j = 2 := by omega
    · exact le_rfl
    all_goals
      simp only [axis3, List.getD_cons_zero]
      norm_num [abs_of_pos, abs_of_neg]
  · refine (hr 0 0 (by omega) (by omega)).2.2 ?_ ?_
    · rw [q1]; simp
    · intro d' h
      rw [q2] at h
      simp at h
  · refine (hr 1 1 (by omega) (by omega)).2.1 q1 d ?_ hlt (by simpa using hlt)
    rw [q2]

/-! ### C145 -/

/-- C145 is false for `method = 0` on an evenly spaced grid: the same call gives a value or a missing point according to what the
uninitialised local variables hold. -/
theorem C145_false {M : ℝ} (hM : M ≠ 7) (domain : ℝ) : ∃ (g g' : ℕ → Garbage) (res res' : Arr),
    tripleToGrid g M ⟨[1], fun _ => some 7⟩ ⟨[1], fun _ => 1 / 4⟩ ⟨[1], fun _ => 1 / 4⟩ (axis3 0 1 2) (axis3 0 1 2) 0 domain none none = .ok res ∧
    tripleToGrid g' M ⟨[1], fun _ => some 7⟩ ⟨[1], fun _ => 1 / 4⟩ ⟨[1], fun _ => 1 / 4⟩ (axis3 0 1 2) (axis3 0 1 2) 0 domain none none = .ok res' ∧
    res.get [1, 1] = some 7 ∧ res'.get [1, 1] = none := by
  have hne : NearlyEven 3 (axis3 0 1 2) := axis3_nearly.mpr (by norm_num)
  let G : V → ℕ → Garbage := fun s _ => ⟨fun _ => ⟨0, 0, none⟩, fun _ => 0, fun _ => 0, s, s⟩
  obtain ⟨res, mf, nf, e, hm, hn, hr⟩ := single_run (G (some 0)) hM (gx := axis3 0 1 2) (gy := axis3 0 1 2) (x := 1 / 4) (y := 1 / 4) rfl rfl le_rfl le_rfl
    (by simp [axis3]) (by simp [axis3]; norm_num) (by simp [axis3]) (by simp [axis3]; norm_num) 0 none (Or.inl ⟨rfl, rfl⟩) domain
  obtain ⟨res', mf', nf', e', hm', hn', hr'⟩ := single_run (G none) hM (gx := axis3 0 1 2) (gy := axis3 0 1 2) (x := 1 / 4) (y := 1 / 4) rfl rfl le_rfl le_rfl
    (by simp [axis3]) (by simp [axis3]; norm_num) (by simp [axis3]) (by simp [axis3]; norm_num) 0 none (Or.inl ⟨rfl, rfl⟩) domain
  obtain rfl := hm.mpr hne
  obtain rfl := hn.mpr hne
  obtain rfl := hm'.mpr hne
  obtain rfl := hn'.mpr hne
  refine ⟨G (some 0), G none, res, res', e, e', ?_, ?_⟩
  · obtain ⟨q1, q2⟩ := even_quarter (some 7) (some 0) (some 0) 0 M
    refine (hr 1 1 (by omega) (by omega)).2.1 q1 0 ?_ (by norm_num) (by norm_num)
    rw [q2]
    simp [distance]
  · obtain ⟨q1, q2⟩ := even_quarter (some 7) none none 0 M
    refine (hr' 1 1 (by omega) (by omega)).2.2 (by rw [q1]; simp) fun d hd => ?_
    rw [q2] at hd
    simp [distance] at hd

/-! ### C143 -/

/-- C143 is false: there and back, a 3 × 3 grid on evenly spaced axes comes back transposed. -/
theorem C143_roundtrip_false (g : ℕ → Garbage) {M : ℝ} (hM : 9 ≤ M) (d0 : ℕ → V × V × V) (domain : ℝ) :
    ∃ (data t after res : Arr), data.shape = [3, 3] ∧
      gridToTriple M d0 data (some (toArr (axis3 0 1 2))) (some (toArr (axis3 0 1 2))) none = .ok (t, after) ∧
      tripleToGrid g M (row t 2) (coordRow t 0) (coordRow t 1) (axis3 0 1 2) (axis3 0 1 2) 1 domain none none = .ok res ∧
      data.get [0, 1] = some 1 ∧ res.get [0, 1] = some 3 ∧ ¬ res.Eqv data := by
  let data : Arr := ⟨[3, 3], fun ix => some ((ix.getD 0 0 * 3 + ix.getD 1 0 : ℕ) : ℝ)⟩
  have hlt : ∀ j i, j < 3 → i < 3 → data.get [j, i] ≠ some M := by
    intro j i hj hi h
    have : ((j * 3 + i : ℕ) : ℝ) = M := Option.some.inj h
    have h2 : ((j * 3 + i : ℕ) : ℝ) < 9 := by
      have : j * 3 + i < 9 := by omega
      exact_mod_cast this
    linarith
  obtain ⟨t, after, res, e1, e2, hs, hr⟩ := C143_roundtrip_partial g M d0 (mx := 3) (ny := 3) le_rfl le_rfl (data := data) rfl
    (axis3_axis (a := 0) (b := 1) (c := 2) (by norm_num) (by norm_num)) (axis3_axis (a := 0) (b := 1) (c := 2) (by norm_num) (by norm_num))
    (Or.inr ⟨axis3_even, axis3_even⟩) none (fun j i hj hi _ => hlt j i hj hi) ⟨0, 0, by omega, by omega, by simp [data]⟩ 1 none (Or.inr rfl) domain
  have h1 : res.get [0, 1] = some 3 := by
    rw [hr 0 1 (by omega) (by omega)]
    norm_num [data]
  have h0 : data.get [0, 1] = some 1 := by norm_num [data]
  refine ⟨data, t, after, res, rfl, e1, e2, h0, h1, fun h => ?_⟩
  have := h.2 [0, 1] (by rw [hs]; simp [data, InB])
  rw [h1, h0] at this
  norm_num at this

/-- Four finely and unevenly spaced points, 0, 1e-4, 3e-4 and 7e-4. -/
noncomputable def fine : NDArr ℝ := ⟨[4], fun ix => match ix.getD 0 0 with | 0 => 0 | 1 => 0.0001 | 2 => 0.0003 | _ => 0.0007⟩

theorem fine_axis : Axis 4 fine := by
  refine ⟨rfl, fun i hi => ?_⟩
  obtain rfl | rfl | rfl : i = 0 ∨ i = 1 ∨ i = 2 := by omega
  all_goals
    simp only [fine, List.getD_cons_zero]
    norm_num

/-- C143 is false also up to the order of the cells on fine grids: the absolute tolerance 0.001 takes the axis 0, 1e-4, 3e-4, 7e-4 for evenly spaced,
and the observation exactly at its last corner is lost altogether. -/
theorem C143_fine_false (g : ℕ → Garbage) {M : ℝ} (hM : M ≠ 7) (domain : ℝ) :
    ∃ res, tripleToGrid g M ⟨[1], fun _ => some 7⟩ ⟨[1], fun _ => fine.get [3]⟩ ⟨[1], fun _ => fine.get [3]⟩ fine fine 1 domain none none = .ok res ∧
      ∀ a b, a < 4 → b < 4 → res.get [a, b] = none := by
  obtain ⟨res, mf, nf, e, hm, hn, hr⟩ := single_run g hM (gx := fine) (gy := fine) (mx := 4) (ny := 4) (x := fine.get [3]) (y := fine.get [3]) rfl rfl (by norm_num) (by norm_num)
    (by simp only [fine, List.getD_cons_zero]; norm_num) (by simp [fine]) (by simp only [fine, List.getD_cons_zero]; norm_num) (by simp [fine]) 1 none (Or.inr rfl) domain
  have hne : NearlyEven 4 fine := by
    intro i h1 h2
    obtain rfl | rfl : i = 1 ∨ i = 2 := by omega
    all_goals
      simp only [fine, List.getD_cons_zero]
      norm_num [abs_of_pos, abs_of_neg]
  obtain rfl := hm.mpr hne
  obtain rfl := hn.mpr hne
  have hd : |fine.get [2] - fine.get [1]| = 0.0002 := by
    simp only [fine, List.getD_cons_zero]
    norm_num [abs_of_pos]
  have h1 : fine.get [1 - 1] = 0 := rfl
  have h3 : fine.get [3] = 0.0007 := rfl
  have hx : exactEven 4 (fun m => fine.get [m - 1]) 0.0002 (fine.get [3]) = some none := by
    unfold exactEven
    rw [rd_ok le_rfl (by omega)]
    simp only [Option.bind_eq_bind, Option.bind_some, h1]
    rw [h3, fnint_of (i := 4) (by norm_num) (by norm_num) (by norm_num) (by norm_num), if_pos (by norm_num)]
  have ht : ∀ s, axisTarget 4 (fun m => fine.get [m - 1]) 0.0002 true (fine.get [3]) s = some (5, s) := by
    intro s
    unfold axisTarget
    rw [if_pos rfl, rd_ok le_rfl (by omega)]
    simp only [Option.bind_eq_bind, Option.bind_some, h1]
    rw [h3, fint_of (i := 3) (by norm_num) (by norm_num) (by norm_num)]
    rfl
  refine ⟨res, e, fun a b ha hb => (hr a b ha hb).2.2 ?_ ?_⟩
  · rw [hd]
    unfold exactAt exactCell
    rw [if_pos ⟨rfl, rfl⟩]
    dsimp only
    rw [hx]
    simp
  · intro d h
    rw [hd] at h
    unfold tgt at h
    dsimp only at h
    rw [ht, ht] at h
    simp at h

/-! ### C144 on the last column, C147 -/

theorem uneven3 : ¬ NearlyEven 3 (axis3 0 1 3) := by
  rw [axis3_nearly]
  norm_num [abs_of_pos]

/-- C144 is false on the last column (row): an observation inside the grid, on its last column but between two rows, is lost. -/
theorem C144_last_false (g : ℕ → Garbage) {M : ℝ} (hM : M ≠ 7) (domain : ℝ) :
    ∃ res, tripleToGrid g M ⟨[1], fun _ => some 7⟩ ⟨[1], fun _ => 3⟩ ⟨[1], fun _ => 1 / 4⟩ (axis3 0 1 3) (axis3 0 1 3) 1 domain none none = .ok res ∧
      ∀ a b, a < 3 → b < 3 → res.get [a, b] = none := by
  obtain ⟨res, mf, nf, e, hm, hn, hr⟩ := single_run g hM (gx := axis3 0 1 3) (gy := axis3 0 1 3) (x := 3) (y := 1 / 4) rfl rfl le_rfl le_rfl
    (by simp [axis3]) (by simp [axis3]) (by simp [axis3]) (by simp [axis3]; norm_num) 1 none (Or.inr rfl) domain
  have hmf : mf = false := by rw [← Bool.not_eq_true, hm]; exact uneven3
  have hnf : nf = false := by rw [← Bool.not_eq_true, hn]; exact uneven3
  subst hmf hnf
  refine ⟨res, e, fun a b ha hb => (hr a b ha hb).2.2 ?_ ?_⟩
  · intro h
    obtain ⟨-, ⟨n1, n2⟩, -, h2⟩ := exactAt_sound (by omega) (by omega) _ _ _ _ _ _ h
    dsimp only at h2 n1 n2
    generalize (a * 3 + b) % 3 + 1 = n at h2 n1 n2
    obtain rfl | rfl | rfl : n = 1 ∨ n = 2 ∨ n = 3 := by omega
    all_goals
      simp only [axis3, List.getD_cons_zero] at h2
      norm_num at h2
  · intro d h
    have : ∀ dd s, axisTarget 3 (fun m => (axis3 0 1 3).get [m - 1]) dd false 3 s = some (-1, s) := by
      intro dd s
      obtain ⟨r, er, hr1, -⟩ := cellLoop_run (n := 3) (fun m => (axis3 0 1 3).get [m - 1]) 3 (3 - 1) 1 le_rfl (by omega)
      unfold axisTarget
      rw [if_neg (by simp), er]
      cases r with
      | none => rfl
      | some q =>
        exfalso
        obtain ⟨j, j1, j2, -, j4, -⟩ := hr1 q rfl
        obtain rfl | rfl : j = 1 ∨ j = 2 := by omega
        all_goals
          simp only [axis3] at j4
          norm_num at j4
    unfold tgt at h
    dsimp only at h
    simp only [Option.bind_eq_bind, Option.bind_eq_some_iff] at h
    obtain ⟨p, -, q, hq, h⟩ := h
    rw [this] at hq
    obtain rfl := Option.some.inj hq
    norm_num at h
    cases h

/-- Beside `C144_nearest_partial`: two observations on the uneven grid 0, 1, 3 × 0, 1, 3 meet its hypotheses; the point (1, 1) gets the second. -/
example (g : ℕ → Garbage) (domain : ℝ) : ∃ res, tripleToGrid g 100 ⟨[2], fun ix => some (ix.getD 0 0 + 5 : ℕ)⟩ ⟨[2], fun ix => (ix.getD 0 0 + 1 / 4 : ℝ)⟩
    ⟨[2], fun ix => (ix.getD 0 0 + 1 / 4 : ℝ)⟩ (axis3 0 1 3) (axis3 0 1 3) 1 domain none none = .ok res ∧ res.get [1, 1] = some 6 := by
  have ax := axis3_axis (a := 0) (b := 1) (c := 3) (by norm_num) (by norm_num)
  obtain ⟨res, e, -, hr⟩ := C144_nearest_partial g 100 (kz := 2) (mx := 3) (ny := 3) (data := ⟨[2], fun ix => some (ix.getD 0 0 + 5 : ℕ)⟩)
    (x := ⟨[2], fun ix => (ix.getD 0 0 + 1 / 4 : ℝ)⟩) (y := ⟨[2], fun ix => (ix.getD 0 0 + 1 / 4 : ℝ)⟩) (gx := axis3 0 1 3) (gy := axis3 0 1 3)
    ⟨rfl, rfl, rfl, rfl, rfl, Or.inr rfl, by norm_num, by simp⟩ le_rfl le_rfl ax ax uneven3 uneven3 domain none
    (fun k hk _ h => by
      obtain rfl | rfl : k = 0 ∨ k = 1 := by omega
      all_goals norm_num at h)
    (fun k hk _ => by
      obtain rfl | rfl : k = 0 ∨ k = 1 := by omega
      all_goals norm_num [axis3])
  refine ⟨res, e, ?_⟩
  rcases hr 1 1 (by omega) (by omega) with ⟨k, k1, -, k2, -, k4⟩ | ⟨h, -⟩
  · obtain rfl | rfl : k = 0 ∨ k = 1 := by omega
    · have := k2.2.1 (by norm_num)
      norm_num [axis3] at this
    · rw [k4]
      norm_num
  · exfalso
    refine h 1 (by omega) (by simp) ⟨⟨by norm_num, fun _ => ?_, fun _ => ?_⟩, ⟨by norm_num, fun _ => ?_, fun _ => ?_⟩⟩ <;> norm_num [axis3]

theorem uneven_lat : ¬ NearlyEven 3 (axis3 (-90) (-80) (-60)) := by
  rw [axis3_nearly]
  norm_num [abs_of_pos]

/-- C147 is false: `distmx` is not a limit on the great-circle distance. An observation at the south pole (latitude -90, longitude 1/10) is at
distance 0 from the grid point at latitude -90, longitude 0, which is also the nearest grid point; with `distmx = 100` km it is dropped, because the formula uses
the sine of the grid longitude in place of the sine of the grid latitude. -/
theorem C147_distmx_false (g : ℕ → Garbage) {M : ℝ} (hM : M ≠ 7) (domain : ℝ) :
    ∃ res, tripleToGrid g M ⟨[1], fun _ => some 7⟩ ⟨[1], fun _ => 1 / 10⟩ ⟨[1], fun _ => -90⟩ (axis3 0 1 3) (axis3 (-90) (-80) (-60)) 1 domain (some 100) none = .ok res ∧
      greatCircle (-90) (1 / 10) (-90) 0 = 0 ∧ Owns 3 (axis3 0 1 3) 0 (1 / 10) ∧ Owns 3 (axis3 (-90) (-80) (-60)) 0 (-90) ∧ res.get [0, 0] = none := by
  obtain ⟨res, mf, nf, e, hm, hn, hr⟩ := single_run g hM (gx := axis3 0 1 3) (gy := axis3 (-90) (-80) (-60)) (x := 1 / 10) (y := -90) rfl rfl le_rfl le_rfl
    (by simp [axis3]) (by simp [axis3]; norm_num) (by simp [axis3]) (by simp [axis3]; norm_num) 1 (some 100) (Or.inr rfl) domain
  have hmf : mf = false := by rw [← Bool.not_eq_true, hm]; exact uneven3
  have hnf : nf = false := by rw [← Bool.not_eq_true, hn]; exact uneven_lat
  subst hmf hnf
  have hsin : Real.sin (-90 * (Real.pi / 180)) = -1 := by
    rw [show (-90 : ℝ) * (Real.pi / 180) = -(Real.pi / 2) by ring, Real.sin_neg, Real.sin_pi_div_two]
  have hcos : Real.cos (-90 * (Real.pi / 180)) = 0 := by
    rw [show (-90 : ℝ) * (Real.pi / 180) = -(Real.pi / 2) by ring, Real.cos_neg, Real.cos_pi_div_two]
  have ox : Owns 3 (axis3 0 1 3) 0 (1 / 10) := ⟨by omega, fun h => by omega, fun _ => by simp only [axis3, List.getD_cons_zero]; norm_num⟩
  have oy : Owns 3 (axis3 (-90) (-80) (-60)) 0 (-90) := ⟨by omega, fun h => by omega, fun _ => by simp only [axis3, List.getD_cons_zero]; norm_num⟩
  refine ⟨res, e, ?_, ox, oy, ?_⟩
  · unfold greatCircle
    dsimp only
    rw [hsin, hcos]
    simp
  · refine (hr 0 0 (by omega) (by omega)).2.2 ?_ ?_
    · intro h
      obtain ⟨-, -, h1, -⟩ := exactAt_sound (by omega) (by omega) _ _ _ _ _ _ h
      simp [axis3] at h1
    · intro d h hd
      obtain ⟨i, j, d', ht, -, o1, o2⟩ := tgt_uneven (mx := 3) (ny := 3) (by omega) (by omega) (axis3_axis (a := 0) (b := 1) (c := 3) (by norm_num) (by norm_num))
        (axis3_axis (a := -90) (b := -80) (c := -60) (by norm_num) (by norm_num)) |(axis3 0 1 3).get [2] - (axis3 0 1 3).get [1]|
        |(axis3 (-90) (-80) (-60)).get [2] - (axis3 (-90) (-80) (-60)).get [1]| (g 0).slpx (g 0).slpy (b := ⟨1 / 10, -90, some 7⟩)
        (by simp [axis3]) (by simp [axis3]; norm_num) (by simp [axis3]) (by simp [axis3]; norm_num)
      have hd' : d = Real.arccos 0 * re := by
        unfold tgt at h
        simp only [Option.bind_eq_bind, Option.bind_eq_some_iff] at h
        obtain ⟨p, -, q, -, h⟩ := h
        split at h
        · simp only [Option.some.injEq, Prod.mk.injEq] at h
          obtain ⟨h1, h2, h3⟩ := h
          rw [h1, h2] at h3
          unfold distance at h3
          rw [if_neg (by norm_num)] at h3
          have := Option.some.inj h3
          rw [← this]
          dsimp only
          have e1 : (axis3 0 1 3).get [0 * 3 / 3 + 0 / 3 + 1 - 1] = 0 := rfl
          unfold rad
          rw [hsin, hcos]
          simp [axis3]
        · cases h
      rw [hd', Real.arccos_zero] at hd
      have := Real.two_le_pi
      have h100 := hd.2
      simp only [Option.getD_some] at h100
      rw [if_neg (by norm_num)] at h100
      unfold re at h100
      nlinarith

end Skyborn.Triple
