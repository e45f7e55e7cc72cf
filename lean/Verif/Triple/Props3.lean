import Verif.Triple.Props2

/-! Nearest grid points (C144) and counterexamples (C143, C144, C145, C147). -/

namespace Skyborn.Triple
open Spec

/-! ### C144: the nearest grid point -/

/-- Owning a coordinate means being nearest to it. -/
theorem owns_nearest {n : ℕ} {g : NDArr ℝ} (h : Axis n g) {i : ℕ} {v : ℝ} (ho : Owns n g i v) : Nearest n g v i := by
  obtain ⟨hi, h1, h2⟩ := ho
  have hinc := inc_of_axis h
  refine ⟨hi, fun j hj => ?_⟩
  rcases lt_trichotomy i j with hij | rfl | hij
  · have a := h2 (by omega)
    have b := hinc.le (i := i + 2) (j := j + 1) (by omega) (by omega) (by omega)
    have c := h.2 i (by omega)
    simp only [show i + 2 - 1 = i + 1 from rfl, Nat.add_sub_cancel] at b
    rw [abs_of_neg (show v - g.get [j] < 0 by linarith), abs_le]
    constructor <;> linarith
  · exact le_rfl
  · have a := h1 (by omega)
    have b := hinc.le (i := j + 1) (j := i) (by omega) (by omega) (by omega)
    have c := h.2 (i - 1) (by omega)
    rw [show i - 1 + 1 = i by omega] at c
    simp only [Nat.add_sub_cancel] at b
    rw [abs_of_pos (show 0 < v - g.get [j] by linarith), abs_le]
    constructor <;> linarith

theorem owns_unique {n : ℕ} {g : NDArr ℝ} (h : Axis n g) {i j : ℕ} {v : ℝ} (hi : Owns n g i v) (hj : Owns n g j v) : i = j := by
  have hinc := inc_of_axis h
  by_contra hne
  wlog hlt : i < j generalizing i j
  · exact this hj hi (fun e => hne e.symm) (by omega)
  have a := hi.2.2 (by have := hj.1; omega)
  have b := hj.2.1 (by omega)
  have c := hinc.le (i := i + 1) (j := j) (by omega) (by omega) (by have := hj.1; omega)
  have d := hinc.le (i := i + 2) (j := j + 1) (by omega) (by omega) (by have := hj.1; omega)
  simp only [show i + 2 - 1 = i + 1 from rfl, Nat.add_sub_cancel] at c d
  linarith

/-- On an axis that does not look evenly spaced, an observation goes to the point that owns it. -/
theorem axisTarget_uneven {n : ℕ} {g : NDArr ℝ} (h : Axis n g) (d : ℝ) {v : ℝ} (h1 : g.get [0] ≤ v) (h2 : v < g.get [n - 1]) (hn : 1 ≤ n) (s : V) :
    ∃ (i : ℕ) (s' : V), axisTarget n (fun m => g.get [m - 1]) d false v s = some (((i + 1 : ℕ) : ℤ), s') ∧ Owns n g i v := by
  obtain ⟨r, e, ha, hb⟩ := cellLoop_run (n := n) (fun m => g.get [m - 1]) v (n - 1) 1 le_rfl (by omega)
  cases r with
  | none =>
    exfalso
    have key : ∀ i, i < n → g.get [i] ≤ v := by
      intro i
      induction i with
      | zero => intro _; exact h1
      | succ i ih =>
        intro hi
        have := hb rfl (i + 1) (by omega) (by omega)
        simp only [Nat.add_sub_cancel] at this
        by_contra hc
        exact this ⟨ih (by omega), not_le.mp hc⟩
    exact absurd (key (n - 1) (by omega)) (not_le.mpr h2)
  | some q =>
    obtain ⟨j, j1, j2, j3, j4, rfl⟩ := ha q rfl
    obtain ⟨j, rfl⟩ : ∃ i, j = i + 1 := ⟨j - 1, by omega⟩
    simp only [Nat.add_sub_cancel] at j3 j4 e
    have hpos : 0 < g.get [j + 1] - g.get [j] := by linarith
    set slp := (v - g.get [j]) / (g.get [j + 1] - g.get [j]) with hslp
    have s0 : 0 ≤ slp := div_nonneg (by linarith) hpos.le
    have s1 : slp < 1 := by rw [hslp, div_lt_one hpos]; linarith
    have hinc := inc_of_axis h
    by_cases hh : slp < 1 / 2
    · refine ⟨j, some slp, ?_, by omega, fun hj => ?_, fun hj => ?_⟩
      · unfold axisTarget
        rw [if_neg (by simp), e]
        simp only [Option.bind_eq_bind, Option.bind_some]
        rw [fnint_of (i := ((j + 1 : ℕ) : ℤ)) (by positivity) (by positivity) (by push_cast; linarith) (by push_cast; linarith)]
      · have := h.2 (j - 1) (by omega)
        rw [show j - 1 + 1 = j by omega] at this
        linarith
      · rw [hslp, div_lt_iff₀ hpos] at hh
        linarith
    · refine ⟨j + 1, some slp, ?_, by omega, fun hj => ?_, fun hj => ?_⟩
      · unfold axisTarget
        rw [if_neg (by simp), e]
        simp only [Option.bind_eq_bind, Option.bind_some]
        rw [fnint_of (i := ((j + 1 + 1 : ℕ) : ℤ)) (by positivity) (by positivity) (by push_cast; linarith) (by push_cast; linarith)]
      · rw [hslp, not_lt, le_div_iff₀ hpos] at hh
        simp only [Nat.add_sub_cancel]
        linarith
      · have := h.2 (j + 1) (by omega)
        linarith

theorem distance_lt (b : Obs) (p q : ℝ) (sx sy : V) : ∃ d, distance 1 b p q sx sy = some d ∧ d < 10 ^ 20 := by
  unfold distance
  rw [if_neg (by norm_num)]
  refine ⟨_, rfl, ?_⟩
  have h1 := Real.arccos_le_pi (min 1 (max (-1) (Real.sin (b.y * rad) * Real.sin (p * rad) + Real.cos (b.y * rad) * Real.cos (q * rad) * Real.cos ((b.x - p) * rad))))
  have h2 := Real.pi_le_four
  have h3 : (0 : ℝ) < re := by unfold re; norm_num
  calc _ ≤ 4 * re := mul_le_mul_of_nonneg_right (h1.trans h2) h3.le
    _ < 10 ^ 20 := by unfold re; norm_num

theorem tgt_uneven {mx ny : ℕ} {gx gy : NDArr ℝ} (hx : 1 ≤ mx) (hy : 1 ≤ ny) (ax : Axis mx gx) (ay : Axis ny gy) (dx dy : ℝ) (sx sy : V) {b : Obs}
    (x1 : gx.get [0] ≤ b.x) (x2 : b.x < gx.get [mx - 1]) (y1 : gy.get [0] ≤ b.y) (y2 : b.y < gy.get [ny - 1]) :
    ∃ i j d, tgt mx ny (fun m => gx.get [m - 1]) (fun n => gy.get [n - 1]) dx dy false false 1 sx sy b = some (i + 1, j + 1, some d) ∧ d < 10 ^ 20 ∧
      Owns mx gx i b.x ∧ Owns ny gy j b.y := by
  obtain ⟨i, sx', e1, o1⟩ := axisTarget_uneven ax dx x1 x2 hx sx
  obtain ⟨j, sy', e2, o2⟩ := axisTarget_uneven ay dy y1 y2 hy sy
  obtain ⟨d, ed, hd⟩ := distance_lt b (gx.get [i]) (gy.get [j]) sx' sy'
  refine ⟨i, j, d, ?_, hd, o1, o2⟩
  unfold tgt
  rw [e1, e2]
  simp only [Option.bind_eq_bind, Option.bind_some]
  have := o1.1
  have := o2.1
  rw [if_pos ⟨by omega, by omega, by omega, by omega⟩]
  simp only [Int.toNat_natCast, Nat.add_sub_cancel]
  rw [ed]

/-- C144 (partial). On axes that do not look evenly spaced, with great-circle distances and no `distmx`, when every non-missing observation lies
inside the grid and not on its last row or column: a grid point gets the value of an observation for which it is the nearest point (halves
up), and the missing value exactly when there is none. The grid point at flat position `k` is column `k / ny`, row `k mod ny` (see C143).
Missing: evenly spaced grids, where it is false (`C144_even_false`), and observations on the last row or column (`C144_last_false`). -/
theorem C144_nearest_partial (g : ℕ → Garbage) (M : ℝ) {kz mx ny : ℕ} {data : Arr} {x y gx gy : NDArr ℝ} (h : Good [] kz mx ny data x y gx gy 1 none)
    (hx : 3 ≤ mx) (hy : 3 ≤ ny) (ax : Axis mx gx) (ay : Axis ny gy) (ux : ¬ NearlyEven mx gx) (uy : ¬ NearlyEven ny gy) (domain : ℝ) (mp : Option V)
    (hM : ∀ k, k < kz → data.get [k] ≠ mp.getD none → data.get [k] ≠ some M)
    (hin : ∀ k, k < kz → data.get [k] ≠ mp.getD none →
      gx.get [0] ≤ x.get [k] ∧ x.get [k] < gx.get [mx - 1] ∧ gy.get [0] ≤ y.get [k] ∧ y.get [k] < gy.get [ny - 1]) :
    ∃ res, tripleToGrid g M data x y gx gy 1 domain none mp = .ok res ∧ res.shape = [ny, mx] ∧ ∀ a b, a < ny → b < mx →
      (∃ k, k < kz ∧ data.get [k] ≠ mp.getD none ∧ Owns mx gx ((a * mx + b) / ny) (x.get [k]) ∧ Owns ny gy ((a * mx + b) % ny) (y.get [k]) ∧
        res.get [a, b] = data.get [k]) ∨
      ((∀ k, k < kz → data.get [k] ≠ mp.getD none → ¬ (Owns mx gx ((a * mx + b) / ny) (x.get [k]) ∧ Owns ny gy ((a * mx + b) % ny) (y.get [k]))) ∧
        res.get [a, b] = mp.getD none) := by
  set mpv := mp.getD none with hmpv
  by_cases hne : ∃ k, k < kz ∧ data.get [k] ≠ mpv
  swap
  · -- nothing but missing values
    obtain ⟨res, e, hs, hr⟩ := C147_values_partial g M h hx hy domain mp hM
    push Not at hne
    refine ⟨res, e, hs, fun a b ha hb => Or.inr ⟨fun k hk hv => absurd (hne k hk) hv, ?_⟩⟩
    rcases hr a b ha hb with h1 | ⟨k, k1, k2, -⟩
    · exact h1
    · exact absurd (hne k k1) k2
  set o := obs M mpv (fun k => data.get [k]) (fun k => x.get [k]) (fun k => y.get [k]) with ho
  have hkeep : ∀ k, k < kz → ((o (k + 1)).z ≠ some M ↔ data.get [k] ≠ mpv) := fun k hk => obs_kept (hM k hk)
  have hox : ∀ k, (o (k + 1)).x = x.get [k] := fun k => by simp [ho, obs]
  have hoy : ∀ k, (o (k + 1)).y = y.get [k] := fun k => by simp [ho, obs]
  obtain ⟨grid, w, mf, nf, e, hw, hm, hn, hg⟩ := triple2grid1_inside (g 0) (kz := kz) hx hy o M (fun m => gx.get [m - 1]) (fun n => gy.get [n - 1]) domain 1
    ((none : Option ℝ).getD (10 ^ 20))
    (by
      obtain ⟨k, k1, k2⟩ := hne
      exact List.ne_nil_of_mem (kept_mem.mpr ⟨k, k1, (hkeep k k1).mpr k2, rfl⟩))
    (by
      intro b hb
      obtain ⟨k, k1, k2, rfl⟩ := kept_mem.mp hb
      obtain ⟨a1, a2, a3, a4⟩ := hin k k1 ((hkeep k k1).mp k2)
      unfold Outside
      rw [hox, hoy]
      push Not
      exact ⟨a1, a2.le, a3, a4.le⟩)
  have hmf : mf = false := by
    rw [← Bool.not_eq_true, hm]
    exact fun hc => ux (looksEven_iff.mp hc)
  have hnf : nf = false := by
    rw [← Bool.not_eq_true, hn]
    exact fun hc => uy (looksEven_iff.mp hc)
  subst hmf hnf
  have hdd : (if (none : Option ℝ).getD (10 ^ 20) ≤ 0 then (10 : ℝ) ^ 20 else (none : Option ℝ).getD (10 ^ 20)) = 10 ^ 20 := by simp
  rw [hdd] at hg
  obtain ⟨kI, kJ⟩ := kept_index hw
  obtain ⟨res, er, hs, hr⟩ := oneCall g M h domain mp grid e
  have hcond : ¬ (false = true ∧ false = true) ∨ (Arith mx (fun m : ℕ => gx.get [m - 1]) |(fun m : ℕ => gx.get [m - 1]) 3 - (fun m : ℕ => gx.get [m - 1]) 2| ∧
      Arith ny (fun m : ℕ => gy.get [m - 1]) |(fun m : ℕ => gy.get [m - 1]) 3 - (fun m : ℕ => gy.get [m - 1]) 2|) := Or.inl (by simp)
  -- an exact observation is owned by its own point
  have ownSelf : ∀ {n : ℕ} {g : NDArr ℝ}, Axis n g → ∀ i, i < n → Owns n g i (g.get [i]) := by
    intro n g hg i hi
    refine ⟨hi, fun h1 => ?_, fun h1 => ?_⟩
    · have := hg.2 (i - 1) (by omega)
      rw [show i - 1 + 1 = i by omega] at this
      linarith
    · have := hg.2 i h1
      linarith
  refine ⟨res, er, hs, fun a b ha hb => ?_⟩
  rw [hr a b ha hb]
  have hab : a * mx + b < mx * ny := by
    calc a * mx + b < a * mx + mx := by omega
      _ = (a + 1) * mx := by ring
      _ ≤ ny * mx := Nat.mul_le_mul_right _ ha
      _ = mx * ny := Nat.mul_comm _ _
  generalize a * mx + b = p at hab ⊢
  have hp1 : p / ny < mx := Nat.div_lt_of_lt_mul (by rw [Nat.mul_comm]; exact hab)
  have hp2 : p % ny < ny := Nat.mod_lt _ (by omega)
  generalize p / ny = i at hp1 ⊢
  generalize p % ny = j at hp2 ⊢
  have target : ∀ k, k < kz → data.get [k] ≠ mpv → ∃ i' j' d, tgt mx ny (fun m => gx.get [m - 1]) (fun n => gy.get [n - 1])
      |(fun m : ℕ => gx.get [m - 1]) 3 - (fun m : ℕ => gx.get [m - 1]) 2| |(fun m : ℕ => gy.get [m - 1]) 3 - (fun m : ℕ => gy.get [m - 1]) 2| false false 1
      (g 0).slpx (g 0).slpy (o (k + 1)) = some (i' + 1, j' + 1, some d) ∧ d < 10 ^ 20 ∧ Owns mx gx i' (x.get [k]) ∧ Owns ny gy j' (y.get [k]) := by
    intro k hk hv
    obtain ⟨a1, a2, a3, a4⟩ := hin k hk hv
    have := tgt_uneven (by omega) (by omega) ax ay |(fun m : ℕ => gx.get [m - 1]) 3 - (fun m : ℕ => gx.get [m - 1]) 2|
      |(fun m : ℕ => gy.get [m - 1]) 3 - (fun m : ℕ => gy.get [m - 1]) 2| (g 0).slpx (g 0).slpy (b := o (k + 1)) (by rw [hox]; exact a1)
      (by rw [hox]; exact a2) (by rw [hoy]; exact a3) (by rw [hoy]; exact a4)
    rw [hox, hoy] at this
    exact this
  have hval : ∀ k, k < kz → decode M mpv (o (k + 1)).z = data.get [k] := by
    intro k hk
    simp only [ho, obs, Nat.add_sub_cancel]
    exact decode_encode (hM k hk)
  rcases hg (i + 1) (j + 1) with ⟨q, q1, q2, q3, q4, q5⟩ | ⟨q1, q2, q3⟩ | ⟨q1, q2, q, d, q3, q4, q5, q6, q7, q8, q9, q10⟩
  · obtain ⟨k, k1, k2, ek⟩ := kI q q1 q2
    obtain ⟨-, -, b1, b2⟩ := exactAt_sound (by omega) (by omega) _ _ _ _ _ _ q3
    rw [ek] at b1 b2 q5
    rw [hox] at b1
    rw [hoy] at b2
    simp only [Nat.add_sub_cancel] at b1 b2
    refine Or.inl ⟨k, k1, (hkeep k k1).mp k2, ?_, ?_, ?_⟩
    · rw [b1]; exact ownSelf ax i hp1
    · rw [b2]; exact ownSelf ay j hp2
    · rw [q5]; exact hval k k1
  · refine Or.inr ⟨fun k hk hv hown => ?_, by rw [q2]; unfold decode; rw [if_pos rfl]⟩
    obtain ⟨u, u1, u2, eu⟩ := kJ k hk ((hkeep k hk).mpr hv)
    obtain ⟨i', j', d, et, hd, o1, o2⟩ := target k hk hv
    have e1 := owns_unique ax o1 hown.1
    have e2 := owns_unique ay o2 hown.2
    subst e1 e2
    rcases q3 with q3 | q3
    · have hex := q3 u u1 u2
      obtain ⟨c, hc⟩ := Option.ne_none_iff_exists'.mp hex
      obtain ⟨c1, c2⟩ := c
      obtain ⟨⟨m1, m2⟩, ⟨n1, n2⟩, b1, b2⟩ := exactAt_sound (by omega) (by omega) _ _ _ _ _ _ hc
      rw [eu, hox] at b1
      rw [eu, hoy] at b2
      have o1' := ownSelf ax (c1 - 1) (by omega)
      have o2' := ownSelf ay (c2 - 1) (by omega)
      rw [← b1] at o1'
      rw [← b2] at o2'
      have e1 := owns_unique ax o1 o1'
      have e2 := owns_unique ay o2 o2'
      apply q1 u u1 u2
      rw [hc, e1, e2]
      simp only [Option.some.injEq, Prod.mk.injEq]
      omega
    · exact q3 u u1 u2 d (by rw [eu]; exact et) ⟨hd, hd⟩
  · obtain ⟨k, k1, k2, ek⟩ := kI q q3 q4
    obtain ⟨i', j', d', et, hd, o1, o2⟩ := target k k1 ((hkeep k k1).mp k2)
    rw [ek, et] at q5
    simp only [Option.some.injEq, Prod.mk.injEq, Nat.add_right_cancel_iff] at q5
    obtain ⟨e1, e2, -⟩ := q5
    subst e1 e2
    exact Or.inl ⟨k, k1, (hkeep k k1).mp k2, o1, o2, by rw [q8, ek]; exact hval k k1⟩

end Skyborn.Triple
