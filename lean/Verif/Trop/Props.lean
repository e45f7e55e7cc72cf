import Verif.Trop.Columns
import Mathlib.Tactic.IntervalCases

/-
Tropopause properties C81-C90. The statements use the specification in `Verif/Trop/Spec.lean` and the outputs of the modelled API calls
`tropWmo` (`trop_wmo`) and `tropWmoProfile` (`trop_wmo_profile`).
-/
namespace Skyborn.Trop
open Spec

/-- The pressure in hPa meant by the value `v` in unit `unit`. -/
noncomputable def hpa (unit : String) (v : ℝ) : ℝ := if unit.toList.map Char.toLower = ['h', 'p', 'a'] then v else v / 100

/-- A one-dimensional array with the given (unmasked) values. -/
def vec (n : ℕ) (v : ℕ → ℝ) : NDArr (Option ℝ) := ⟨[n], fun idx => some (v (idx.getD 0 0))⟩

/-- The column of `a` at the multi-index `idx` of the other axes, its levels taken in the order `σ`. -/
def column (a : NDArr (Option ℝ)) (lev n : ℕ) (σ : ℕ → ℕ) (idx : List ℕ) : NDArr (Option ℝ) :=
  ⟨[n], fun i => a.get (idx.insertIdx lev (σ (i.getD 0 0)))⟩

/-- The levels of a one-dimensional array in the order `σ`. -/
def reorder (a : NDArr (Option ℝ)) (n : ℕ) (σ : ℕ → ℕ) : NDArr (Option ℝ) := ⟨[n], fun i => a.get [σ (i.getD 0 0)]⟩

theorem profile_run {n : ℕ} (hn : 0 < n) {temperature pressure : NDArr (Option ℝ)} (ht : temperature.shape = [n])
    (hp : pressure.shape = [n]) (unit : String) (c missing : ℝ) (w : Work) :
    tropWmoProfile temperature pressure unit c missing w = .ok (colCell n (fun k => (pressure.get [k - 1]).getD missing)
      (fun k => (temperature.get [k - 1]).getD missing) missing c (punitOf unit)) := by
  unfold tropWmoProfile
  rw [ht, hp]
  dsimp only
  rw [if_neg (by omega), if_neg (by simp), profile1d_col]
  rfl

theorem toHpa_eq (unit : String) (v : ℝ) : toHpa (punitOf unit) v = hpa unit v := by
  unfold toHpa punitOf hpa
  by_cases h : unit.toList.map Char.toLower = ['h', 'p', 'a']
  · simp [h]
  · simp [h]; ring

theorem isTropopause_unique {n : ℕ} {p t : ℕ → ℝ} {c : ℝ} {j k : ℕ} (hj : IsTropopause n p t c j) (hk : IsTropopause n p t c k) : j = k := by
  rcases Nat.lt_trichotomy j k with h | h | h
  · exact absurd hk.1 (hj.2 k h)
  · exact h
  · exact absurd hj.1 (hk.2 j h)

theorem colCell_spec {n : ℕ} {P T : ℕ → ℝ} {unit : String} {p t : ℕ → ℝ} (hp : ∀ k, k < n → p k = hpa unit (P (k + 1)))
    (ht : ∀ k, k < n → t k = T (k + 1)) (hs : Sounding n p t) {tmsg : ℝ} (hm : tmsg ≤ 0) {c : ℝ} (hc : c ≤ 10 ^ 9)
    (hv : ∀ k, k < n → ¬ Marker tmsg (P (k + 1)) ∧ ¬ Marker tmsg (T (k + 1))) :
    ((∃ k, IsTropopause n p t c k ∧ colCell n P T tmsg c (punitOf unit) = foundCell p t c tmsg k) ∨
      ((∀ k, ¬ Qualifies n p t c k) ∧ colCell n P T tmsg c (punitOf unit) = notFoundCell (punitOf unit) tmsg)) := by
  obtain ⟨cell, e, h⟩ := profile1d_spec (P := P) (T := T) (punit := punitOf unit) (fun k hk => by rw [toHpa_eq]; exact hp k hk) ht hs hm hc hv
    ⟨fun _ => 0, fun _ => 0, fun _ => 0⟩
  rw [profile1d_col] at e
  rw [Option.some.inj e]
  exact h

theorem marker_nonpos {tmsg v : ℝ} (hm : tmsg ≤ 0) (hv : 1e-10 ≤ v) : ¬ Marker tmsg v := by
  unfold Marker
  rw [not_lt, abs_of_nonneg (by linarith)]
  linarith

/-- The inputs of one profile: `n` unmasked levels, none within `1e-10` of the missing-value marker, which is not positive, and their
pressures in hPa `p` and temperatures `t` are a usable sounding. -/
structure Complete (n : ℕ) (unit : String) (P p t : ℕ → ℝ) (missing : ℝ) : Prop where
  conv : ∀ k, k < n → p k = hpa unit (P k)
  sound : Sounding n p t
  nonpos : missing ≤ 0
  clear : ∀ k, k < n → ¬ Marker missing (P k) ∧ ¬ Marker missing (t k)
  pos : 0 < n

theorem profile_cell {n : ℕ} {unit : String} {P p t : ℕ → ℝ} {missing : ℝ} (h : Complete n unit P p t missing) {c : ℝ} (hc : c ≤ 10 ^ 9)
    (w : Work) : ∃ cell, tropWmoProfile (vec n t) (vec n P) unit c missing w = .ok cell ∧
      ((∃ k, IsTropopause n p t c k ∧ cell = foundCell p t c missing k) ∨
      ((∀ k, ¬ Qualifies n p t c k) ∧ cell = notFoundCell (punitOf unit) missing)) := by
  refine ⟨_, profile_run h.pos rfl rfl unit c missing w, ?_⟩
  exact colCell_spec (P := fun k => P (k - 1)) (T := fun k => t (k - 1)) h.conv (fun _ _ => rfl) h.sound h.nonpos hc h.clear

/-- **C81** The tropopause of a profile is exactly the lowest qualifying layer: whatever the unit, if layer `k` is the tropopause of the
sounding then the call succeeds with that level index, the interpolated pressure (at least 85 hPa), its standard-atmosphere height and
(`k ≥ 1`) its lapse rate; and for hPa input, if no layer qualifies then every output is the missing value. -/
theorem C81_profile {n : ℕ} {unit : String} {P p t : ℕ → ℝ} {missing : ℝ} (h : Complete n unit P p t missing) {c : ℝ} (hc : c ≤ 10 ^ 9)
    (w : Work) : ∃ cell, tropWmoProfile (vec n t) (vec n P) unit c missing w = .ok cell ∧
      (∀ k, IsTropopause n p t c k → cell.success = 1 ∧ cell.itrop = k ∧ cell.ptrop = max (cross p t c k) 85 ∧
        cell.htrop = height cell.ptrop ∧ (1 ≤ k → cell.lapse = gamma p t k)) ∧
      ((∃ k, Qualifies n p t c k) → ∃ k, IsTropopause n p t c k) ∧
      (unit = "hPa" → (∀ k, ¬ Qualifies n p t c k) →
        cell.success = 0 ∧ cell.itrop = -999 ∧ cell.ptrop = missing ∧ cell.htrop = missing ∧ cell.lapse = missing) := by
  obtain ⟨cell, e, h'⟩ := profile_cell h hc w
  refine ⟨cell, e, ?_, ?_, ?_⟩
  · intro k hk
    rcases h' with ⟨j, hj, rfl⟩ | ⟨hno, -⟩
    · obtain rfl := isTropopause_unique hj hk
      refine ⟨rfl, rfl, rfl, rfl, fun h1 => ?_⟩
      simp only [foundCell]
      rw [if_neg (by omega)]
    · exact absurd hk.1 (hno k)
  · rintro ⟨k, hk⟩
    rcases h' with ⟨j, hj, -⟩ | ⟨hno, -⟩
    · exact ⟨j, hj⟩
    · exact absurd hk (hno k)
  · intro hu hno
    rcases h' with ⟨j, hj, -⟩ | ⟨-, rfl⟩
    · exact absurd hj.1 (hno j)
    · have : punitOf unit = 0 := by rw [hu]; decide
      rw [this]
      simp [notFoundCell, missingCell]

/-! #### Witness soundings -/

/-- A sounding with prescribed lapse rates: `L k` is the logarithm of the temperature of level `k`. -/
theorem gamma_exp {p L : ℕ → ℝ} {k : ℕ} {g : ℝ} (hp : 0 < p k) (hlt : p k < p (k + 1))
    (hL : L k - L (k + 1) = g / gR * (Real.log (p k) - Real.log (p (k + 1)))) : gamma p (fun k => Real.exp (L k)) k = g := by
  unfold gamma
  rw [Real.log_exp, Real.log_exp, hL]
  have h1 : Real.log (p k) - Real.log (p (k + 1)) ≠ 0 := by
    have := Real.log_lt_log hp hlt
    intro h0; linarith
  have h2 : gR ≠ 0 := by unfold gR; norm_num
  field_simp

/-- 100, 200, 600 hPa. -/
noncomputable def p3 : ℕ → ℝ | 0 => 100 | 1 => 200 | 2 => 600 | _ => 0

theorem iso_sounding : Sounding 3 p3 (fun _ => 250) := by
  refine ⟨fun k hk => ?_, fun k _ => by norm_num, fun k hk => ?_⟩
  · interval_cases k <;> norm_num [p3]
  · have : k < 2 := by omega
    interval_cases k <;> norm_num [p3]

theorem iso_gamma (p : ℕ → ℝ) (T : ℝ) (k : ℕ) : gamma p (fun _ => T) k = 0 := by simp [gamma]

theorem iso_trop : IsTropopause 3 p3 (fun _ => 250) 2 0 := by
  have hcross : cross p3 (fun _ => 250) 2 0 = 150 := by
    unfold cross; rw [if_pos (by rw [iso_gamma, iso_gamma])]; norm_num [mid, p3]
  have hmem : 0 ∈ within p3 (fun _ => 250) 2 0 := by
    rw [within, Finset.mem_filter]
    refine ⟨by simp, ?_⟩
    have hm : mid p3 0 = 150 := by norm_num [mid, p3]
    rw [above, hcross, hm]
    have : Real.exp (-(2 * gR / 250)) ≤ 1 := Real.exp_le_one_iff.mpr (by unfold gR; norm_num)
    linarith
  refine ⟨⟨by norm_num, by rw [iso_gamma]; norm_num, by norm_num [p3], ⟨0, hmem⟩, ?_⟩, fun j hj hq => ?_⟩
  · rw [Finset.sum_eq_zero (fun l _ => iso_gamma _ _ l)]; norm_num
  · have := hq.1; omega

theorem iso_complete : Complete 3 "hPa" p3 p3 (fun _ => 250) (-999) := by
  refine ⟨fun k _ => ?_, iso_sounding, by norm_num, fun k hk => ⟨?_, ?_⟩, by norm_num⟩
  · unfold hpa; rw [if_pos (by decide)]
  · apply marker_nonpos (by norm_num)
    interval_cases k <;> norm_num [p3]
  · exact marker_nonpos (by norm_num) (by norm_num)

/-- C81 applies: the isothermal profile 100, 200, 600 hPa has its tropopause in layer 0, at 150 hPa. -/
example (w : Work) : ∃ cell, tropWmoProfile (vec 3 (fun _ => 250)) (vec 3 p3) "hPa" 2 (-999) w = .ok cell ∧ cell.success = 1 ∧
    cell.itrop = 0 ∧ cell.ptrop = 150 := by
  obtain ⟨cell, e, h, -, -⟩ := C81_profile iso_complete (c := 2) (by norm_num) w
  obtain ⟨h1, h2, h3, -⟩ := h 0 iso_trop
  refine ⟨cell, e, h1, h2, ?_⟩
  rw [h3, cross, if_pos (by rw [iso_gamma, iso_gamma])]; norm_num [mid, p3]

/-! #### C82: grids -/

theorem column_cell {a P : NDArr (Option ℝ)} {lev n : ℕ} {σ : ℕ → ℕ} (hn : 0 < n) (idx : List ℕ) (unit : String) (c missing : ℝ) (w : Work) :
    tropWmoProfile (column a lev n σ idx) (reorder P n σ) unit c missing w = .ok (colCell n
      (fun k => (P.get [σ (k - 1)]).getD missing) (fun k => (a.get (idx.insertIdx lev (σ (k - 1)))).getD missing) missing c (punitOf unit)) :=
  profile_run hn rfl rfl unit c missing w

/-- **C82** For every supported axis layout, `trop_wmo` returns an array whose shape is that of the temperature without the level axis and
whose every element is the result of `trop_wmo_profile` on the column there (levels in increasing pressure order when the order is
checked, the same order for every column; in the given order when it is not checked or already non-decreasing). -/
theorem C82_grid {n m : ℕ} {temperature pressure : NDArr (Option ℝ)} {xdim ydim levdim : ℤ} {timedim : Option ℤ}
    (hn : temperature.shape.length = n) (hlay : Layout n xdim ydim levdim timedim) (hp : pressure.shape = [m]) (hm0 : 0 < m)
    (hm : temperature.shape.getD levdim.toNat 0 = m) (unit : String) (c missing : ℝ) (check : Bool) (s : Scratch)
    (out0 : ℕ → ℕ → ℕ → Cell) :
    ∃ σ out, LevelOrder check m (fun k => (pressure.get [k]).getD missing) σ ∧
      tropWmo temperature pressure xdim ydim levdim timedim unit c missing check s out0 = .ok out ∧
      out.shape = temperature.shape.eraseIdx levdim.toNat ∧
      ∀ idx, InB out.shape idx → ∀ w,
        tropWmoProfile (column temperature levdim.toNat m σ idx) (reorder pressure m σ) unit c missing w = .ok (out.get idx) := by
  obtain ⟨σ, out, hσe, h1, h2, h3, h4⟩ := tropWmo_columns hn hlay hp hm0 hm unit c missing check s out0
  exact ⟨σ, out, h1, h2, h3, fun idx hidx w => by rw [column_cell hm0, h4 idx hidx]⟩

/-- The hypotheses of C82 hold, e.g., for a (time, level, lat, lon) array. -/
example : Layout 4 3 2 1 (some 0) := by
  refine ⟨by norm_num, by norm_num, by norm_num, by norm_num⟩

example : Layout 3 (-1) 1 0 (some 2) := by
  refine ⟨by norm_num, by norm_num, by norm_num, by norm_num⟩

/-! #### C84: units -/

/-- **C84** The unit does not matter where there is a tropopause: the same sounding given in hPa and in Pa gives the same outputs. -/
theorem C84_units {n : ℕ} {p t : ℕ → ℝ} {missing : ℝ} (h : Complete n "hPa" p p t missing)
    (h' : ∀ k, k < n → ¬ Marker missing (p k * 100)) {c : ℝ} (hc : c ≤ 10 ^ 9) (hq : ∃ k, Qualifies n p t c k) (w : Work) :
    ∃ cell, tropWmoProfile (vec n t) (vec n p) "hPa" c missing w = .ok cell ∧
      tropWmoProfile (vec n t) (vec n (fun k => p k * 100)) "Pa" c missing w = .ok cell := by
  have hcomp : Complete n "Pa" (fun k => p k * 100) p t missing :=
    ⟨fun k _ => by unfold hpa; rw [if_neg (by decide)]; ring, h.sound, h.nonpos, fun k hk => ⟨h' k hk, (h.clear k hk).2⟩, h.pos⟩
  obtain ⟨c1, e1, g1⟩ := profile_cell h hc w
  obtain ⟨c2, e2, g2⟩ := profile_cell hcomp hc w
  refine ⟨c1, e1, ?_⟩
  rw [e2]
  obtain ⟨k, hk⟩ := hq
  rcases g1 with ⟨k1, a1, rfl⟩ | ⟨hno, -⟩
  · rcases g2 with ⟨k2, a2, rfl⟩ | ⟨hno, -⟩
    · rw [isTropopause_unique a1 a2]
    · exact absurd hk (hno k)
  · exact absurd hk (hno k)

example (w : Work) : ∃ cell, tropWmoProfile (vec 3 (fun _ => 250)) (vec 3 p3) "hPa" 2 (-999) w = .ok cell ∧
      tropWmoProfile (vec 3 (fun _ => 250)) (vec 3 (fun k => p3 k * 100)) "Pa" 2 (-999) w = .ok cell :=
  C84_units iso_complete (fun k hk => marker_nonpos (by norm_num) (by interval_cases k <;> norm_num [p3])) (by norm_num) ⟨0, iso_trop.1⟩ w

/-! #### C83: the success flag -/

/-- The claim: `success` is 1 exactly when the sounding has a tropopause. -/
def SuccessMeansFound (unit : String) : Prop :=
  ∀ (n : ℕ) (P p t : ℕ → ℝ) (missing c : ℝ) (w : Work), Complete n unit P p t missing → c ≤ 10 ^ 9 → ∀ cell,
    tropWmoProfile (vec n t) (vec n P) unit c missing w = .ok cell → (cell.success = 1 ↔ ∃ k, IsTropopause n p t c k)

/-- **C83 (partial)** It holds for pressures in hPa. -/
theorem C83_hPa_partial : SuccessMeansFound "hPa" := by
  intro n P p t missing c w h hc cell e
  obtain ⟨cell', e', hs, hex, hno⟩ := C81_profile h hc w
  rw [e] at e'
  obtain rfl := Except.ok.inj e'
  constructor
  · intro h1
    by_contra hc'
    have := hno rfl (fun k hk => hc' (hex ⟨k, hk⟩))
    omega
  · rintro ⟨k, hk⟩; exact (hs k hk).1

/-- A sounding without tropopause: temperature proportional to pressure. -/
theorem steep_sounding : Sounding 3 p3 p3 :=
  ⟨iso_sounding.ppos, iso_sounding.ppos, iso_sounding.asc⟩

theorem steep_none (k : ℕ) : ¬ Qualifies 3 p3 p3 2 k := by
  rintro ⟨h1, h2, -⟩
  have : k = 0 := by omega
  subst this
  have hne : Real.log (p3 0) - Real.log (p3 1) ≠ 0 := by
    have := Real.log_lt_log (x := p3 0) (y := p3 1) (by norm_num [p3]) (by norm_num [p3])
    intro h0; linarith
  rw [gamma, div_self hne] at h2
  unfold gR at h2
  norm_num at h2

theorem steep_complete : Complete 3 "Pa" (fun k => p3 k * 100) p3 p3 (-999) := by
  refine ⟨fun k _ => ?_, steep_sounding, by norm_num, fun k hk => ⟨?_, ?_⟩, by norm_num⟩
  · unfold hpa; rw [if_neg (by decide)]; ring
  · apply marker_nonpos (by norm_num)
    interval_cases k <;> norm_num [p3]
  · apply marker_nonpos (by norm_num)
    interval_cases k <;> norm_num [p3]

/-- **C83 is false for Pa**: with the default missing value, a Pa column without tropopause is reported as a success, at level index
-1000 and pressure -999. -/
theorem C83_false (w : Work) : ∃ cell, tropWmoProfile (vec 3 p3) (vec 3 (fun k => p3 k * 100)) "Pa" 2 (-999) w = .ok cell ∧
    (∀ k, ¬ Qualifies 3 p3 p3 2 k) ∧ cell.success = 1 ∧ cell.itrop = -1000 ∧ cell.ptrop = -999 := by
  obtain ⟨cell, e, h⟩ := profile_cell steep_complete (c := 2) (by norm_num) w
  refine ⟨cell, e, steep_none, ?_⟩
  rcases h with ⟨k, hk, -⟩ | ⟨-, rfl⟩
  · exact absurd hk.1 (steep_none k)
  · have : punitOf "Pa" = 1 := by decide
    rw [this]
    unfold notFoundCell
    rw [if_pos ⟨by norm_num, by norm_num [abs]⟩]
    simp

theorem C83_false' : ¬ SuccessMeansFound "Pa" := by
  intro h
  have w : Work := ⟨fun _ => 0, fun _ => 0, fun _ => 0⟩
  obtain ⟨cell, e, hno, h1, -⟩ := C83_false w
  obtain ⟨k, hk⟩ := (h 3 _ p3 p3 (-999) 2 w steep_complete (by norm_num) cell e).mp h1
  exact hno k hk.1

/-! #### C85: the order of the levels -/

/-- Two increasing enumerations of the same distinct values agree. -/
theorem enum_unique {m : ℕ} {p q : ℕ → ℝ} {π σ τ : ℕ → ℕ} (hπ : ∀ k, k < m → π k < m) (hπi : ∀ j k, j < m → k < m → π j = π k → j = k)
    (hq : ∀ k, k < m → q k = p (π k)) (hd : ∀ j k, j < m → k < m → p j = p k → j = k)
    (hσ : LevelOrder true m p σ) (hτ : LevelOrder true m q τ) : ∀ k, k < m → π (τ k) = σ k := by
  have hs : argsort m p = (List.range m).map σ := by
    apply argsort_eq
    · apply List.Subperm.perm_of_length_le
      · apply List.Nodup.subperm
        · apply List.Nodup.map_on _ List.nodup_range
          intro a ha b hb hab
          exact hσ.inj a b (List.mem_range.mp ha) (List.mem_range.mp hb) hab
        · intro j hj
          obtain ⟨k, hk, rfl⟩ := List.mem_map.mp hj
          exact List.mem_range.mpr (hσ.lt k (List.mem_range.mp hk))
      · simp
    · rw [List.pairwise_map]
      apply List.pairwise_lt_range.imp_of_mem
      intro a b _ hb hab
      exact hσ.sorted rfl a b hab (List.mem_range.mp hb)
    · exact fun i j hi hj => hd i j hi hj
  have ht : argsort m p = (List.range m).map (fun k => π (τ k)) := by
    apply argsort_eq
    · apply List.Subperm.perm_of_length_le
      · apply List.Nodup.subperm
        · apply List.Nodup.map_on _ List.nodup_range
          intro a ha b hb hab
          have ha := List.mem_range.mp ha
          have hb := List.mem_range.mp hb
          exact hτ.inj a b ha hb (hπi _ _ (hτ.lt a ha) (hτ.lt b hb) hab)
        · intro j hj
          obtain ⟨k, hk, rfl⟩ := List.mem_map.mp hj
          exact List.mem_range.mpr (hπ _ (hτ.lt k (List.mem_range.mp hk)))
      · simp
    · rw [List.pairwise_map]
      apply List.pairwise_lt_range.imp_of_mem
      intro a b _ hb hab
      have hb := List.mem_range.mp hb
      have := hτ.sorted rfl a b hab hb
      rwa [hq _ (hτ.lt a (by omega)), hq _ (hτ.lt b hb)] at this
    · exact fun i j hi hj => hd i j hi hj
  intro k hk
  have e := hs.symm.trans ht
  have := congrArg (fun l => l[k]?) e
  simpa [hk] using this.symm

/-- **C85** The order in which the levels are given does not matter when it is checked (the default): permuting the levels of both the
pressure (distinct values) and the temperature changes no output. -/
theorem C85_level_order {n m : ℕ} {temperature temperature' pressure pressure' : NDArr (Option ℝ)} {xdim ydim levdim : ℤ}
    {timedim : Option ℤ} (hn : temperature.shape.length = n) (hlay : Layout n xdim ydim levdim timedim) (hp : pressure.shape = [m])
    (hm0 : 0 < m) (hm : temperature.shape.getD levdim.toNat 0 = m) (unit : String) (c missing : ℝ) (s s' : Scratch)
    (out0 out0' : ℕ → ℕ → ℕ → Cell) {π : ℕ → ℕ} (hπ : ∀ k, k < m → π k < m) (hπi : ∀ j k, j < m → k < m → π j = π k → j = k)
    (hs' : temperature'.shape = temperature.shape) (hp' : pressure'.shape = [m])
    (hP : ∀ k, k < m → pressure'.get [k] = pressure.get [π k])
    (hT : ∀ (idx : List ℕ) k, k < m → temperature'.get (idx.insertIdx levdim.toNat k) = temperature.get (idx.insertIdx levdim.toNat (π k)))
    (hd : ∀ j k, j < m → k < m → (pressure.get [j]).getD missing = (pressure.get [k]).getD missing → j = k) :
    ∃ out out', tropWmo temperature pressure xdim ydim levdim timedim unit c missing true s out0 = .ok out ∧
      tropWmo temperature' pressure' xdim ydim levdim timedim unit c missing true s' out0' = .ok out' ∧
      out'.shape = out.shape ∧ ∀ idx, InB out.shape idx → out'.get idx = out.get idx := by
  obtain ⟨σ, out, hσe, h1, h2, h3, h4⟩ := tropWmo_columns hn hlay hp hm0 hm unit c missing true s out0
  obtain ⟨τ, out', hτe, g1, g2, g3, g4⟩ := tropWmo_columns (temperature := temperature') (by rw [hs', hn]) hlay hp' hm0 (by rw [hs', hm])
    unit c missing true s' out0'
  refine ⟨out, out', h2, g2, by rw [g3, h3, hs'], fun idx hidx => ?_⟩
  have key := enum_unique (p := fun k => (pressure.get [k]).getD missing) (q := fun k => (pressure'.get [k]).getD missing) hπ hπi
    (fun k hk => by rw [hP k hk]) hd h1 g1
  rw [h4 idx hidx, g4 idx (by rw [g3, hs', ← h3]; exact hidx)]
  apply colCell_congr
  · intro k k1 k2
    rw [hP _ (g1.lt _ (by omega)), key _ (by omega)]
  · intro k k1 k2
    rw [hT _ _ (g1.lt _ (by omega)), key _ (by omega)]

end Skyborn.Trop
