/-
The kernels compute the specification.
-/
import Verif.Geo.Lemmas
import Verif.Geo.Spec

namespace Skyborn.Geo
open Skyborn Windspharm

theorem okLat_iff (φ : ℝ) : okLat φ = true ↔ Spec.Usable φ := by
  unfold okLat Spec.Usable; simp

theorem clampRow_north {n i : ℕ} (h : i < n) : clampRow n (i + 1 + 1) = Spec.north n i + 1 := by
  unfold clampRow Spec.north
  rw [if_neg (by omega)]
  split <;> omega

theorem clampRow_south {n i : ℕ} (h : i < n) : clampRow n (i + 1 - 1) = Spec.south i + 1 := by
  unfold clampRow Spec.south
  split
  · omega
  · rw [if_neg (by omega)]; omega

theorem wrapCol_east {m j : ℕ} (cyc : Bool) (h : j < m) : wrapCol m cyc (j + 1 + 1) = Spec.east m cyc j + 1 := by
  unfold wrapCol Spec.east
  rw [if_neg (by omega)]
  cases cyc
  · simp only [Bool.false_eq_true, if_false]
    split <;> omega
  · simp only [if_true]
    by_cases hj : j + 1 = m
    · rw [if_pos (by omega), hj, Nat.mod_self]
    · rw [if_neg (by omega), Nat.mod_eq_of_lt (by omega)]

theorem wrapCol_west {m j : ℕ} (cyc : Bool) (h : j < m) : wrapCol m cyc (j + 1 - 1) = Spec.west m cyc j + 1 := by
  unfold wrapCol Spec.west
  cases cyc
  · simp only [Bool.false_eq_true, if_false]
    split
    · omega
    · rw [if_neg (by omega)]; omega
  · simp only [if_true]
    by_cases hj : j = 0
    · subst hj; rw [if_pos (by omega), Nat.mod_eq_of_lt (by omega)]; omega
    · rw [if_neg (by omega), if_neg (by omega), show j + m - 1 = j - 1 + m by omega, Nat.add_mod_right, Nat.mod_eq_of_lt (by omega)]
      omega

theorem diff_some {missing a b : ℝ} (ha : a ≠ missing) (hb : b ≠ missing) : Spec.diff missing a b = some (a - b) := by
  simp [Spec.diff, Spec.datum, ha, hb]

theorem diff_none {missing a b : ℝ} (h : ¬ (a ≠ missing ∧ b ≠ missing)) : Spec.diff missing a b = none := by
  unfold Spec.diff Spec.datum
  by_cases ha : a = missing
  · simp [ha]
  · have hb : b = missing := by tauto
    simp [hb]

/-- The value of the zonal wind when the neighbours are there. -/
theorem zonal_eq (n : ℕ) (z : ℕ → ℕ → ℝ) (lat : ℕ → ℝ) (missing : ℝ) (i j : ℕ) :
    (Spec.zonal n z lat missing i j).getD missing =
      if okLat (lat i) = true ∧ z (Spec.north n i) j ≠ missing ∧ z (Spec.south i) j ≠ missing then
        -(gr / (2 * omega) / Real.sin (lat i * rad)) * (z (Spec.north n i) j - z (Spec.south i) j) *
          (1 / ((lat (Spec.north n i) - lat (Spec.south i)) * (re * rad)))
      else missing := by
  unfold Spec.zonal
  by_cases hu : Spec.Usable (lat i)
  · rw [if_pos hu]
    have hok := (okLat_iff _).mpr hu
    by_cases hz : z (Spec.north n i) j ≠ missing ∧ z (Spec.south i) j ≠ missing
    · rw [diff_some hz.1 hz.2, if_pos ⟨hok, hz⟩]
      simp only [Option.map_some, Option.getD_some, Spec.coriolis, Spec.g, Spec.Ω, Spec.radius, Spec.toRad, gr, omega, re, rad]
      ring
    · rw [diff_none hz, if_neg (by tauto)]; rfl
  · rw [if_neg hu, if_neg (by rw [okLat_iff]; tauto)]; rfl

theorem meridional_eq {m : ℕ} {cyc : Bool} (z : ℕ → ℕ → ℝ) (lat : ℕ → ℝ) (dlon missing : ℝ) (i j : ℕ) :
    (Spec.meridional m cyc z lat dlon missing i j).getD missing =
      if okLat (lat i) = true ∧ z i (Spec.east m cyc j) ≠ missing ∧ z i (Spec.west m cyc j) ≠ missing then
        (gr / (2 * omega) / Real.sin (lat i * rad)) * (z i (Spec.east m cyc j) - z i (Spec.west m cyc j)) *
          (1 / ((Spec.intervals m cyc j) * (re * rad * dlon) * Real.cos (lat i * rad)))
      else missing := by
  unfold Spec.meridional
  by_cases hu : Spec.Usable (lat i)
  · rw [if_pos hu]
    have hok := (okLat_iff _).mpr hu
    by_cases hz : z i (Spec.east m cyc j) ≠ missing ∧ z i (Spec.west m cyc j) ≠ missing
    · rw [diff_some hz.1 hz.2, if_pos ⟨hok, hz⟩]
      simp only [Option.map_some, Option.getD_some, Spec.coriolis, Spec.g, Spec.Ω, Spec.radius, Spec.toRad, gr, omega, re, rad]
      ring
    · rw [diff_none hz, if_neg (by tauto)]; rfl
  · rw [if_neg hu, if_neg (by rw [okLat_iff]; tauto)]; rfl

theorem meridional_some {m : ℕ} {cyc : Bool} (z : ℕ → ℕ → ℝ) (lat : ℕ → ℝ) (dlon missing : ℝ) (i j : ℕ) (h1 : okLat (lat i) = true)
    (h2 : z i (Spec.east m cyc j) ≠ missing) (h3 : z i (Spec.west m cyc j) ≠ missing) :
    ∃ x, Spec.meridional m cyc z lat dlon missing i j = some x := by
  unfold Spec.meridional
  rw [if_pos ((okLat_iff _).mp h1), diff_some h2 h3]
  exact ⟨_, rfl⟩

theorem meridional_none {m : ℕ} {cyc : Bool} (z : ℕ → ℕ → ℝ) (lat : ℕ → ℝ) (dlon missing : ℝ) (i j : ℕ)
    (h : ¬ (okLat (lat i) = true ∧ z i (Spec.east m cyc j) ≠ missing ∧ z i (Spec.west m cyc j) ≠ missing)) :
    Spec.meridional m cyc z lat dlon missing i j = none := by
  unfold Spec.meridional
  by_cases hu : Spec.Usable (lat i)
  · rw [if_pos hu, diff_none (by rw [okLat_iff] at h; tauto)]; rfl
  · rw [if_neg hu]

/-- The column intervals the kernel assumes: two, corrected to one by the doubling at the ends of a non-cyclic grid. -/
theorem intervals_eq {m j : ℕ} (hm : 2 ≤ m) (hj : j < m) :
    Spec.intervals m false j = if j = 0 ∨ j = m - 1 then 1 else 2 := by
  unfold Spec.intervals Spec.east Spec.west
  simp only [Bool.false_eq_true, if_false]
  split <;> omega

/-- What the kernel reports for the meridional wind: the specified value, except that at the end columns of a non-cyclic grid a wind of
exactly twice the missing value comes out as missing. -/
noncomputable def reportV (m : ℕ) (cyc : Bool) (j : ℕ) (missing : ℝ) (mer : Option ℝ) : ℝ := by
  classical exact if (cyc = false ∧ (j = 0 ∨ j = m - 1)) ∧ mer = some (2 * missing) then missing else mer.getD missing

theorem z2guv_eq {n m : ℕ} (hn : 2 ≤ n) (hm : 2 ≤ m) (z : ℕ → ℕ → ℝ) (zmsg : ℝ) (glon glat : ℕ → ℝ) (iopt : ℕ) (r0 : Rows)
    (zz0 : ℕ → ℕ → ℝ) :
    ∃ w, z2guv z n m zmsg glon glat iopt r0 zz0 = some w ∧ ∀ i j, i < n → j < m →
      w.u (i + 1) (j + 1) = (Spec.zonal n (fun a b => z (a + 1) (b + 1)) (fun a => glat (a + 1)) zmsg i j).getD zmsg ∧
      w.v (i + 1) (j + 1) = reportV m (decide (iopt = 1)) j zmsg (Spec.meridional m (decide (iopt = 1)) (fun a b => z (a + 1) (b + 1))
        (fun a => glat (a + 1)) (glon 2 - glon 1) zmsg i j) := by
  obtain ⟨ra, rb, r, e1, e2, e3, hr⟩ := rows_eq hn glat zmsg (2 * (re * rad * (glon 2 - glon 1))) (re * rad) r0
  obtain ⟨zz, e4, hz⟩ := extend_eq (by omega) (by omega) z (decide (iopt = 1)) zz0 (n := n) (m := m)
  obtain ⟨w, e5, hw⟩ := mainLoop_eq (n := n) (m := m) zz zmsg r
  have hu : ∀ i j, i < n → j < m →
      w.u (i + 1) (j + 1) = (Spec.zonal n (fun a b => z (a + 1) (b + 1)) (fun a => glat (a + 1)) zmsg i j).getD zmsg := by
    intro i j hi hj
    rw [(hw (i + 1) (j + 1) (by omega) (by omega) (by omega) (by omega)).1, zonal_eq, uCell]
    obtain ⟨q1, q2, q3⟩ := hr (i + 1) (by omega) (by omega)
    rw [hz _ _ (by omega) (by omega), hz _ _ (by omega) (by omega), clampRow_north hi, clampRow_south hi, q1, q2, clampRow_north hi,
      clampRow_south hi]
    have : wrapCol m (decide (iopt = 1)) (j + 1) = j + 1 := by unfold wrapCol; rw [if_neg (by omega), if_neg (by omega)]
    rw [this]
    by_cases hok : okLat (glat (i + 1)) = true
    · rw [(q3 hok).1]
    · rw [if_neg (by tauto), if_neg (by tauto)]
  have hv : ∀ i j, i < n → j < m → w.v (i + 1) (j + 1) =
      if okLat (glat (i + 1)) = true ∧ z (i + 1) (Spec.east m (decide (iopt = 1)) j + 1) ≠ zmsg ∧
          z (i + 1) (Spec.west m (decide (iopt = 1)) j + 1) ≠ zmsg then
        (gr / (2 * omega) / Real.sin (glat (i + 1) * rad)) *
          (z (i + 1) (Spec.east m (decide (iopt = 1)) j + 1) - z (i + 1) (Spec.west m (decide (iopt = 1)) j + 1)) *
          (1 / (2 * (re * rad * (glon 2 - glon 1)) * Real.cos (glat (i + 1) * rad)))
      else zmsg := by
    intro i j hi hj
    rw [(hw (i + 1) (j + 1) (by omega) (by omega) (by omega) (by omega)).2, vCell]
    obtain ⟨q1, q2, q3⟩ := hr (i + 1) (by omega) (by omega)
    rw [hz _ _ (by omega) (by omega), hz _ _ (by omega) (by omega), wrapCol_east _ hj, wrapCol_west _ hj, q1]
    have : clampRow n (i + 1) = i + 1 := by unfold clampRow; rw [if_neg (by omega), if_neg (by omega)]
    rw [this]
    by_cases hok : okLat (glat (i + 1)) = true
    · rw [(q3 hok).1, (q3 hok).2]
    · rw [if_neg (by tauto), if_neg (by tauto)]
  have pre : z2guv z n m zmsg glon glat iopt r0 zz0 = (if iopt ≠ 1 then (do
      let v ← adjust n m zmsg w.v
      some { w with v := v }) else some w) := by
    unfold z2guv
    simp only []
    rw [if_neg (by omega), rd_ok (a := glon) (i := 2) (by omega) (by omega), rd_ok (a := glon) (i := 1) (by omega) (by omega)]
    simp only [Option.bind_eq_bind, Option.bind_some]
    rw [e1]
    simp only [Option.bind_some]
    rw [e2]
    simp only [Option.bind_some]
    rw [e3]
    simp only [Option.bind_some]
    rw [e4]
    simp only [Option.bind_some]
    rw [e5]
    simp only [Option.bind_some]
  rw [pre]
  by_cases hc : iopt = 1
  · rw [if_neg (not_not.mpr hc)]
    refine ⟨w, rfl, fun i j hi hj => ⟨hu i j hi hj, ?_⟩⟩
    unfold reportV
    rw [if_neg (by simp [hc]), hv i j hi hj, meridional_eq]
    have : Spec.intervals m (decide (iopt = 1)) j = 2 := by simp [Spec.intervals, hc]
    rw [this]
    push_cast
    rfl
  · rw [if_pos hc]
    obtain ⟨v, ev, h⟩ := adjust_eq (n := n) hm zmsg w.v
    rw [ev]
    refine ⟨_, rfl, fun i j hi hj => ⟨hu i j hi hj, ?_⟩⟩
    dsimp only
    rw [h (i + 1) (j + 1) (by omega) (by omega) (by omega) (by omega), hv i j hi hj]
    have hdc : decide (iopt = 1) = false := by simp [hc]
    have hiv := intervals_eq hm hj
    rw [hdc]
    unfold reportV
    have hme := meridional_eq (m := m) (cyc := false) (fun a b => z (a + 1) (b + 1)) (fun a => glat (a + 1)) (glon 2 - glon 1) zmsg i j
    beta_reduce at hme
    by_cases hcond : okLat (glat (i + 1)) = true ∧ z (i + 1) (Spec.east m false j + 1) ≠ zmsg ∧ z (i + 1) (Spec.west m false j + 1) ≠ zmsg
    · rw [if_pos hcond] at hme
      obtain ⟨x, hx⟩ := meridional_some (m := m) (cyc := false) (fun a b => z (a + 1) (b + 1)) (fun a => glat (a + 1))
            (glon 2 - glon 1) zmsg i j hcond.1 hcond.2.1 hcond.2.2
      rw [hx, Option.getD_some] at hme
      rw [hx, Option.getD_some]
      simp only [if_pos hcond]
      by_cases hend : j = 0 ∨ j = m - 1
      · have hend' : j + 1 = 1 ∨ j + 1 = m := by omega
        rw [hiv, if_pos hend] at hme
        have hX : ∀ X Y C : ℝ, X * Y * (1 / (2 * C * Real.cos (glat (i + 1) * rad))) * 2 =
            X * Y * (1 / (((1 : ℕ) : ℝ) * C * Real.cos (glat (i + 1) * rad))) := by
          intro X Y C; push_cast; rw [one_mul, mul_assoc 2 C, one_div, one_div, mul_inv]; ring
        rw [← hX] at hme
        generalize gr / (2 * omega) / Real.sin (glat (i + 1) * rad) *
            (z (i + 1) (Spec.east m false j + 1) - z (i + 1) (Spec.west m false j + 1)) *
            (1 / (2 * (re * rad * (glon 2 - glon 1)) * Real.cos (glat (i + 1) * rad))) = val at hme ⊢
        by_cases hval : val = zmsg
        · subst hval
          rw [if_neg (by tauto), if_pos ⟨⟨by trivial, hend⟩, by rw [hme, mul_comm]⟩]
        · rw [if_pos ⟨hend', hval⟩, if_neg (by
            rintro ⟨-, h⟩
            have h' := Option.some.inj h
            apply hval
            linarith), hme]
      · rw [if_neg (by omega), if_neg (by tauto), hme, hiv, if_neg hend]
        push_cast
        rfl
    · rw [if_neg hcond] at hme
      simp only [if_neg hcond]
      rw [if_neg (by tauto), if_neg]
      · exact hme.symm
      · rintro ⟨-, h⟩
        have := meridional_none (m := m) (cyc := false) (fun a b => z (a + 1) (b + 1)) (fun a => glat (a + 1)) (glon 2 - glon 1) zmsg i j hcond
        rw [this] at h
        simp at h

end Skyborn.Geo
