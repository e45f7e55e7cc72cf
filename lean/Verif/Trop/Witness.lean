import Verif.Trop.Height

/-! What the outputs do not satisfy (C86-C89, C92), with the parts that hold, and missing data (C91). -/
namespace Skyborn.Trop
open Spec

/-! #### C86: `level_index` and the caller's level axis -/

/-- The claim: on success, `level_index` is the position, on the caller's level axis, of the upper level of the tropopause layer (which
by definition lies above 450 hPa). -/
def LevelIndexIsCallers : Prop :=
  ∀ (m ny : ℕ) (p : ℕ → ℝ) (t : ℕ → ℕ → ℝ) (s : Scratch) (out0 : ℕ → ℕ → ℕ → Cell) (out : NDArr Cell) (y : ℕ), y < ny →
    (∀ k, k < m → 0 < p k ∧ 0 < t y k) →
    tropWmo ⟨[ny, m], fun i => some (t (i.getD 0 0) (i.getD 1 0))⟩ (vec m p) (-1) 0 1 none "hPa" 2 (-999) true s out0 = .ok out →
    (out.get [y]).success = 1 → 0 ≤ (out.get [y]).itrop ∧ (out.get [y]).itrop < m ∧ p (out.get [y]).itrop.toNat < 450

/-- 600, 200, 100 hPa: a profile ordered from the ground up. -/
noncomputable def p3down : ℕ → ℝ | 0 => 600 | 1 => 200 | 2 => 100 | _ => 0

theorem down_layout : Layout 2 (-1) 0 1 none := by refine ⟨by norm_num, by norm_num, by norm_num, by norm_num⟩

/-- **C86 is false**: for levels given from the ground up the index refers to the sorted levels: it is 0, where the caller has 600 hPa. -/
theorem C86_false : ¬ LevelIndexIsCallers := by
  intro hclaim
  set T : NDArr (Option ℝ) := ⟨[1, 3], fun i => some ((fun _ _ => 250 : ℕ → ℕ → ℝ) (i.getD 0 0) (i.getD 1 0))⟩ with hT
  have s : Scratch := ⟨fun _ => 0, ⟨fun _ => 0, fun _ => 0, fun _ => 0⟩⟩
  have o : ℕ → ℕ → ℕ → Cell := fun _ _ _ => ⟨0, 0, 0, 0, 0⟩
  obtain ⟨σ, out, -, hσ, e, hsh, hcol⟩ := tropWmo_columns (temperature := T) (pressure := vec 3 p3down) rfl down_layout rfl (by norm_num) rfl
    "hPa" 2 (-999) true s o
  have hsh' : out.shape = [1] := hsh
  have hσ0 := hσ.lt 0 (by norm_num)
  have hσ1 := hσ.lt 1 (by norm_num)
  have hσ2 := hσ.lt 2 (by norm_num)
  have i01 := hσ.inj 0 1 (by norm_num) (by norm_num)
  have i02 := hσ.inj 0 2 (by norm_num) (by norm_num)
  have i12 := hσ.inj 1 2 (by norm_num) (by norm_num)
  have s01 : p3down (σ 0) ≤ p3down (σ 1) := hσ.sorted rfl 0 1 (by norm_num) (by norm_num)
  have s12 : p3down (σ 1) ≤ p3down (σ 2) := hσ.sorted rfl 1 2 (by norm_num) (by norm_num)
  have hv : σ 0 = 2 ∧ σ 1 = 1 ∧ σ 2 = 0 := by
    generalize σ 0 = a at *
    generalize σ 1 = b at *
    generalize σ 2 = d at *
    clear hσ hcol
    revert s01 s12 i01 i02 i12
    interval_cases a <;> interval_cases b <;> interval_cases d <;> norm_num [p3down]
  have hcell : out.get [0] = foundCell p3 (fun _ => 250) 2 (-999) 0 := by
    rw [hcol [0] (by rw [hsh']; exact ⟨by norm_num, trivial⟩)]
    have := colCell_spec (n := 3) (P := fun k => ((vec 3 p3down).get [σ (k - 1)]).getD (-999))
      (T := fun k => (T.get ([0].insertIdx (1 : ℤ).toNat (σ (k - 1)))).getD (-999)) (unit := "hPa") (p := p3) (t := fun _ => 250) (c := 2)
      (by
        intro k hk
        unfold hpa
        rw [if_pos (by decide)]
        interval_cases k <;> simp [vec, hv, p3, p3down])
      (fun k _ => rfl) iso_sounding (tmsg := -999) (by norm_num) (by norm_num)
      (by
        intro k hk
        refine ⟨marker_nonpos (by norm_num) ?_, marker_nonpos (by norm_num) (by simp only [hT, Option.getD_some]; norm_num)⟩
        interval_cases k <;> norm_num [vec, hv, p3down])
    rcases this with ⟨k, hk, e⟩ | ⟨hno, -⟩
    · rw [e, isTropopause_unique hk iso_trop]
    · exact absurd iso_trop.1 (hno 0)
  have := hclaim 3 1 p3down (fun _ _ => 250) s o out 0 (by norm_num)
    (by intro k hk; refine ⟨?_, by norm_num⟩; interval_cases k <;> norm_num [p3down]) e (by rw [hcell]; rfl)
  rw [hcell] at this
  have h2 := this.2.2
  norm_num [foundCell, p3down] at h2

/-- **C86 (partial)** It holds for levels given in increasing pressure order (or when the order is not checked): the index returned for a
column is that of the tropopause layer of the column as given. -/
theorem C86_ascending_partial {n m : ℕ} {temperature pressure : NDArr (Option ℝ)} {xdim ydim levdim : ℤ} {timedim : Option ℤ}
    (hn : temperature.shape.length = n) (hlay : Layout n xdim ydim levdim timedim) (hp : pressure.shape = [m]) 
    (hm : temperature.shape.getD levdim.toNat 0 = m) (unit : String) {c missing : ℝ} (hc : c ≤ 10 ^ 9) (check : Bool) (s : Scratch)
    (out0 : ℕ → ℕ → ℕ → Cell) {P p : ℕ → ℝ} (hP : ∀ k, k < m → pressure.get [k] = some (P k)) :
    ∃ out, (0 < m → tropWmo temperature pressure xdim ydim levdim timedim unit c missing check s out0 = .ok out) ∧
      ∀ idx, InB out.shape idx → ∀ t : ℕ → ℝ, Complete m unit P p t missing →
        (∀ k, k < m → temperature.get (idx.insertIdx levdim.toNat k) = some (t k)) → ∀ k, IsTropopause m p t c k →
          (out.get idx).success = 1 ∧ (out.get idx).itrop = k ∧ (out.get idx).ptrop = max (cross p t c k) 85 ∧ p k < 450 := by
  by_cases hm0 : 0 < m
  · obtain ⟨σ, out, hσe, h1, h2, h3, h4⟩ := tropWmo_columns hn hlay hp hm0 hm unit c missing check s out0
    refine ⟨out, fun _ => h2, fun idx hidx t hcomp ht k hk => ?_⟩
    have hmono : ∀ j k, j < k → k < m → P j < P k := by
      intro j k hjk hk
      have := hcomp.sound.lt hjk hk
      rw [hcomp.conv j (by omega), hcomp.conv k hk] at this
      unfold hpa at this
      split at this
      · exact this
      · linarith
    have hid : ∀ k, k < m → σ k = k := by
      apply h1.same
      right
      intro j k hjk hk
      beta_reduce
      rw [hP j (by omega), hP k hk]
      exact (hmono j k hjk hk).le
    rw [h4 idx hidx]
    have := colCell_spec (n := m) (P := fun k => (pressure.get [σ (k - 1)]).getD missing)
      (T := fun k => (temperature.get (idx.insertIdx levdim.toNat (σ (k - 1)))).getD missing) (unit := unit) (p := p) (t := t) (c := c)
      (by intro k hk; simp only [Nat.add_sub_cancel]; rw [hid k hk, hP k hk]; exact hcomp.conv k hk)
      (by intro k hk; simp only [Nat.add_sub_cancel]; rw [hid k hk, ht k hk]; rfl) hcomp.sound hcomp.nonpos hc
      (by intro k hk; simp only [Nat.add_sub_cancel]; rw [hid k hk, hP k hk, ht k hk]; exact hcomp.clear k hk)
    rcases this with ⟨j, hj, e⟩ | ⟨hno, -⟩
    · obtain rfl := isTropopause_unique hj hk
      rw [e]
      exact ⟨rfl, rfl, rfl, hk.1.2.2.1⟩
    · exact absurd hk.1 (hno k)
  · refine ⟨⟨[], fun _ => ⟨0, 0, 0, 0, 0⟩⟩, fun h => absurd h hm0, fun idx _ t hcomp => absurd hcomp.pos hm0⟩

/-! #### C87: the lapse rate output -/

/-- The claim: on success the reported lapse rate is the lapse rate of the tropopause layer (hence below the criterion). -/
def LapseReported : Prop :=
  ∀ (n : ℕ) (unit : String) (P p t : ℕ → ℝ) (missing c : ℝ) (w : Work), Complete n unit P p t missing → c ≤ 10 ^ 9 → ∀ cell k,
    tropWmoProfile (vec n t) (vec n P) unit c missing w = .ok cell → IsTropopause n p t c k → cell.lapse = gamma p t k

/-- **C87 is false**: a tropopause in the uppermost layer reports the missing value. -/
theorem C87_false : ¬ LapseReported := by
  intro h
  have w : Work := ⟨fun _ => 0, fun _ => 0, fun _ => 0⟩
  obtain ⟨cell, e, h'⟩ := profile_cell iso_complete (c := 2) (by norm_num) w
  have h1 := h 3 "hPa" p3 p3 (fun _ => 250) (-999) 2 w iso_complete (by norm_num) cell 0 e iso_trop
  rcases h' with ⟨k, hk, rfl⟩ | ⟨hno, -⟩
  · obtain rfl := isTropopause_unique iso_trop hk
    rw [iso_gamma] at h1
    norm_num [foundCell] at h1
  · exact absurd iso_trop.1 (hno 0)

/-- **C87 (partial)** It holds for every layer but the uppermost, and there the lapse rate is below the criterion. -/
theorem C87_lapse_partial {n : ℕ} {unit : String} {P p t : ℕ → ℝ} {missing : ℝ} (h : Complete n unit P p t missing) {c : ℝ}
    (hc : c ≤ 10 ^ 9) (w : Work) {k : ℕ} (hk : IsTropopause n p t c k) (h1 : 1 ≤ k) :
    ∃ cell, tropWmoProfile (vec n t) (vec n P) unit c missing w = .ok cell ∧ cell.lapse = gamma p t k ∧ cell.lapse < c := by
  obtain ⟨cell, e, hs, -⟩ := C81_profile h hc w
  have := (hs k hk).2.2.2.2 h1
  exact ⟨cell, e, this, by rw [this]; exact hk.1.2.1⟩

/-! #### C88: where the reported pressure lies -/

/-- The claim: the reported pressure lies within the pressures of the profile (or is the 85 hPa floor below its top). -/
def PressureInColumn : Prop :=
  ∀ (n : ℕ) (p t : ℕ → ℝ) (missing c : ℝ) (w : Work), Complete n "hPa" p p t missing → c ≤ 10 ^ 9 → ∀ cell,
    tropWmoProfile (vec n t) (vec n p) "hPa" c missing w = .ok cell → cell.success = 1 → 85 ≤ p 0 →
      p 0 ≤ cell.ptrop ∧ cell.ptrop ≤ p (n - 1)

/-- 200, 300, 400 hPa. -/
noncomputable def pE : ℕ → ℝ | 0 => 200 | 1 => 300 | 2 => 400 | _ => 0
/-- Logarithms of the temperatures giving lapse rates 1 and 0.9 K/km. -/
noncomputable def LE : ℕ → ℝ
  | 0 => 1 / gR * (Real.log 200 - Real.log 300)
  | 1 => 0
  | 2 => -(0.9 / gR * (Real.log 300 - Real.log 400))
  | _ => 0

theorem pE_gamma : gamma pE (fun k => Real.exp (LE k)) 0 = 1 ∧ gamma pE (fun k => Real.exp (LE k)) 1 = 0.9 := by
  constructor
  · apply gamma_exp <;> norm_num [pE, LE]
  · apply gamma_exp <;> norm_num [pE, LE]

theorem pE_sounding : Sounding 3 pE (fun k => Real.exp (LE k)) := by
  refine ⟨fun k hk => ?_, fun k _ => Real.exp_pos _, fun k hk => ?_⟩
  · interval_cases k <;> norm_num [pE]
  · have : k < 2 := by omega
    interval_cases k <;> norm_num [pE]

theorem pE_cross : cross pE (fun k => Real.exp (LE k)) 2 0 ≤ 85 := by
  unfold cross
  rw [pE_gamma.1, show (0 + 1) = 1 from rfl, pE_gamma.2, if_neg (by norm_num)]
  have hm0 : mid pE 0 = 250 := by norm_num [mid, pE]
  have hm1 : mid pE 1 = 350 := by norm_num [mid, pE]
  rw [hm0, hm1]
  have : Real.log 250 + (2 - 1) / (0.9 - 1) * (Real.log 350 - Real.log 250) = Real.log (250 * (5 / 7) ^ 10) := by
    rw [Real.log_mul (by norm_num) (by norm_num), Real.log_pow, show (5 / 7 : ℝ) = 250 / 350 by norm_num,
      Real.log_div (by norm_num) (by norm_num)]
    push_cast
    ring
  rw [this, Real.exp_log (by norm_num)]
  norm_num

theorem pE_trop : IsTropopause 3 pE (fun k => Real.exp (LE k)) 2 0 := by
  have hw : within pE (fun k => Real.exp (LE k)) 2 0 = {0} := by
    apply Finset.eq_singleton_iff_unique_mem.mpr
    refine ⟨?_, fun x hx => ?_⟩
    · rw [within, Finset.mem_filter]
      refine ⟨by simp, ?_⟩
      have hm0 : mid pE 0 = 250 := by norm_num [mid, pE]
      rw [above, hm0]
      have h1 : Real.exp (-(2 * gR / Real.exp (LE 0))) ≤ 1 := by
        apply Real.exp_le_one_iff.mpr
        have : 0 < gR := by unfold gR; norm_num
        have := Real.exp_pos (LE 0)
        rw [neg_nonpos]; positivity
      have h2 := cross_pos pE_sounding 2 (k := 0) (by norm_num)
      have h3 := pE_cross
      nlinarith
    · have := Finset.mem_range.mp (Finset.mem_filter.mp hx).1
      omega
  refine ⟨⟨by norm_num, by rw [pE_gamma.1]; norm_num, by norm_num [pE], by rw [hw]; simp, ?_⟩, fun j hj hq => ?_⟩
  · rw [hw, Finset.sum_singleton, pE_gamma.1]; norm_num
  · have := hq.1; omega

theorem exp_clear (x : ℝ) : ¬ Marker (-999) (Real.exp x) := by
  unfold Marker
  have := Real.exp_pos x
  rw [not_lt, abs_of_nonneg (by linarith)]
  linarith

theorem pE_complete : Complete 3 "hPa" pE pE (fun k => Real.exp (LE k)) (-999) := by
  refine ⟨fun k _ => ?_, pE_sounding, by norm_num, fun k hk => ⟨?_, exp_clear _⟩, by norm_num⟩
  · unfold hpa; rw [if_pos (by decide)]
  · apply marker_nonpos (by norm_num)
    interval_cases k <;> norm_num [pE]

/-- **C88 is false**: with a nearly constant lapse rate below the criterion the crossing is extrapolated: for a profile from 200 to 400 hPa
the reported tropopause is 85 hPa, far above the top of the profile. -/
theorem C88_false : ¬ PressureInColumn := by
  intro h
  have w : Work := ⟨fun _ => 0, fun _ => 0, fun _ => 0⟩
  obtain ⟨cell, e, hs, -⟩ := C81_profile pE_complete (c := 2) (by norm_num) w
  obtain ⟨h1, -, h2, -⟩ := hs 0 pE_trop
  have := (h 3 pE _ (-999) 2 w pE_complete (by norm_num) cell e h1 (by norm_num [pE])).1
  rw [h2, max_eq_right pE_cross] at this
  norm_num [pE] at this

/-- **C88 (partial)** The reported pressure is never below 85 hPa; when the layer below the tropopause layer does reach the criterion it
lies between the middles of the two layers (up to the floor); and in every case at most two kilometres' worth below the middle of the
tropopause layer. -/
theorem C88_pressure_partial {n : ℕ} {unit : String} {P p t : ℕ → ℝ} {missing : ℝ} (h : Complete n unit P p t missing) {c : ℝ}
    (hc : c ≤ 10 ^ 9) (w : Work) {k : ℕ} (hk : IsTropopause n p t c k) :
    ∃ cell, tropWmoProfile (vec n t) (vec n P) unit c missing w = .ok cell ∧ 85 ≤ cell.ptrop ∧
      (c ≤ gamma p t (k + 1) → mid p k ≤ cell.ptrop ∧ cell.ptrop ≤ max (mid p (k + 1)) 85) ∧
      cell.ptrop ≤ max (mid p k * Real.exp (2 * gR / t k)) 85 := by
  obtain ⟨cell, e, hs, -⟩ := C81_profile h hc w
  obtain ⟨-, -, h1, -⟩ := hs k hk
  have hk3 := hk.1.1
  have hmk := h.sound.mid_pos (a := k) (by omega)
  have hmk1 := h.sound.mid_pos (a := k + 1) (by omega)
  have hlt := h.sound.mid_lt (a := k) (b := k + 1) (by omega) (by omega)
  refine ⟨cell, e, by rw [h1]; exact le_max_right _ _, fun hg => ?_, ?_⟩
  · have hgk := hk.1.2.1
    have hd : 0 < gamma p t (k + 1) - gamma p t k := by linarith
    have hll := Real.log_lt_log hmk hlt
    have hr0 : 0 ≤ (c - gamma p t k) / (gamma p t (k + 1) - gamma p t k) := div_nonneg (by linarith) hd.le
    have hr1 : (c - gamma p t k) / (gamma p t (k + 1) - gamma p t k) ≤ 1 := by rw [div_le_one hd]; linarith
    have hcr : cross p t c k = Real.exp (Real.log (mid p k) +
        (c - gamma p t k) / (gamma p t (k + 1) - gamma p t k) * (Real.log (mid p (k + 1)) - Real.log (mid p k))) := by
      unfold cross; rw [if_neg (by intro h0; linarith)]
    rw [h1]
    generalize (c - gamma p t k) / (gamma p t (k + 1) - gamma p t k) = r at *
    constructor
    · apply le_max_of_le_left
      rw [hcr, ← Real.log_le_iff_le_exp hmk]
      nlinarith
    · apply max_le_max _ le_rfl
      rw [hcr, ← Real.le_log_iff_exp_le hmk1]
      nlinarith
  · rw [h1]
    apply max_le_max _ le_rfl
    obtain ⟨l, hl⟩ := hk.1.2.2.2.1
    rw [within, Finset.mem_filter, Finset.mem_range] at hl
    have hle : mid p l ≤ mid p k := by
      rcases Nat.lt_or_ge l k with h0 | h0
      · exact (h.sound.mid_lt h0 (by omega)).le
      · rw [show l = k by omega]
    have := hl.2.trans hle
    rw [above, Real.exp_neg, ← div_eq_mul_inv, div_le_iff₀ (Real.exp_pos _)] at this
    exact this

/-! #### C89: the two-kilometre criterion -/

/-- The WMO definition asks that the mean lapse rate between the tropopause and *each* higher level within two kilometres does not exceed
the criterion. The claim: this holds for the tropopause found. -/
def EveryMeanBelow : Prop :=
  ∀ (n : ℕ) (p t : ℕ → ℝ) (missing c : ℝ) (w : Work), Complete n "hPa" p p t missing → c ≤ 10 ^ 9 → ∀ cell,
    tropWmoProfile (vec n t) (vec n p) "hPa" c missing w = .ok cell → cell.success = 1 →
      ∀ l ∈ within p t c cell.itrop.toNat, (∑ i ∈ Finset.Icc l cell.itrop.toNat, gamma p t i) / ((cell.itrop.toNat + 1 - l : ℕ) : ℝ) ≤ c

/-- 290 … 330 hPa. -/
noncomputable def pW : ℕ → ℝ | 0 => 290 | 1 => 300 | 2 => 310 | 3 => 320 | 4 => 330 | _ => 0
/-- Logarithms of the temperatures giving lapse rates -5, 4, 1, 3 K/km, with 250 K at 310 hPa. -/
noncomputable def LW : ℕ → ℝ
  | 0 => Real.log 250 + (4 / gR * (Real.log 300 - Real.log 310)) + ((-5) / gR * (Real.log 290 - Real.log 300))
  | 1 => Real.log 250 + (4 / gR * (Real.log 300 - Real.log 310))
  | 2 => Real.log 250
  | 3 => Real.log 250 - 1 / gR * (Real.log 310 - Real.log 320)
  | 4 => Real.log 250 - 1 / gR * (Real.log 310 - Real.log 320) - 3 / gR * (Real.log 320 - Real.log 330)
  | _ => 0

theorem pW_gamma : gamma pW (fun k => Real.exp (LW k)) 0 = -5 ∧ gamma pW (fun k => Real.exp (LW k)) 1 = 4 ∧
    gamma pW (fun k => Real.exp (LW k)) 2 = 1 ∧ gamma pW (fun k => Real.exp (LW k)) 3 = 3 := by
  refine ⟨?_, ?_, ?_, ?_⟩ <;> apply gamma_exp <;> norm_num [pW, LW]

theorem pW_sounding : Sounding 5 pW (fun k => Real.exp (LW k)) := by
  refine ⟨fun k hk => ?_, fun k _ => Real.exp_pos _, fun k hk => ?_⟩
  · interval_cases k <;> norm_num [pW]
  · have : k < 4 := by omega
    interval_cases k <;> norm_num [pW]

theorem pW_within : within pW (fun k => Real.exp (LW k)) 2 2 = {0, 1, 2} := by
  obtain ⟨g0, g1, g2, g3⟩ := pW_gamma
  have hm2 : mid pW 2 = 315 := by norm_num [mid, pW]
  have hm3 : mid pW 3 = 325 := by norm_num [mid, pW]
  have hcr : cross pW (fun k => Real.exp (LW k)) 2 2 ≤ 325 := by
    unfold cross
    rw [g2, show (2 + 1) = 3 from rfl, g3, if_neg (by norm_num), hm2, hm3, ← Real.le_log_iff_exp_le (by norm_num)]
    have := Real.log_lt_log (x := 315) (y := 325) (by norm_num) (by norm_num)
    nlinarith
  have habove : above pW (fun k => Real.exp (LW k)) 2 2 ≤ 295 := by
    unfold above
    have ht : Real.exp (LW 2) = 250 := by simp only [LW]; rw [Real.exp_log (by norm_num)]
    beta_reduce
    rw [ht]
    have hx : (0.27 : ℝ) ≤ 2 * gR / 250 := by unfold gR; norm_num
    have h1 : Real.exp (-(2 * gR / 250)) ≤ 1 / 1.27 := by
      rw [Real.exp_neg, ← one_div]
      apply one_div_le_one_div_of_le (by norm_num)
      have := Real.add_one_le_exp (2 * gR / 250)
      linarith
    have h2 := Real.exp_pos (-(2 * gR / 250))
    have h3 := cross_pos pW_sounding 2 (k := 2) (by norm_num)
    calc _ ≤ 325 * (1 / 1.27 : ℝ) := mul_le_mul hcr h1 h2.le (by norm_num)
      _ ≤ 295 := by norm_num
  have hall : ∀ l, l < 3 → above pW (fun k => Real.exp (LW k)) 2 2 ≤ mid pW l := by
    intro l hl
    interval_cases l <;> norm_num [mid, pW] at habove ⊢ <;> linarith
  unfold within
  rw [Finset.filter_true_of_mem (fun l hl => hall l (by simpa using hl))]
  rfl

theorem pW_trop : IsTropopause 5 pW (fun k => Real.exp (LW k)) 2 2 := by
  obtain ⟨g0, g1, g2, g3⟩ := pW_gamma
  refine ⟨⟨by norm_num, by rw [g2]; norm_num, by norm_num [pW], by rw [pW_within]; simp, ?_⟩, fun j hj hq => ?_⟩
  · rw [pW_within]
    rw [Finset.sum_insert (by simp), Finset.sum_insert (by simp), Finset.sum_singleton, g0, g1, g2]
    norm_num
  · have := hq.1; omega

theorem pW_complete : Complete 5 "hPa" pW pW (fun k => Real.exp (LW k)) (-999) := by
  refine ⟨fun k _ => ?_, pW_sounding, by norm_num, fun k hk => ⟨?_, exp_clear _⟩, by norm_num⟩
  · unfold hpa; rw [if_pos (by decide)]
  · apply marker_nonpos (by norm_num)
    interval_cases k <;> norm_num [pW]

/-- **C89 is false**: only the mean over the whole two kilometres is compared: upward from the tropopause found the lapse rates are
1, 4, -5 K/km, so the mean over the first two layers is 2.5 > 2. -/
theorem C89_false : ¬ EveryMeanBelow := by
  intro h
  have w : Work := ⟨fun _ => 0, fun _ => 0, fun _ => 0⟩
  obtain ⟨g0, g1, g2, g3⟩ := pW_gamma
  obtain ⟨cell, e, hs, -⟩ := C81_profile pW_complete (c := 2) (by norm_num) w
  obtain ⟨h1, h2, -⟩ := hs 2 pW_trop
  have := h 5 pW _ (-999) 2 w pW_complete (by norm_num) cell e h1 1
  rw [h2, show (((2 : ℕ) : ℤ)).toNat = 2 from rfl] at this
  have := this (by rw [pW_within]; simp)
  rw [show Finset.Icc 1 2 = {1, 2} from rfl, Finset.sum_insert (by simp), Finset.sum_singleton, g1, g2] at this
  norm_num at this

/-- **C89 (partial)** The layers within two kilometres are the tropopause layer and an unbroken run above it, and their mean lapse rate is
below the criterion. -/
theorem C89_mean_partial {n : ℕ} {unit : String} {P p t : ℕ → ℝ} {missing : ℝ} (h : Complete n unit P p t missing) {c : ℝ}
    (hc : c ≤ 10 ^ 9) (w : Work) {k : ℕ} (hk : IsTropopause n p t c k) :
    ∃ cell lo, tropWmoProfile (vec n t) (vec n P) unit c missing w = .ok cell ∧ cell.itrop = k ∧ lo ≤ k ∧
      within p t c k = Finset.Icc lo k ∧ (∑ i ∈ Finset.Icc lo k, gamma p t i) / ((k + 1 - lo : ℕ) : ℝ) < c := by
  obtain ⟨cell, e, hs, -⟩ := C81_profile h hc w
  obtain ⟨-, h1, -⟩ := hs k hk
  have hne := hk.1.2.2.2.1
  have hk3 := hk.1.1
  have hw : within p t c k = Finset.Icc ((within p t c k).min' hne) k := by
    apply Finset.ext
    intro l
    rw [Finset.mem_Icc]
    constructor
    · intro hl
      refine ⟨Finset.min'_le _ _ hl, ?_⟩
      have := Finset.mem_range.mp (Finset.mem_filter.mp hl).1
      omega
    · rintro ⟨h2, h3⟩
      have hmin := (Finset.mem_filter.mp ((within p t c k).min'_mem hne)).2
      rw [within, Finset.mem_filter]
      refine ⟨Finset.mem_range.mpr (by omega), hmin.trans ?_⟩
      rcases Nat.eq_or_lt_of_le h2 with h4 | h4
      · rw [← h4]
      · exact (h.sound.mid_lt h4 (by omega)).le
  have hlo : (within p t c k).min' hne ≤ k := by
    have := Finset.mem_range.mp (Finset.mem_filter.mp ((within p t c k).min'_mem hne)).1
    omega
  refine ⟨cell, (within p t c k).min' hne, e, h1, hlo, hw, ?_⟩
  have hmean := hk.1.2.2.2.2
  generalize (within p t c k).min' hne = lo at *
  rw [hw, Nat.card_Icc] at hmean
  exact hmean

/-! #### C91: missing data -/

/-- **C91** Missing data stay in their column: a column with a masked (or marker-valued) level gives the missing value in every output, and
two fields that agree on a column give the same outputs there whatever they hold elsewhere. -/
theorem C91_missing {n m : ℕ} {temperature pressure : NDArr (Option ℝ)} {xdim ydim levdim : ℤ} {timedim : Option ℤ}
    (hn : temperature.shape.length = n) (hlay : Layout n xdim ydim levdim timedim) (hp : pressure.shape = [m]) (hm0 : 0 < m)
    (hm : temperature.shape.getD levdim.toNat 0 = m) (unit : String) (c missing : ℝ) (check : Bool) (s : Scratch)
    (out0 : ℕ → ℕ → ℕ → Cell) :
    ∃ out, tropWmo temperature pressure xdim ydim levdim timedim unit c missing check s out0 = .ok out ∧
      (∀ idx, InB out.shape idx → (∃ k, k < m ∧ (temperature.get (idx.insertIdx levdim.toNat k) = none ∨
          ∃ v, temperature.get (idx.insertIdx levdim.toNat k) = some v ∧ Marker missing v)) →
        out.get idx = ⟨missing, missing, -999, missing, 0⟩) ∧
      ∀ (temperature' : NDArr (Option ℝ)) (s' : Scratch) (out0' : ℕ → ℕ → ℕ → Cell), temperature'.shape = temperature.shape →
        ∃ out', tropWmo temperature' pressure xdim ydim levdim timedim unit c missing check s' out0' = .ok out' ∧ out'.shape = out.shape ∧
          ∀ idx, InB out.shape idx → (∀ k, k < m → temperature'.get (idx.insertIdx levdim.toNat k) =
            temperature.get (idx.insertIdx levdim.toNat k)) → out'.get idx = out.get idx := by
  obtain ⟨σ, out, hσe, h1, h2, h3, h4⟩ := tropWmo_columns hn hlay hp hm0 hm unit c missing check s out0
  refine ⟨out, h2, fun idx hidx hk => ?_, fun T' s' o' hsh => ?_⟩
  · obtain ⟨k, hk, hbad⟩ := hk
    have hsurj : ∃ j, j < m ∧ σ j = k := by
      have : Function.Surjective (fun i : Fin m => (⟨σ i, h1.lt i i.2⟩ : Fin m)) := by
        apply Finite.injective_iff_surjective.mp
        intro a b hab
        exact Fin.ext (h1.inj a b a.2 b.2 (by simpa using congrArg Fin.val hab))
      obtain ⟨j, hj⟩ := this ⟨k, hk⟩
      exact ⟨j, j.2, congrArg Fin.val hj⟩
    obtain ⟨j, hj, hσj⟩ := hsurj
    rw [h4 idx hidx]
    have := profile1d_missing (n := m) (P := fun k => (pressure.get [σ (k - 1)]).getD missing)
      (T := fun k => (temperature.get (idx.insertIdx levdim.toNat (σ (k - 1)))).getD missing) (punit := punitOf unit) (tmsg := missing) (c := c)
      ⟨j, hj, Or.inr (by
        simp only [Nat.add_sub_cancel]
        rw [hσj]
        rcases hbad with h0 | ⟨v, h0, h5⟩
        · rw [h0]; simp only [Option.getD_none, Marker, sub_self, abs_zero]; norm_num
        · rw [h0]; exact h5)⟩ ⟨fun _ => 0, fun _ => 0, fun _ => 0⟩
    rw [profile1d_col] at this
    rw [Option.some.inj this]
    rfl
  · obtain ⟨τ, out', hτe, g1, g2, g3, g4⟩ := tropWmo_columns (temperature := T') (by rw [hsh, hn]) hlay hp hm0 (by rw [hsh, hm])
      unit c missing check s' o'
    refine ⟨out', g2, by rw [g3, h3, hsh], fun idx hidx heq => ?_⟩
    rw [h4 idx hidx, g4 idx (by rw [g3, hsh, ← h3]; exact hidx)]
    obtain rfl := hσe.trans hτe.symm
    apply colCell_congr (fun _ _ _ => rfl)
    intro k k1 k2
    rw [heq _ (h1.lt _ (by omega))]

/-- C91 applies to a (lev, lat, lon) field with a masked level: the hypotheses are those of any supported layout. -/
example (s : Scratch) (o : ℕ → ℕ → ℕ → Cell) : ∃ out, tropWmo ⟨[3, 1, 2], fun i => if i = [1, 0, 1] then none else some 250⟩ (vec 3 p3) 2 1 0 none "hPa" 2 (-999)
    true s o = .ok out ∧ out.get [0, 1] = ⟨-999, -999, -999, -999, 0⟩ := by
  obtain ⟨out, h1, h2, -⟩ := C91_missing (temperature := ⟨[3, 1, 2], fun i => if i = [1, 0, 1] then none else some 250⟩) (pressure := vec 3 p3)
    (xdim := 2) (ydim := 1) (levdim := 0) (timedim := none) rfl ⟨by norm_num, by norm_num, by norm_num, by norm_num⟩ rfl (by norm_num) rfl
    "hPa" 2 (-999) true s o
  have hsh : out.shape = [1, 2] := by
    obtain ⟨_, out', _, e', h', -⟩ := C82_grid (temperature := ⟨[3, 1, 2], fun i => if i = [1, 0, 1] then none else some 250⟩)
      (pressure := vec 3 p3) (xdim := 2) (ydim := 1) (levdim := 0) (timedim := none) rfl ⟨by norm_num, by norm_num, by norm_num, by norm_num⟩
      rfl (by norm_num) rfl "hPa" 2 (-999) true s o
    rw [h1] at e'
    obtain rfl := Except.ok.inj e'
    exact h'
  exact ⟨out, h1, h2 [0, 1] (by rw [hsh]; exact ⟨by norm_num, by norm_num, trivial⟩) ⟨1, by norm_num, Or.inl (by simp)⟩⟩

/-! #### C92: unsupported axis arguments -/

/-- The claim: whatever the axis arguments, if the call returns then every element is the result of `trop_wmo_profile` on its column. -/
def ReturnsColumns : Prop :=
  ∀ (temperature pressure : NDArr (Option ℝ)) (xdim ydim : ℤ) (lev m : ℕ) (timedim : Option ℤ) (s : Scratch) (out0 : ℕ → ℕ → ℕ → Cell)
    (out : NDArr Cell) (w : Work), pressure.shape = [m] → temperature.shape.getD lev 0 = m →
    tropWmo temperature pressure xdim ydim lev timedim "hPa" 2 (-999) false s out0 = .ok out →
      out.shape = temperature.shape.eraseIdx lev ∧
      ∀ idx, InB out.shape idx → tropWmoProfile (column temperature lev m id idx) pressure "hPa" 2 (-999) w = .ok (out.get idx)

/-- Temperature proportional to pressure: no tropopause. -/
theorem steep_none' (k : ℕ) : ¬ Qualifies 3 p3 (fun k => p3 k * 1.25) 2 k := by
  rintro ⟨h1, h2, -⟩
  have : k = 0 := by omega
  subst this
  have hne : Real.log (p3 0) - Real.log (p3 1) ≠ 0 := by
    have := Real.log_lt_log (x := p3 0) (y := p3 1) (by norm_num [p3]) (by norm_num [p3])
    intro h0; linarith
  have : Real.log (p3 0 * 1.25) - Real.log (p3 (0 + 1) * 1.25) = Real.log (p3 0) - Real.log (p3 1) := by
    rw [Real.log_mul (by norm_num [p3]) (by norm_num), Real.log_mul (by norm_num [p3]) (by norm_num)]; ring
  rw [gamma, this, div_self hne] at h2
  unfold gR at h2
  norm_num at h2

/-- **C92 is false**: a four-dimensional (lat, level, time, other) array with `xdim` absent is accepted, and when there are as many times
as levels the time series are silently treated as the columns: a field without any tropopause is reported to have one. -/
theorem C92_false : ¬ ReturnsColumns := by
  intro hclaim
  have w : Work := ⟨fun _ => 0, fun _ => 0, fun _ => 0⟩
  have s : Scratch := ⟨fun _ => 0, w⟩
  have o : ℕ → ℕ → ℕ → Cell := fun _ _ _ => ⟨0, 0, 0, 0, 0⟩
  obtain ⟨r, e, hr⟩ := grid4d_spec 1 3 3 1 (fun k => (filled (vec 3 p3) (-999)).get [k - 1])
    (fun i j k tt => ((filled ⟨[1, 3, 3, 1], fun i => some (p3 (i.getD 1 0) * 1.25)⟩ (-999)).transpose [0, 1, 2, 3]).get [i - 1, j - 1, k - 1, tt - 1])
    (-999) 2 (punitOf "hPa") s o
  have hrun : tropWmo ⟨[1, 3, 3, 1], fun i => some (p3 (i.getD 1 0) * 1.25)⟩ (vec 3 p3) (-1) 0 ((1 : ℕ) : ℤ) (some 2) "hPa" 2 (-999) false s o =
      .ok ((⟨[1, 3, 1], fun idx => r (idx.getD 0 0 + 1) (idx.getD 1 0 + 1) (idx.getD 2 0 + 1)⟩ : NDArr Cell).transpose [0, 1, 2]) := by
    have e1 : shapeAt (⟨[1, 3, 3, 1], fun i => some (p3 (i.getD 1 0) * 1.25)⟩ : NDArr (Option ℝ)) ((1 : ℕ) : ℤ) = .ok 3 := by
      simp [shapeAt]
    have e2 : checks 4 3 3 (-1) 0 ((1 : ℕ) : ℤ) (some 2) = .ok () := by rfl
    have e3 : newOrder 4 (-1) 0 ((1 : ℕ) : ℤ) (some 2) = .ok ([0, 1, 2, 3].map (fun i : ℕ => (i : ℤ))) := by rfl
    have e4 : checkAxes 4 ([0, 1, 2, 3].map (fun i : ℕ => (i : ℤ))) = .ok [0, 1, 2, 3] := checkAxes_ok (List.Perm.refl _)
    have e5 : argsort 4 (fun i => ([0, 1, 2, 3].map (fun i : ℕ => (i : ℤ))).getD i 0) = [0, 1, 2, 3] :=
      (inverse_eq (n := 4) (perm := [0, 1, 2, 3]) (List.Perm.refl _))
    have e6 : ∀ a b : NDArr ℝ, sortLevels false a b = (a, b) := by intro a b; simp [sortLevels]
    unfold tropWmo
    simp only [e1, List.length_cons, List.length_nil, show (vec 3 p3).shape.headD 0 = 3 from rfl, bind, Except.bind]
    simp only [e2, e3]
    simp only [show (0 + 1 + 1 + 1 + 1) = 4 from rfl] at *
    simp only [e2, e3, e4, e5, e6]
    have e7 : backend (filled (vec 3 p3) (-999))
        ((filled ⟨[1, 3, 3, 1], fun i => some (p3 (i.getD 1 0) * 1.25)⟩ (-999)).transpose [0, 1, 2, 3]) (-999) 2 (punitOf "hPa") 4 s o =
        .ok ⟨[1, 3, 1], fun idx => r (idx.getD 0 0 + 1) (idx.getD 1 0 + 1) (idx.getD 2 0 + 1)⟩ := by
      unfold backend
      have : ((filled ⟨[1, 3, 3, 1], fun i => some (p3 (i.getD 1 0) * 1.25)⟩ (-999)).transpose [0, 1, 2, 3]).shape = [1, 3, 3, 1] := rfl
      rw [this]
      dsimp only
      rw [if_neg (by simp [filled, vec]), e]
      rfl
    rw [show (filled (vec 3 p3) (-999)).shape.headD 0 + 1 = 4 from rfl, e7]
    rfl
  obtain ⟨-, h⟩ := hclaim _ (vec 3 p3) (-1) 0 1 3 (some 2) s o _ w rfl rfl hrun
  have h1 := h [0, 1, 0] ⟨by simp [NDArr.transpose], by simp [NDArr.transpose], by simp [NDArr.transpose], trivial⟩
  -- the true column has no tropopause
  have hcol : tropWmoProfile (column ⟨[1, 3, 3, 1], fun i => some (p3 (i.getD 1 0) * 1.25)⟩ 1 3 id [0, 1, 0]) (vec 3 p3) "hPa" 2 (-999) w =
      .ok (missingCell (-999)) := by
    rw [profile_run (n := 3) (by norm_num) rfl rfl]
    have := colCell_spec (n := 3) (P := fun k => ((vec 3 p3).get [k - 1]).getD (-999))
      (T := fun k => ((column ⟨[1, 3, 3, 1], fun i => some (p3 (i.getD 1 0) * 1.25)⟩ 1 3 id [0, 1, 0]).get [k - 1]).getD (-999))
      (unit := "hPa") (p := p3) (t := fun k => p3 k * 1.25) (c := 2)
      (by intro k hk; unfold hpa; rw [if_pos (by decide)]; rfl) (by intro k hk; simp [column])
      ⟨iso_sounding.ppos, fun k hk => by have := iso_sounding.ppos k hk; positivity, iso_sounding.asc⟩ (tmsg := -999) (by norm_num) (by norm_num)
      (by
        intro k hk
        constructor <;> apply marker_nonpos (by norm_num) <;> interval_cases k <;> norm_num [vec, column, p3])
    rcases this with ⟨k, hk, -⟩ | ⟨-, e⟩
    · exact absurd hk.1 (steep_none' k)
    · rw [e, show punitOf "hPa" = 0 by decide]
      simp [notFoundCell]
  have hcell : ((⟨[1, 3, 1], fun idx => r (idx.getD 0 0 + 1) (idx.getD 1 0 + 1) (idx.getD 2 0 + 1)⟩ : NDArr Cell).transpose [0, 1, 2]).get [0, 1, 0] =
      foundCell p3 (fun _ => 250) 2 (-999) 0 := by
    have e0 : ((⟨[1, 3, 1], fun idx => r (idx.getD 0 0 + 1) (idx.getD 1 0 + 1) (idx.getD 2 0 + 1)⟩ : NDArr Cell).transpose [0, 1, 2]).get [0, 1, 0] =
        r 1 2 1 := rfl
    rw [e0, hr 1 2 1 (by norm_num) (by norm_num) (by norm_num) (by norm_num) (by norm_num) (by norm_num)]
    have := colCell_spec (n := 3) (P := fun k => (filled (vec 3 p3) (-999)).get [k - 1])
      (T := fun l => ((filled ⟨[1, 3, 3, 1], fun i => some (p3 (i.getD 1 0) * 1.25)⟩ (-999)).transpose [0, 1, 2, 3]).get [1 - 1, 2 - 1, l - 1, 1 - 1])
      (unit := "hPa") (p := p3) (t := fun _ => 250) (c := 2)
      (by intro k hk; unfold hpa; rw [if_pos (by decide)]; rfl)
      (by intro k hk; norm_num [filled, NDArr.transpose, p3, List.range_succ]) iso_sounding (tmsg := -999) (by norm_num) (by norm_num)
      (by
        intro k hk
        constructor <;> apply marker_nonpos (by norm_num)
        · interval_cases k <;> norm_num [vec, filled, p3]
        · norm_num [filled, NDArr.transpose, p3, List.range_succ])
    rcases this with ⟨k, hk, e⟩ | ⟨hno, -⟩
    · rw [e, isTropopause_unique hk iso_trop]
    · exact absurd iso_trop.1 (hno 0)
  rw [hcol, hcell] at h1
  have h2 := congrArg (fun c : Except TErr Cell => match c with | .ok c => c.success | .error _ => 7) h1
  simp [missingCell, foundCell] at h2

end Skyborn.Trop
