/-
The results of the calls: the equations that a success stands for, and what is returned otherwise.
-/
import Verif.Gpi.Witness

namespace Skyborn.Gpi

open Classical

/-- A number as an array. -/
def num (x : ℝ) : NDArr (Option ℝ) := ⟨[], fun _ => some x⟩

/-- The levels `1 .. n` as an array. -/
def prof (n : ℕ) (f : ℕ → ℝ) : NDArr (Option ℝ) := ⟨[n], fun i => some (f (i.headD 0 + 1))⟩

theorem clean_prof (n : ℕ) (f : ℕ → ℝ) : clean (prof n f) = ⟨[n], fun i => f (i.headD 0 + 1)⟩ := rfl

theorem not_upside {n : ℕ} {f : ℕ → ℝ} (hn : 1 ≤ n) (h : f n ≤ f 1) : ¬ upside (clean (prof n f)) := by
  rintro ⟨_, h1⟩
  change f (0 + 1) < f (n - 1 + 1) at h1
  rw [show n - 1 + 1 = n by omega, zero_add] at h1
  linarith

/-- The call of a profile whose levels are those of a column, surface first. -/
theorem profile_of {c : Column} {q : ℝ} (hn : 1 ≤ c.n) (ho : c.p c.n ≤ c.p 1) (hs : 278.15 < c.sst) (hq : c.psl = q * 0.01)
    {res : Res} (h : core c = some res) : profileCall (num c.sst) (num q) (prof c.n c.p) (prof c.n c.t) (prof c.n c.r) none c.source c.ckcd = .ok res := by
  unfold profileCall
  have e1 : ∀ x, scalar (num x) = .ok x := fun x => rfl
  rw [e1, e1]
  have hu := not_upside hn ho
  have e2 : prepareProfile (prof c.n c.p) (prof c.n c.t) (prof c.n c.r) none =
      .ok (fun k => c.p (k - 1 + 1), fun k => c.t (k - 1 + 1), fun k => c.r (k - 1 + 1), c.n) := by
    unfold prepareProfile
    show (if [c.n] = [] then _ else _) = _
    rw [if_neg (by simp)]
    have g1 : ¬ ((prof c.n c.t).shape.getD 0 0 ≠ c.n ∨ (prof c.n c.r).shape.getD 0 0 ≠ c.n) := by
      push Not
      exact ⟨rfl, rfl⟩
    rw [if_neg g1, if_neg (show ¬ (prof c.n c.t).shape ≠ (prof c.n c.r).shape by push Not; rfl)]
    dsimp only
    rw [if_neg hu, if_neg hu, if_neg hu]
    rw [if_neg]
    · rfl
    · push Not
      constructor
      · show (1 : ℤ) ≤ c.n
        omega
      · exact le_refl (c.n : ℤ)
  show (prepareProfile (prof c.n c.p) (prof c.n c.t) (prof c.n c.r) none >>= _) = _
  rw [e2]
  show (match profile c.sst q (fun k => c.p (k - 1 + 1)) (fun k => c.t (k - 1 + 1)) (fun k => c.r (k - 1 + 1)) c.n c.source c.ckcd with
    | none => _
    | some res => _) = _
  have e3 : profile c.sst q (fun k => c.p (k - 1 + 1)) (fun k => c.t (k - 1 + 1)) (fun k => c.r (k - 1 + 1)) c.n c.source c.ckcd = some res := by
    unfold profile
    rw [if_neg (by norm_num; linarith), ← h]
    have ag : ∀ (m : ℕ) (f : ℕ → ℝ), Agree m (fun k => f (k - 1 + 1)) f := fun m f i a _ => by
      show f (i - 1 + 1) = f i
      rw [show i - 1 + 1 = i by omega]
    exact core_congr (c := ⟨c.n, _, _, _, c.sst, _, _, _⟩) rfl (ag _ _) (ag _ _) (ag _ _) rfl hq.symm rfl rfl
  rw [e3]

/-- The same as a call. -/
theorem call_of {c : Column} {q : ℝ} (hn : 1 ≤ c.n) (ho : c.p c.n ≤ c.p 1) (hs : 278.15 < c.sst) (hq : c.psl = q * 0.01) (h0 : c.source = 0) (hk : c.ckcd = 0.9)
    {res : Res} (h : core c = some res) (order : List (List ℕ)) :
    potentialIntensity (num c.sst) (num q) (prof c.n c.p) (prof c.n c.t) (prof c.n c.r) none order = .ok ⟨[], fun _ => post res.pmin, fun _ => post res.vmax, res.flag⟩ := by
  have hp := profile_of hn ho hs hq h
  rw [h0, hk] at hp
  unfold potentialIntensity
  rw [if_pos (show (prof c.n c.t).shape.length = 1 from rfl), hp]
  rfl

/-- The profile with a positive wind. -/
theorem windy_call : ∃ out v, potentialIntensity (num 303) (num 97000) (prof 3 (windy 0 0.9).p) (prof 3 (windy 0 0.9).t) (prof 3 (windy 0 0.9).r) none [] = .ok out ∧
    out.flag = 1 ∧ out.vmax [] = some v ∧ 0 < v := by
  obtain ⟨res, h1, h2, h3, _⟩ := windy_core 0 0.9
  refine ⟨_, res.vmax, call_of (c := windy 0 0.9) (q := 97000) (by show 1 ≤ 3; omega) ?_ (by show (278.15 : ℝ) < 303; norm_num) rfl rfl rfl h1 [], h2, post_of_pos h3.le, h3⟩
  show (50 : ℝ) ≤ 971
  norm_num

/-! ### CAPE -/

/-- C190 applies: a parcel of saturated air with positive energy. -/
example : ∃ c, cape windyEnv 0 303 (satMixing (satPressure 29.85) 970) 970 = some c ∧ c.flag = 1 ∧ 0 < c.value ∧ Spec.Falling windyEnv.n windyEnv.p := by
  obtain ⟨_, _, _, h1, _, h2⟩ := sea_air
  refine ⟨_, h2, rfl, ?_, ?_, ?_⟩
  · show 0 < rd / 1941 * windyExcess
    have : 0 < rd := by unfold rd; norm_num
    positivity
  · intro l a b
    show (0 : ℝ) < if l = 1 then 971 else if l = 2 then 970 else 50
    split_ifs <;> norm_num
  · intro l a b
    change l < 2 at b
    obtain rfl : l = 1 := by omega
    show (970 : ℝ) < 971
    norm_num

/-! ### The solution -/

/-- The column of an accepted profile call. -/
theorem profile_column {sst psl p t r : NDArr (Option ℝ)} {actual : Option ℤ} {source : ℕ} {ckcd : ℝ} {res : Res} (hp : Spec.SurfaceFirst p)
    (h : profileCall sst psl p t r actual source ckcd = .ok res) :
    ∃ s q n, scalar sst = .ok s ∧ scalar psl = .ok q ∧ p.shape = [n] ∧ 1 ≤ (actual.getD n).toNat ∧ (actual.getD n).toNat ≤ n ∧
      ((s ≤ 278.15 ∧ res = skipped (lnRatio ckcd) 0) ∨ 278.15 < s ∧ core (Spec.columnOf s q p t r (actual.getD n).toNat source ckcd) = some res) := by
  unfold profileCall at h
  obtain ⟨s, hs, h⟩ := ebind h
  obtain ⟨q, hq, h⟩ := ebind h
  obtain ⟨⟨p', t', r', a⟩, hpp, h⟩ := ebind h
  dsimp only at h
  unfold prepareProfile at hpp
  split at hpp
  case h_2 => cases hpp
  rename_i n hn
  by_cases c1 : r.shape = []
  · rw [if_pos c1] at hpp; cases hpp
  rw [if_neg c1] at hpp
  by_cases c2 : t.shape.getD 0 0 ≠ n ∨ r.shape.getD 0 0 ≠ n
  · rw [if_pos c2] at hpp; cases hpp
  rw [if_neg c2] at hpp
  by_cases c3 : t.shape ≠ r.shape
  · rw [if_pos c3] at hpp; cases hpp
  rw [if_neg c3] at hpp
  dsimp only at hpp
  rw [if_neg hp, if_neg hp, if_neg hp] at hpp
  by_cases c4 : actual.getD (n : ℤ) < 1 ∨ actual.getD (n : ℤ) > n
  · rw [if_pos c4] at hpp; cases hpp
  rw [if_neg c4] at hpp
  push Not at c4
  cases hpp
  refine ⟨s, q, n, hs, hq, hn, by omega, by omega, ?_⟩
  cases hr : profile s q (fun k => (clean p).get [k - 1]) (fun k => (clean t).get [k - 1]) (fun k => (clean r).get [k - 1]) (actual.getD (n : ℤ)).toNat source ckcd with
  | none => rw [hr] at h; cases h
  | some x =>
    rw [hr] at h
    cases h
    unfold profile at hr
    by_cases c : s + -273.15 ≤ 5
    · rw [if_pos c] at hr
      cases hr
      refine Or.inl ⟨?_, rfl⟩
      norm_num at c ⊢
      linarith
    · rw [if_neg c] at hr
      refine Or.inr ⟨?_, ?_⟩
      · norm_num at c ⊢
        linarith
      · rw [← hr]
        unfold Spec.columnOf
        rw [show q / 100 = q * 0.01 by norm_num; ring]
        rfl

theorem strong_sea {P x y : ℝ} (hy : 0 < y) (h : 400 ≤ P * Real.exp (-max x 0 / (rd * y))) : 400 ≤ P := by
  have hrd : 0 < rd := by unfold rd; norm_num
  have h1 : Real.exp (-max x 0 / (rd * y)) ≤ 1 := by
    rw [Real.exp_le_one_iff]
    exact div_nonpos_of_nonpos_of_nonneg (by have := le_max_right x 0; linarith) (by positivity)
  have h2 := Real.exp_pos (-max x 0 / (rd * y))
  have h3 : 0 < P := by
    by_contra g
    push Not at g
    have := mul_nonpos_of_nonpos_of_nonneg g h2.le
    linarith
  nlinarith

/-- C192: a success is a solution of the equations of the potential intensity for the profile (surface first): within 0.5 mb a fixed point of the central pressure,
and minimum pressure and wind follow from the CAPE values at it. -/
theorem C192_solution {sst psl p t r : NDArr (Option ℝ)} {actual : Option ℤ} {order : List (List ℕ)} {out : Intensity} (hd : t.shape.length = 1) (hp : Spec.SurfaceFirst p)
    (h : potentialIntensity sst psl p t r actual order = .ok out) (hf : out.flag = 1) :
    ∃ s q n a m sat pm t0 otl pmin vmax, scalar sst = .ok s ∧ scalar psl = .ok q ∧ p.shape = [n] ∧ out.pmin [] = some pmin ∧ out.vmax [] = some vmax ∧
      278.15 < s ∧ 40000 ≤ q ∧ Spec.Solved (Spec.columnOf s q p t r (actual.getD n).toNat 0 0.9) a m sat pm t0 otl pmin vmax := by
  obtain ⟨res, hr, rfl⟩ := pi_profile hd h
  obtain ⟨s, q, n, h1, h2, h3, _, _, h4⟩ := profile_column hp hr
  rcases h4 with ⟨_, h4⟩ | ⟨hs, h4⟩
  · rw [h4] at hf
    cases hf
  · cases core_outcome h4 with
    | diverged h =>
      rw [h] at hf
      cases hf
    | failed _ _ _ h _ => 
      change res.flag = 1 at hf
      omega
    | solved a m sat pm hsol l _ =>
      obtain ⟨t1, t2, _, t4⟩ := hsol.fixed _ rfl
      have hq : 400 ≤ q / 100 := strong_sea t1 t2
      have hpm : 0 < res.pmin := by
        rw [t4]
        have : 0 < (Spec.columnOf s q p t r (actual.getD (n : ℤ)).toNat 0 0.9).psl := by
          show 0 < q / 100
          linarith
        positivity
      exact ⟨s, q, n, a, m, sat, pm, res.tout, res.lout, res.pmin, res.vmax, h1, h2, h3, post_of_pos hpm.le, post_of_pos hsol.wind.1, hs, by linarith, hsol⟩

example : ∃ out v, potentialIntensity (num 303) (num 97000) (prof 3 (windy 0 0.9).p) (prof 3 (windy 0 0.9).t) (prof 3 (windy 0 0.9).r) none [] = .ok out ∧
    Spec.SurfaceFirst (prof 3 (windy 0 0.9).p) ∧ out.flag = 1 ∧ out.vmax [] = some v ∧ 0 < v := by
  obtain ⟨out, v, h1, h2, h3, h4⟩ := windy_call
  exact ⟨out, v, h1, not_upside (by norm_num) (by show (50 : ℝ) ≤ 971; norm_num), h2, h3, h4⟩

/-! ### Failures -/

/-- C193, full statement: a profile call without success (flag other than 1) returns NaN. False: dry air at the lowest level gives flag 0 and "minimum pressure =
sea level pressure, wind = 0". -/
theorem C193_failed_false : ¬ ∀ (sst psl p t r : NDArr (Option ℝ)) (actual : Option ℤ) (order : List (List ℕ)) (out : Intensity), t.shape.length = 1 →
    potentialIntensity sst psl p t r actual order = .ok out → out.flag ≠ 1 → out.pmin [] = none ∧ out.vmax [] = none := by
  intro H
  have hc := core_dry (c := ⟨1, fun _ => 300, fun _ => 1000, fun _ => 0, 303, 101000 * 0.01, 0, 0.9⟩) (by norm_num) (fun _ _ _ => by norm_num) (Or.inl (by norm_num))
  have := call_of (q := 101000) (by norm_num) le_rfl (by norm_num) rfl rfl rfl hc []
  have h2 := (H _ _ _ _ _ _ _ _ rfl this (by show (0 : ℕ) ≠ 1; norm_num)).2
  change post 0 = none at h2
  rw [post_of_pos le_rfl] at h2
  cases h2

/-- C193, what holds: the flag of a profile is 0, 1 or 2; without success the call returns either NaN for both or the sea level pressure and no wind, and with
flag 0 over warm water always the latter. -/
theorem C193_failed_partial {sst psl p t r : NDArr (Option ℝ)} {actual : Option ℤ} {order : List (List ℕ)} {out : Intensity} (hd : t.shape.length = 1)
    (h : potentialIntensity sst psl p t r actual order = .ok out) {s q : ℝ} (hs : scalar sst = .ok s) (hq : scalar psl = .ok q) (hpos : 0 ≤ q) :
    (out.flag = 0 ∨ out.flag = 1 ∨ out.flag = 2) ∧
    (out.flag ≠ 1 → (out.pmin [] = none ∧ out.vmax [] = none) ∨ (out.pmin [] = some (q / 100) ∧ out.vmax [] = some 0)) ∧
    (out.flag = 0 → 278.15 < s → out.pmin [] = some (q / 100) ∧ out.vmax [] = some 0) := by
  obtain ⟨res, hr, rfl⟩ := pi_profile hd h
  obtain ⟨s', q', h1, h2, h3⟩ := profile_inv hr
  rw [hs] at h1
  rw [hq] at h2
  cases h1
  cases h2
  rcases h3 with ⟨a, h3⟩ | ⟨a, c, h3, h4, _⟩
  · rw [h3]
    exact ⟨Or.inl rfl, fun _ => Or.inl ⟨post_undef, post_undef⟩, fun _ b => by linarith⟩
  · cases core_outcome h3 with
    | diverged h =>
      rw [h]
      exact ⟨Or.inr (Or.inr rfl), fun _ => Or.inl ⟨post_undef, post_undef⟩, fun h => by cases h⟩
    | failed g1 g2 _ g3 _ =>
      have e : post res.pmin = some (q / 100) := by
        rw [g1, h4, post_of_pos (by positivity)]
        congr 1
        norm_num
        ring
      have e' : post res.vmax = some 0 := by rw [g2, post_of_pos le_rfl]
      exact ⟨by show res.flag = 0 ∨ res.flag = 1 ∨ res.flag = 2; omega, fun _ => Or.inr ⟨e, e'⟩, fun _ _ => ⟨e, e'⟩⟩
    | solved _ _ _ _ _ _ hf => exact ⟨Or.inr (Or.inl hf), fun g => absurd hf g, fun g => by change res.flag = 0 at g; omega⟩

/-- Flag 2 with the sea level pressure and no wind: saturated air under a level whose temperature is not positive. -/
theorem broken_call : potentialIntensity (num 303) (num 101000) (prof 3 fun k => if k = 1 then 1000 else if k = 2 then 500 else 50)
    (prof 3 fun k => if k = 1 then 300 else -1) (prof 3 fun _ => 0.03) none [] = .ok ⟨[], fun _ => post (101000 * 0.01), fun _ => post 0, 2⟩ := by
  refine call_of (c := ⟨3, fun k => if k = 1 then 300 else -1, fun k => if k = 1 then 1000 else if k = 2 then 500 else 50, fun _ => 0.03, 303, 101000 * 0.01, 0, 0.9⟩)
    (q := 101000) (by norm_num) (by norm_num) (by norm_num) rfl rfl rfl (core_broken ?_ ?_ rfl rfl rfl ?_ ?_) []
  · show 2 ≤ max 1 (nearest (fun k => if k = 1 then (1000 : ℝ) else if k = 2 then 500 else 50) 3 - 1)
    have : nearest (fun k => if k = 1 then (1000 : ℝ) else if k = 2 then 500 else 50) 3 = 3 := by
      rw [nearest, nearest, nearest]
      norm_num
    rw [this]
    norm_num
  · intro i _ _
    show (0 : ℝ) < if i = 1 then 1000 else if i = 2 then 500 else 50
    split_ifs <;> norm_num
  · norm_num
  · norm_num

end Skyborn.Gpi
