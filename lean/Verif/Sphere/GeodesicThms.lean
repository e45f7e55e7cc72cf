/-
Properties of `getgeodesicpts` (model: Sphere/Geodesic): size, range, the mesh, distinct points, symmetry.
-/
import Verif.Sphere.GeodesicProps

namespace Skyborn.Sphere.Geodesic

open Spec (Corner Face dot project Mesh point)

/-! ## Directions -/

private theorem norm_mk (a b : ℝ) : ‖(⟨a, b⟩ : ℂ)‖ = Real.sqrt (a * a + b * b) := by rw [Complex.norm_def, Complex.normSq_mk]

private theorem cos_atan2 {y x : ℝ} (h : 0 < x * x + y * y) : Real.cos (atan2 y x) = x / Real.sqrt (x * x + y * y) := by
  unfold atan2
  rw [Complex.cos_arg, norm_mk]
  intro h'
  rw [Complex.ext_iff] at h'
  simp only [Complex.zero_re, Complex.zero_im] at h'
  rw [h'.1, h'.2] at h; simp at h

private theorem sin_atan2 (y x : ℝ) : Real.sin (atan2 y x) = y / Real.sqrt (x * x + y * y) := by
  unfold atan2
  rw [Complex.sin_arg, norm_mk]

private theorem polar {p : P3} (h : 0 < p.1 * p.1 + p.2.1 * p.2.1) :
    stoc 1 (atan2 (Real.sqrt (p.1 * p.1 + p.2.1 * p.2.1)) p.2.2) (atan2 p.2.1 p.1) = project p := by
  have h1 : 0 < Real.sqrt (p.1 * p.1 + p.2.1 * p.2.1) := Real.sqrt_pos.2 h
  have h2 := Real.mul_self_sqrt h.le
  have e : p.2.2 * p.2.2 + Real.sqrt (p.1 * p.1 + p.2.1 * p.2.1) * Real.sqrt (p.1 * p.1 + p.2.1 * p.2.1) = dot p p := by
    rw [h2]; unfold dot; ring
  have h3 : 0 < dot p p := by unfold dot; nlinarith [mul_self_nonneg p.2.2]
  have h4 := Real.sqrt_pos.2 h3
  unfold stoc project
  rw [sin_atan2, sin_atan2, cos_atan2 h, cos_atan2 (by rw [e]; exact h3), e]
  generalize Real.sqrt (p.1 * p.1 + p.2.1 * p.2.1) = s at *
  generalize Real.sqrt (dot p p) = ρ at *
  ext
  · simp only [Prod.smul_fst, smul_eq_mul]; field_simp
  · simp only [Prod.smul_snd, Prod.smul_fst, smul_eq_mul]; field_simp
  · simp only [Prod.smul_snd, smul_eq_mul]; field_simp

private theorem lonlat_point {p : P3} (h : 0 < p.1 * p.1 + p.2.1 * p.2.1) : point (lonlat p).1 (lonlat p).2 = -project p := by
  have hx : p.1 ≠ 0 ∨ p.2.1 ≠ 0 := by
    by_contra hn
    push Not at hn
    rw [hn.1, hn.2] at h; simp at h
  have hr : Real.sqrt (p.1 * p.1 + p.2.1 * p.2.1) ≠ 0 := (Real.sqrt_pos.2 h).ne'
  have hpi := Real.pi_ne_zero
  rw [← polar h]
  unfold lonlat point stoc
  simp only [if_pos hx, if_pos (Or.inl hr : _ ∨ p.2.2 ≠ 0)]
  generalize atan2 (Real.sqrt (p.1 * p.1 + p.2.1 * p.2.1)) p.2.2 = θ
  generalize atan2 p.2.1 p.1 = φ
  rw [show (180 / Real.pi * θ - 90) * (Real.pi / 180) = θ - Real.pi / 2 by field_simp; ring,
    show (180 / Real.pi * φ + 180) * (Real.pi / 180) = φ + Real.pi by field_simp, Real.cos_sub_pi_div_two, Real.sin_sub_pi_div_two,
    Real.cos_add_pi, Real.sin_add_pi]
  ext <;> simp

private theorem project_smul {p : P3} {t : ℝ} (ht : 0 < t) : project (t • p) = project p := by
  unfold project
  rw [dot_smul, smul_dot, show t * (t * dot p p) = t ^ 2 * dot p p by ring, Real.sqrt_mul (by positivity), Real.sqrt_sq ht.le, smul_smul]
  congr 1
  rw [mul_inv]
  field_simp

private theorem project_neg (p : P3) : project (-p) = -project p := by
  unfold project
  rw [show dot (-p) (-p) = dot p p by unfold dot; simp, smul_neg]

private theorem project_unit {p : P3} (h : 0 < dot p p) : dot (project p) (project p) = 1 := by
  unfold project
  rw [dot_smul, smul_dot]
  have := Real.mul_self_sqrt h.le
  have := Real.sqrt_pos.2 h
  field_simp
  nlinarith

private theorem project_project {p : P3} (h : 0 < dot p p) : project (project p) = project p := by
  change (Real.sqrt (dot (project p) (project p)))⁻¹ • project p = project p
  rw [project_unit h]; simp

private theorem project_inj {p q : P3} (hp : 0 < dot p p) (hq : 0 < dot q q) (h : project p = project q) : ∃ t : ℝ, 0 < t ∧ p = t • q := by
  have h1 := Real.sqrt_pos.2 hp
  have h2 := Real.sqrt_pos.2 hq
  refine ⟨Real.sqrt (dot p p) * (Real.sqrt (dot q q))⁻¹, by positivity, ?_⟩
  unfold project at h
  rw [mul_smul, ← h, smul_smul, mul_inv_cancel₀ h1.ne', one_smul]

/-! ## Distance from the axis -/

private theorem hor_nonneg {A B : Corner} (h : dot A.at B.at = g) : 0 ≤ A.at.1 * B.at.1 + A.at.2.1 * B.at.2.1 := by
  rcases A with _ | _ | e
  · simp [Spec.Corner.at]
  · simp [Spec.Corner.at]
  rcases B with _ | _ | f
  · simp [Spec.Corner.at]
  · simp [Spec.Corner.at]
  have hz : (Corner.ring e).at.2.2 * (Corner.ring f).at.2.2 ≤ 1 / 5 := by
    unfold Spec.Corner.at
    dsimp only
    rw [div_mul_div_comm, s5]
    split_ifs <;> norm_num
  have hg : 1 / 5 ≤ g := by unfold g; linarith [s5_gt]
  unfold dot at h
  linarith

private theorem hor_self (e : Fin 10) : (Corner.ring e).at.1 * (Corner.ring e).at.1 + (Corner.ring e).at.2.1 * (Corner.ring e).at.2.1 = 4 / 5 := by
  have := Real.sin_sq_add_cos_sq (Real.pi * e.val / 5)
  have h4 : (2 / Real.sqrt 5) * (2 / Real.sqrt 5) = 4 / 5 := by rw [div_mul_div_comm, s5]; norm_num
  unfold Spec.Corner.at
  dsimp only
  linear_combination (2 / Real.sqrt 5) * (2 / Real.sqrt 5) * this + h4

private theorem hor_comb {e : Fin 10} {B C : Corner} (h : Face (.ring e) B C) (a b c : ℕ) (ha : 1 ≤ a) :
    4 / 5 ≤ (comb (.ring e) B C a b c).1 * (comb (.ring e) B C a b c).1 + (comb (.ring e) B C a b c).2.1 * (comb (.ring e) B C a b c).2.1 := by
  obtain ⟨h1, h2, h3⟩ := face_dot h
  have p1 := hor_nonneg h1
  have p2 := hor_nonneg h2
  have p3 := hor_nonneg h3
  have p0 := hor_self e
  unfold comb
  simp only [Prod.fst_add, Prod.snd_add, Prod.smul_fst, Prod.smul_snd, smul_eq_mul]
  have ha' : (1 : ℝ) ≤ a := by exact_mod_cast ha
  have hb' : (0 : ℝ) ≤ b := by positivity
  have hc' : (0 : ℝ) ≤ c := by positivity
  have q1 := mul_nonneg (mul_nonneg (by positivity : (0 : ℝ) ≤ a) hb') p1
  have q2 := mul_nonneg (mul_nonneg (by positivity : (0 : ℝ) ≤ a) hc') p2
  have q3 := mul_nonneg (mul_nonneg hb' hc') p3
  generalize (Corner.ring e).at = A at *
  have q4 : 4 / 5 ≤ (a : ℝ) * a * (A.1 * A.1 + A.2.1 * A.2.1) := by rw [p0]; nlinarith
  have q5 := mul_self_nonneg ((b : ℝ) * B.at.1)
  have q6 := mul_self_nonneg ((b : ℝ) * B.at.2.1)
  have q7 := mul_self_nonneg ((c : ℝ) * C.at.1)
  have q8 := mul_self_nonneg ((c : ℝ) * C.at.2.1)
  nlinarith

/-! ## The points by index -/

private theorem R_one (N : ℕ) : R (N + 1) = .ring (⟨N % 10, by omega⟩ + 1) := by
  unfold R; congr 1; ext; rw [Fin.val_add, show ((1 : Fin 10)).val = 1 from rfl]; dsimp only; omega

private theorem R_two (N : ℕ) : R (N + 2) = .ring (⟨N % 10, by omega⟩ + 2) := by
  unfold R; congr 1; ext; rw [Fin.val_add, show ((2 : Fin 10)).val = 2 from rfl]; dsimp only; omega

private theorem face_of (n k J I : ℕ) : Face (R (num n k J)) (mid n k J I) (R (num n k J + 2)) := by
  unfold num mid
  have cap : ∀ N, Face (R N) (if N % 2 = 1 then .north else .south) (R (N + 2)) := by
    intro N
    have := Face.cap ⟨N % 10, by omega⟩
    rw [← R_two] at this
    rw [show (if N % 2 = 1 then Corner.north else Corner.south) = if (⟨N % 10, by omega⟩ : Fin 10).val % 2 = 1 then Corner.north else Corner.south by
      dsimp only; rw [show N % 10 % 2 = N % 2 by omega]]
    exact this
  have belt : ∀ N, Face (R N) (R (N + 1)) (R (N + 2)) := by
    intro N; rw [R_one, R_two]; exact Face.belt _
  split_ifs
  · have := cap (2 * k); rw [if_neg (by omega)] at this; exact this
  · exact belt _
  · exact belt _
  · have := cap (2 * k + 1); rw [if_pos (by omega)] at this; exact this

private theorem pt_comb (n k J I : ℕ) : pt n k J I = comb (R (num n k J)) (mid n k J I) (R (num n k J + 2)) (n - max (row n J) I)
    (max (row n J) I - min (row n J) I) (min (row n J) I) := rfl

private theorem row_lt {n J : ℕ} (h : J < 2 * n) : row n J < n := by unfold row; split_ifs <;> omega

private theorem hor_pt {n k J I : ℕ} (hJ : J < 2 * n) (hI : I < n) :
    4 / 5 ≤ (pt n k J I).1 * (pt n k J I).1 + (pt n k J I).2.1 * (pt n k J I).2.1 := by
  rw [pt_comb]
  have := row_lt hJ
  exact hor_comb (e := ⟨num n k J % 10, by omega⟩) (face_of n k J I) _ _ _ (by omega)

private theorem dot_pos {p : P3} (h : 4 / 5 ≤ p.1 * p.1 + p.2.1 * p.2.1) : 0 < dot p p := by
  unfold dot; nlinarith [mul_self_nonneg p.2.2]

private theorem entry {n k J I : ℕ} (w : ℕ → ℕ → ℕ → P3) (hn : 1 ≤ n) (hn' : n < 8000000) (hk : k < 5) (hJ : J < 2 * n) (hI : I < n) :
    ihgeod (n + 1) w (J + 1) (I + 1) (k + 1) = project (pt n k J I) := by
  unfold ihgeod
  dsimp only
  rw [if_pos (show 1 ≤ k + 1 ∧ k + 1 ≤ 5 by omega), if_pos (by omega), flat_pt n k J I _ hn hJ hI]
  have h := hor_pt (k := k) hJ hI
  have hn0 : (0 : ℝ) < n := by exact_mod_cast hn
  have hn1 : (n : ℝ) ≤ 8000000 := by exact_mod_cast hn'.le
  have h' : ¬ ((n : ℝ)⁻¹ • pt n k J I).1 * ((n : ℝ)⁻¹ • pt n k J I).1 + ((n : ℝ)⁻¹ • pt n k J I).2.1 * ((n : ℝ)⁻¹ • pt n k J I).2.1 < 1 / 10 ^ 14 := by
    rw [not_lt]
    simp only [Prod.smul_fst, Prod.smul_snd, smul_eq_mul]
    have e : (n : ℝ)⁻¹ * (pt n k J I).1 * ((n : ℝ)⁻¹ * (pt n k J I).1) + (n : ℝ)⁻¹ * (pt n k J I).2.1 * ((n : ℝ)⁻¹ * (pt n k J I).2.1)
        = ((pt n k J I).1 * (pt n k J I).1 + (pt n k J I).2.1 * (pt n k J I).2.1) / n ^ 2 := by field_simp
    rw [e, le_div_iff₀ (by positivity)]
    nlinarith
  rw [← project_smul (p := pt n k J I) (inv_pos.2 hn0), ← polar (lt_of_lt_of_le (by positivity) (not_lt.1 h'))]
  unfold ctos
  dsimp only
  rw [if_neg h']

private theorem entry_point {n k J I : ℕ} (w : ℕ → ℕ → ℕ → P3) (hn : 1 ≤ n) (hn' : n < 8000000) (hk : k < 5) (hJ : J < 2 * n) (hI : I < n) :
    point (lonlat (ihgeod (n + 1) w (J + 1) (I + 1) (k + 1))).1 (lonlat (ihgeod (n + 1) w (J + 1) (I + 1) (k + 1))).2 = -project (pt n k J I) := by
  rw [entry w hn hn' hk hJ hI]
  have h := hor_pt (k := k) hJ hI
  have hd := dot_pos h
  rw [lonlat_point, project_project hd]
  unfold project
  simp only [Prod.smul_fst, Prod.smul_snd, smul_eq_mul]
  have := inv_pos.2 (Real.sqrt_pos.2 hd)
  generalize (Real.sqrt (dot (pt n k J I) (pt n k J I)))⁻¹ = t at *
  have : 0 < t * t * ((pt n k J I).1 * (pt n k J I).1 + (pt n k J I).2.1 * (pt n k J I).2.1) := mul_pos (by positivity) (by linarith)
  nlinarith

/-! ## What is returned -/

private theorem unfold_pts (m : ℤ) (w : ℕ → ℕ → ℕ → P3) (h : 2 ≤ m) : getgeodesicpts m w =
    some ([90, -90] ++ ((List.range (2 * (m.toNat - 1) * (m.toNat - 1) * 5)).map fun q =>
        lonlat (ihgeod m.toNat w (q / 5 / (m.toNat - 1) + 1) (q / 5 % (m.toNat - 1) + 1) (q % 5 + 1))).map Prod.fst,
      [0, 0] ++ ((List.range (2 * (m.toNat - 1) * (m.toNat - 1) * 5)).map fun q =>
        lonlat (ihgeod m.toNat w (q / 5 / (m.toNat - 1) + 1) (q / 5 % (m.toNat - 1) + 1) (q % 5 + 1))).map Prod.snd) := by
  unfold getgeodesicpts
  rw [if_neg (by omega)]
  dsimp only
  rw [if_neg]
  rw [not_not, List.length_map, List.length_range]
  have : 2 * (m.toNat - 1) * (m.toNat - 1) * 5 = 10 * (m.toNat - 1) ^ 2 := by ring
  omega

/-- C317: `m < 2` is refused; for every other `m` there are `10 (m-1)^2 + 2` latitudes and longitudes, the first two those of the poles. -/
theorem C317_sizes (m : ℤ) (w : ℕ → ℕ → ℕ → P3) : (getgeodesicpts m w = none ↔ m < 2) ∧
    ∀ lat lon : List ℝ, getgeodesicpts m w = some (lat, lon) → (lat.length : ℤ) = 10 * (m - 1) ^ 2 + 2 ∧ (lon.length : ℤ) = 10 * (m - 1) ^ 2 + 2 ∧
      lat[0]? = some (90 : ℝ) ∧ lat[1]? = some (-90 : ℝ) ∧ lon[0]? = some (0 : ℝ) ∧ lon[1]? = some (0 : ℝ) := by
  constructor
  · constructor
    · intro h
      by_contra hn
      rw [unfold_pts m w (by omega)] at h
      cases h
    · intro h; unfold getgeodesicpts; rw [if_pos h]
  · intro lat lon h
    have hm : 2 ≤ m := by
      by_contra hn
      unfold getgeodesicpts at h
      rw [if_pos (by omega)] at h; cases h
    rw [unfold_pts m w hm] at h
    cases h
    have e : ((2 * (m.toNat - 1) * (m.toNat - 1) * 5 : ℕ) : ℤ) = 10 * (m - 1) ^ 2 := by
      push_cast [Nat.cast_sub (show 1 ≤ m.toNat by omega)]
      rw [show ((m.toNat : ℕ) : ℤ) = m by omega]; ring
    refine ⟨?_, ?_, rfl, rfl, rfl, rfl⟩
    · rw [List.length_append, List.length_map, List.length_map, List.length_range, Nat.cast_add, e]; simp; ring
    · rw [List.length_append, List.length_map, List.length_map, List.length_range, Nat.cast_add, e]; simp; ring

private theorem atan2_range (y x : ℝ) : -Real.pi < atan2 y x ∧ atan2 y x ≤ Real.pi := ⟨Complex.neg_pi_lt_arg _, Complex.arg_le_pi _⟩

private theorem lonlat_range (p : P3) : (-90 ≤ (lonlat p).1 ∧ (lonlat p).1 ≤ 90) ∧ 0 ≤ (lonlat p).2 ∧ (lonlat p).2 ≤ 360 := by
  have hpi := Real.pi_pos
  have e180 : 180 / Real.pi * Real.pi = 180 := by field_simp
  have hq : 0 < 180 / Real.pi := by positivity
  have k1 : ∀ y x : ℝ, 0 ≤ y → 0 ≤ 180 / Real.pi * atan2 y x := fun y x hy => mul_nonneg hq.le (Complex.arg_nonneg_iff.2 hy)
  have k2 : ∀ y x : ℝ, 180 / Real.pi * atan2 y x ≤ 180 := fun y x => by
    have := mul_le_mul_of_nonneg_left (atan2_range y x).2 hq.le
    rwa [e180] at this
  have k3 : ∀ y x : ℝ, -180 ≤ 180 / Real.pi * atan2 y x := fun y x => by
    have := mul_le_mul_of_nonneg_left (atan2_range y x).1.le hq.le
    rwa [mul_neg, e180] at this
  unfold lonlat
  dsimp only
  refine ⟨⟨?_, ?_⟩, ?_, ?_⟩
  · have := k1 _ (if Real.sqrt (p.1 * p.1 + p.2.1 * p.2.1) ≠ 0 ∨ p.2.2 ≠ 0 then p.2.2 else 1) (Real.sqrt_nonneg (p.1 * p.1 + p.2.1 * p.2.1))
    linarith
  · have := k2 (Real.sqrt (p.1 * p.1 + p.2.1 * p.2.1)) (if Real.sqrt (p.1 * p.1 + p.2.1 * p.2.1) ≠ 0 ∨ p.2.2 ≠ 0 then p.2.2 else 1)
    linarith
  · have := k3 p.2.1 (if p.1 ≠ 0 ∨ p.2.1 ≠ 0 then p.1 else 1)
    linarith
  · have := k2 p.2.1 (if p.1 ≠ 0 ∨ p.2.1 ≠ 0 then p.1 else 1)
    linarith

/-- C318: all latitudes are from -90 to 90 and all longitudes from 0 to 360. -/
theorem C318_ranges (m : ℤ) (w : ℕ → ℕ → ℕ → P3) (lat lon : List ℝ) (h : getgeodesicpts m w = some (lat, lon)) :
    (∀ x ∈ lat, -90 ≤ x ∧ x ≤ 90) ∧ ∀ x ∈ lon, 0 ≤ x ∧ x ≤ 360 := by
  have hm : 2 ≤ m := by
    by_contra hn
    rw [((C317_sizes m w).1).2 (by omega)] at h; cases h
  rw [unfold_pts m w hm] at h
  cases h
  constructor
  · intro x hx
    rw [List.mem_append] at hx
    rcases hx with hx | hx
    · simp at hx; rcases hx with rfl | rfl <;> norm_num
    · obtain ⟨p, hp, rfl⟩ := List.mem_map.1 hx
      obtain ⟨q, -, rfl⟩ := List.mem_map.1 hp
      exact (lonlat_range _).1
  · intro x hx
    rw [List.mem_append] at hx
    rcases hx with hx | hx
    · simp at hx; subst hx; norm_num
    · obtain ⟨p, hp, rfl⟩ := List.mem_map.1 hx
      obtain ⟨q, -, rfl⟩ := List.mem_map.1 hp
      exact (lonlat_range _).2

private theorem pole_points : point 90 0 = Corner.north.at ∧ point (-90) 0 = Corner.south.at := by
  have e : (90 : ℝ) * (Real.pi / 180) = Real.pi / 2 := by ring
  have e' : (-90 : ℝ) * (Real.pi / 180) = -(Real.pi / 2) := by ring
  unfold point Spec.Corner.at
  rw [e, e']
  constructor <;> simp

/-- The points in the order in which they are returned. -/
private theorem by_index {m : ℕ} {w : ℕ → ℕ → ℕ → P3} {lat lon : List ℝ} (hm : m ≤ 8000000) (h : getgeodesicpts m w = some (lat, lon)) :
    ∃ n, m = n + 1 ∧ 1 ≤ n ∧ lat.length = 2 * n * n * 5 + 2 ∧ point (lat.getD 0 0) (lon.getD 0 0) = Corner.north.at ∧
      point (lat.getD 1 0) (lon.getD 1 0) = Corner.south.at ∧
      ∀ q < 2 * n * n * 5, point (lat.getD (q + 2) 0) (lon.getD (q + 2) 0) = -project (pt n (q % 5) (q / 5 / n) (q / 5 % n)) ∧
        q / 5 / n < 2 * n ∧ q / 5 % n < n := by
  have h2 : (2 : ℤ) ≤ m := by
    by_contra hn
    rw [((C317_sizes m w).1).2 (by omega)] at h; cases h
  rw [unfold_pts m w h2, Int.toNat_natCast] at h
  obtain ⟨n, rfl⟩ : ∃ n, m = n + 1 := ⟨m - 1, by omega⟩
  rw [Nat.add_sub_cancel] at h
  cases h
  refine ⟨n, rfl, by omega, by simp, pole_points.1, pole_points.2, fun q hq => ?_⟩
  have h3 : q / 5 / n < 2 * n := by
    rw [Nat.div_div_eq_div_mul]
    exact Nat.div_lt_of_lt_mul (by linarith)
  have h4 : q / 5 % n < n := Nat.mod_lt _ (by omega)
  refine ⟨?_, h3, h4⟩
  rw [← entry_point w (by omega) (by omega) (show q % 5 < 5 by omega) h3 h4]
  congr 1
  · simp [List.getD_eq_getElem?_getD, List.getElem?_map, List.getElem?_range hq]
  · simp [List.getD_eq_getElem?_getD, List.getElem?_map, List.getElem?_range hq]

/-! ## The mesh -/

/-- The corner on the other side. -/
def anti : Corner → Corner
  | .north => .south
  | .south => .north
  | .ring e => .ring (e + 5)

private theorem anti_at (A : Corner) : (anti A).at = -A.at := by
  cases A with
  | north => unfold anti Spec.Corner.at; simp
  | south => unfold anti Spec.Corner.at; simp
  | ring e =>
    have hv : (e + 5).val = e.val + 5 ∨ (e + 5).val + 5 = e.val := by
      rw [Fin.val_add, show ((5 : Fin 10)).val = 5 from rfl]; omega
    have hpar : (e + 5).val % 2 = 1 ↔ ¬ e.val % 2 = 1 := by omega
    have hc : Real.cos (Real.pi * (e + 5).val / 5) = -Real.cos (Real.pi * e.val / 5) ∧ Real.sin (Real.pi * (e + 5).val / 5) = -Real.sin (Real.pi * e.val / 5) := by
      rcases hv with h | h
      · have : ((e + 5).val : ℝ) = e.val + 5 := by exact_mod_cast h
        rw [this, show Real.pi * (e.val + 5) / 5 = Real.pi * e.val / 5 + Real.pi by ring, Real.cos_add_pi, Real.sin_add_pi]
        exact ⟨rfl, rfl⟩
      · have : ((e + 5).val : ℝ) + 5 = e.val := by exact_mod_cast h
        rw [← this, show Real.pi * ((e + 5).val + 5) / 5 = Real.pi * (e + 5).val / 5 + Real.pi by ring, Real.cos_add_pi, Real.sin_add_pi]
        simp
    unfold anti Spec.Corner.at
    dsimp only
    rw [hc.1, hc.2]
    by_cases h : e.val % 2 = 1
    · rw [if_pos h, if_neg (by omega)]; ext <;> simp; ring
    · rw [if_neg h, if_pos (by omega)]; ext <;> simp; ring

private theorem anti_face {A B C : Corner} (h : Face A B C) : Face (anti A) (anti B) (anti C) := by
  cases h with
  | cap e =>
    have := Face.cap (e + 5)
    have hp : (e + 5).val % 2 = 1 ↔ ¬ e.val % 2 = 1 := by rw [Fin.val_add, show ((5 : Fin 10)).val = 5 from rfl]; omega
    have e1 : anti (if e.val % 2 = 1 then Corner.north else Corner.south) = if (e + 5).val % 2 = 1 then Corner.north else Corner.south := by
      by_cases h : e.val % 2 = 1
      · rw [if_pos h, if_neg (by rw [hp]; exact not_not.2 h)]; rfl
      · rw [if_neg h, if_pos (hp.2 h)]; rfl
    rw [e1]
    unfold anti
    rw [add_right_comm] at this
    exact this
  | belt e =>
    have := Face.belt (e + 5)
    unfold anti
    rw [add_right_comm e 5 1, add_right_comm e 5 2] at this
    exact this

private theorem mesh_neg {n : ℕ} {p : P3} (h : p ∈ Mesh n) : -p ∈ Mesh n := by
  obtain ⟨A, B, C, a, b, c, hF, hs, rfl⟩ := h
  refine ⟨_, _, _, a, b, c, anti_face hF, hs, ?_⟩
  rw [← project_neg, anti_at, anti_at, anti_at]
  congr 1
  module

private theorem mesh_pt {n k J I : ℕ} (hJ : J < 2 * n) (hI : I < n) : project (pt n k J I) ∈ Mesh n := by
  have := row_lt hJ
  exact ⟨_, _, _, _, _, _, face_of n k J I, by omega, rfl⟩

/-- A point whose first weight is not zero. -/
private theorem pt_of {n : ℕ} {A B C : Corner} (h : Face A B C) {a b c : ℕ} (hs : a + b + c = n) (ha : 1 ≤ a) :
    ∃ k J I, k < 5 ∧ J < 2 * n ∧ I < n ∧ pt n k J I = comb A B C a b c := by
  have hR : ∀ e : Fin 10, R e.val = .ring e := fun e => by unfold R; congr 1; ext; exact Nat.mod_eq_of_lt e.isLt
  have fin : ∀ (e : Fin 10) (B : Corner) (J I : ℕ), num n (e.val / 2) J = e.val → mid n (e.val / 2) J I = B →
      max (row n J) I = n - a → min (row n J) I = c → pt n (e.val / 2) J I = comb (.ring e) B (.ring (e + 2)) a b c := by
    intro e B J I h1 h2 h3 h4
    have h5 : R (e.val + 2) = .ring (e + 2) := by
      rw [R_two]; congr 2; ext; exact Nat.mod_eq_of_lt e.isLt
    rw [pt_comb, h1, h2, h3, h4, hR, h5, show n - (n - a) = a by omega, show n - a - c = b by omega]
  cases h with
  | cap e =>
    have := e.isLt
    by_cases hp : e.val % 2 = 1
    · refine ⟨e.val / 2, n + (n - a), c, by omega, by omega, by omega, fin e _ _ _ ?_ ?_ ?_ ?_⟩
      · unfold num; rw [if_neg (by omega)]; omega
      · unfold mid; rw [if_neg (by omega), if_neg (by omega), if_pos hp]
      · unfold row; rw [if_neg (by omega)]; omega
      · unfold row; rw [if_neg (by omega)]; omega
    · refine ⟨e.val / 2, c, n - a, by omega, by omega, by omega, fin e _ _ _ ?_ ?_ ?_ ?_⟩
      · unfold num; rw [if_pos (by omega)]; omega
      · unfold mid; rw [if_pos (by omega), if_pos (by omega), if_neg hp]
      · unfold row; rw [if_pos (by omega)]; omega
      · unfold row; rw [if_pos (by omega)]; omega
  | belt e =>
    have := e.isLt
    rcases Nat.eq_zero_or_pos b with rfl | hb
    · -- the side that the two faces have in common
      have hcap := fun (B : Corner) => (show comb (.ring e) (.ring (e + 1)) (.ring (e + 2)) a 0 c = comb (.ring e) B (.ring (e + 2)) a 0 c by
        unfold comb; simp)
      by_cases hp : e.val % 2 = 1
      · refine ⟨e.val / 2, n + (n - a), c, by omega, by omega, by omega, ?_⟩
        rw [hcap .north]
        refine fin e _ _ _ ?_ ?_ ?_ ?_
        · unfold num; rw [if_neg (by omega)]; omega
        · unfold mid; rw [if_neg (by omega), if_neg (by omega)]
        · unfold row; rw [if_neg (by omega)]; omega
        · unfold row; rw [if_neg (by omega)]; omega
      · refine ⟨e.val / 2, c, n - a, by omega, by omega, by omega, ?_⟩
        rw [hcap .south]
        refine fin e _ _ _ ?_ ?_ ?_ ?_
        · unfold num; rw [if_pos (by omega)]; omega
        · unfold mid; rw [if_pos (by omega), if_pos (by omega)]
        · unfold row; rw [if_pos (by omega)]; omega
        · unfold row; rw [if_pos (by omega)]; omega
    · have hR1 : ∀ N, N = e.val + 1 → R N = .ring (e + 1) := by
        rintro N rfl; rw [R_one]; congr 2; ext; exact Nat.mod_eq_of_lt e.isLt
      by_cases hp : e.val % 2 = 1
      · refine ⟨e.val / 2, n + c, n - a, by omega, by omega, by omega, fin e _ _ _ ?_ ?_ ?_ ?_⟩
        · unfold num; rw [if_neg (by omega)]; omega
        · unfold mid; rw [if_neg (by omega), if_pos (by omega)]; exact hR1 _ (by omega)
        · unfold row; rw [if_neg (by omega)]; omega
        · unfold row; rw [if_neg (by omega)]; omega
      · refine ⟨e.val / 2, n - a, c, by omega, by omega, by omega, fin e _ _ _ ?_ ?_ ?_ ?_⟩
        · unfold num; rw [if_pos (by omega)]; omega
        · unfold mid; rw [if_pos (by omega), if_neg (by omega)]; exact hR1 _ (by omega)
        · unfold row; rw [if_pos (by omega)]; omega
        · unfold row; rw [if_pos (by omega)]; omega

private theorem pole_project {n : ℕ} (hn : 1 ≤ n) (A : Corner) : project ((n : ℝ) • A.at) = A.at := by
  rw [project_smul (by exact_mod_cast hn)]
  unfold project
  rw [corner_self]; simp

/-- Every point of the mesh is a pole or has an index. -/
private theorem mesh_index {n : ℕ} (hn : 1 ≤ n) {p : P3} (h : p ∈ Mesh n) :
    p = Corner.north.at ∨ p = Corner.south.at ∨ ∃ k J I, k < 5 ∧ J < 2 * n ∧ I < n ∧ p = project (pt n k J I) := by
  obtain ⟨A, B, C, a, b, c, hF, hs, rfl⟩ := h
  have use : ∀ {A' B' C' : Corner} (h' : Face A' B' C') {a' b' c' : ℕ} (hs' : a' + b' + c' = n) (ha' : 1 ≤ a')
      (e : comb A B C a b c = comb A' B' C' a' b' c'),
      ∃ k J I, k < 5 ∧ J < 2 * n ∧ I < n ∧ project (comb A B C a b c) = project (pt n k J I) := by
    intro A' B' C' h' a' b' c' hs' ha' e
    obtain ⟨k, J, I, h1, h2, h3, h4⟩ := pt_of h' hs' ha'
    exact ⟨k, J, I, h1, h2, h3, by rw [h4, e]⟩
  change project (comb A B C a b c) = _ ∨ project (comb A B C a b c) = _ ∨ ∃ k J I, _ ∧ _ ∧ _ ∧ project (comb A B C a b c) = _
  rcases Nat.eq_zero_or_pos a with rfl | ha
  swap
  · exact Or.inr (Or.inr (use hF hs ha rfl))
  cases hF with
  | cap e =>
    rcases Nat.eq_zero_or_pos c with rfl | hc
    · obtain rfl : b = n := by omega
      by_cases hp : e.val % 2 = 1
      · left; rw [if_pos hp]; unfold comb; simpa using pole_project hn .north
      · right; left; rw [if_neg hp]; unfold comb; simpa using pole_project hn .south
    · right; right
      refine use (Face.cap (e + 2)) (a' := c) (b' := b) (c' := 0) (by omega) hc ?_
      rw [par_add_two]; unfold comb; simp; abel
  | belt e =>
    right; right
    rcases Nat.eq_zero_or_pos b with rfl | hb
    · refine use (Face.cap (e + 2)) (a' := c) (b' := 0) (c' := 0) (by omega) (by omega) ?_
      unfold comb; simp
    · refine use (Face.belt (e + 1)) (a' := b) (b' := c) (c' := 0) (by omega) hb ?_
      rw [add_assoc e 1 1, show (1 + 1 : Fin 10) = 2 from rfl]; unfold comb; simp

/-- C319: the points returned are those of the geodesic mesh: on each of the 20 faces of the icosahedron with corners at the poles, the points that
divide the sides into `m - 1` parts, projected to the sphere; all of them and no others. -/
theorem C319_mesh (m : ℕ) (hm : m ≤ 8000000) (w : ℕ → ℕ → ℕ → P3) (lat lon : List ℝ) (h : getgeodesicpts m w = some (lat, lon)) :
    {p | ∃ i < lat.length, p = point (lat.getD i 0) (lon.getD i 0)} = Mesh (m - 1) := by
  obtain ⟨n, rfl, hn, hl, hN, hS, hq⟩ := by_index hm h
  rw [Nat.add_sub_cancel, hl]
  have poles : Corner.north.at ∈ Mesh n ∧ Corner.south.at ∈ Mesh n := by
    constructor
    · refine ⟨_, _, _, 0, n, 0, Face.cap 1, by omega, ?_⟩
      have := pole_project hn .north
      simpa using this.symm
    · refine ⟨_, _, _, 0, n, 0, Face.cap 0, by omega, ?_⟩
      have := pole_project hn .south
      simpa using this.symm
  ext p
  constructor
  · rintro ⟨i, hi, rfl⟩
    rcases i with _ | _ | q
    · rw [hN]; exact poles.1
    · rw [hS]; exact poles.2
    · obtain ⟨e, h1, h2⟩ := hq q (by omega)
      rw [e]
      exact mesh_neg (mesh_pt h1 h2)
  · intro hp
    rcases mesh_index hn (mesh_neg hp) with e | e | ⟨k, J, I, hk, hJ, hI, e⟩
    · refine ⟨1, by omega, ?_⟩
      rw [hS, ← neg_neg p, e]; unfold Spec.Corner.at; simp
    · refine ⟨0, by omega, ?_⟩
      rw [hN, ← neg_neg p, e]; unfold Spec.Corner.at; simp
    · have hlt : (J * n + I) * 5 + k < 2 * n * n * 5 := by
        have : (J + 1) * n ≤ 2 * n * n := Nat.mul_le_mul_right n hJ
        nlinarith
      have e1 : ((J * n + I) * 5 + k) / 5 = J * n + I := by omega
      refine ⟨(J * n + I) * 5 + k + 2, by omega, ?_⟩
      obtain ⟨e', -⟩ := hq _ hlt
      rw [e', e1, show ((J * n + I) * 5 + k) % 5 = k by omega, mul_comm J n, Nat.mul_add_div (by omega), Nat.mul_add_mod, Nat.div_eq_of_lt hI,
        Nat.mod_eq_of_lt hI, add_zero, ← e, neg_neg]

/-! ## No point twice -/

private theorem index_unique {n k J I k' J' I' : ℕ} (hk : k < 5) (hJ : J < 2 * n) (hI : I < n) (hk' : k' < 5) (hJ' : J' < 2 * n) (hI' : I' < n)
    (h : project (pt n k J I) = project (pt n k' J' I')) : k = k' ∧ J = J' ∧ I = I' := by
  obtain ⟨t, ht, e⟩ := project_inj (dot_pos (hor_pt hJ hI)) (dot_pos (hor_pt hJ' hI')) h
  have hr := row_lt hJ
  have hr' := row_lt hJ'
  rw [pt_comb, pt_comb] at e
  have hw := comb_unique (face_of n k J I) (face_of n k' J' I') (by omega) (by omega) ht e
  clear e h ht t
  have hnum : num n k J < 10 := by unfold num; split_ifs <;> omega
  have hnum' : num n k' J' < 10 := by unfold num; split_ifs <;> omega
  have hRi : ∀ N N', R N = R N' ↔ N % 10 = N' % 10 := by
    intro N N'; unfold R; simp
  have hmid : ∀ k J I N, R N = mid n k J I → N % 10 = (num n k J + 1) % 10 := by
    intro k J I N hN
    unfold mid at hN
    unfold num
    split_ifs at hN ⊢
    · cases hN
    · exact (hRi _ _).1 hN
    · exact (hRi _ _).1 hN
    · cases hN
  -- the first corner
  have first : ∀ {k J I k' J' I' : ℕ}, (∀ V, wt (R (num n k J)) (mid n k J I) (R (num n k J + 2)) (n - max (row n J) I)
      (max (row n J) I - min (row n J) I) (min (row n J) I) V = wt (R (num n k' J')) (mid n k' J' I') (R (num n k' J' + 2)) (n - max (row n J') I')
      (max (row n J') I' - min (row n J') I') (min (row n J') I') V) → row n J' < n → I' < n →
      num n k' J' % 10 = num n k J % 10 ∨ num n k' J' % 10 = (num n k J + 1) % 10 ∨ num n k' J' % 10 = (num n k J + 2) % 10 := by
    intro k J I k' J' I' hw h1 h2
    by_contra hn
    push Not at hn
    have := hw (R (num n k' J'))
    unfold wt at this
    rw [if_neg (fun h => hn.1 ((hRi _ _).1 h)), if_neg (fun h => hn.2.1 (hmid _ _ _ _ h)), if_neg (fun h => hn.2.2 ((hRi _ _).1 h)), if_pos rfl] at this
    omega
  have a1 := first hw hr' hI'
  have a2 := first (fun V => (hw V).symm) hr hI
  have hnn : num n k J = num n k' J' := by omega
  clear a1 a2 first
  have hkk : k = k' ∧ (J < n ↔ J' < n) := by
    unfold num at hnn
    split_ifs at hnn with h1 h2 h2 <;> omega
  obtain ⟨rfl, hJJ⟩ := hkk
  -- the weights
  have wA := hw (R (num n k J))
  have wC := hw (R (num n k J + 2))
  unfold wt at wA wC
  have hAC : R (num n k J) ≠ R (num n k J + 2) := fun h => by have := (hRi _ _).1 h; omega
  have hAm : R (num n k J) ≠ mid n k J I := fun h => by have := hmid _ _ _ _ h; omega
  have hAm' : R (num n k J) ≠ mid n k J' I' := fun h => by have := hmid _ _ _ _ h; omega
  have hCm : R (num n k J + 2) ≠ mid n k J I := fun h => by have := hmid _ _ _ _ h; omega
  have hCm' : R (num n k J + 2) ≠ mid n k J' I' := fun h => by have := hmid _ _ _ _ h; omega
  rw [← hnn] at wA wC
  simp only [if_true, if_neg hAC, if_neg hAC.symm, if_neg hAm, if_neg hAm', if_neg hCm, if_neg hCm'] at wA wC
  have wB := hw (mid n k J I)
  unfold wt at wB
  rw [← hnn, if_pos rfl] at wB
  have hmA : mid n k J I ≠ R (num n k J) := fun h => by have := hmid _ _ _ _ h.symm; omega
  have hmC : mid n k J I ≠ R (num n k J + 2) := fun h => by have := hmid _ _ _ _ h.symm; omega
  rw [if_neg hmA, if_neg hmC, if_neg hmA, if_neg hmC] at wB
  refine ⟨rfl, ?_⟩
  have hmm : mid n k J I ≠ mid n k J' I' → max (row n J) I = min (row n J) I := by
    intro h; rw [if_neg h] at wB; omega
  have hside : mid n k J I = mid n k J' I' → ((J < n ∧ (J ≤ I ↔ J' ≤ I')) ∨ (¬ J < n ∧ (J - n < I ↔ J' - n < I'))) := by
    intro h
    unfold mid at h
    by_cases h1 : J < n
    · rw [if_pos h1, if_pos (hJJ.1 h1)] at h
      left; refine ⟨h1, ?_⟩
      by_cases h2 : J ≤ I <;> by_cases h3 : J' ≤ I' <;> simp only [h2, h3, if_true, if_false] at h ⊢
      · cases h
      · cases h
    · rw [if_neg h1, if_neg (fun h' => h1 (hJJ.2 h'))] at h
      right; refine ⟨h1, ?_⟩
      by_cases h2 : J - n < I <;> by_cases h3 : J' - n < I' <;> simp only [h2, h3, if_true, if_false] at h ⊢
      · cases h
      · cases h
  unfold row at *
  by_cases hm : mid n k J I = mid n k J' I'
  · rcases hside hm with ⟨h1, h2⟩ | ⟨h1, h2⟩
    · simp only [if_pos h1, if_pos (hJJ.1 h1)] at *
      omega
    · have h1' : ¬ J' < n := fun h' => h1 (hJJ.2 h')
      simp only [if_neg h1, if_neg h1'] at *
      omega
  · have := hmm hm
    by_cases h1 : J < n
    · have h1' := hJJ.1 h1
      simp only [if_pos h1, if_pos h1'] at *
      omega
    · have h1' : ¬ J' < n := fun h' => h1 (hJJ.2 h')
      simp only [if_neg h1, if_neg h1'] at *
      omega

/-- C320: no point is returned twice. -/
theorem C320_distinct (m : ℕ) (hm : m ≤ 8000000) (w : ℕ → ℕ → ℕ → P3) (lat lon : List ℝ) (h : getgeodesicpts m w = some (lat, lon))
    (i j : ℕ) (hi : i < lat.length) (hj : j < lat.length) (e : point (lat.getD i 0) (lon.getD i 0) = point (lat.getD j 0) (lon.getD j 0)) : i = j := by
  obtain ⟨n, rfl, hn, hl, hN, hS, hq⟩ := by_index hm h
  have hax : ∀ q < 2 * n * n * 5, ∀ z, point (lat.getD (q + 2) 0) (lon.getD (q + 2) 0) ≠ (0, 0, z) := by
    intro q hq' z h'
    obtain ⟨e1, h1, h2⟩ := hq q hq'
    have hh := hor_pt (k := q % 5) h1 h2
    have hd := inv_pos.2 (Real.sqrt_pos.2 (dot_pos hh))
    rw [h'] at e1
    unfold project at e1
    rw [Prod.ext_iff, Prod.ext_iff] at e1
    simp only [Prod.fst_neg, Prod.snd_neg, Prod.smul_fst, Prod.smul_snd, smul_eq_mul] at e1
    generalize (Real.sqrt (dot (pt n (q % 5) (q / 5 / n) (q / 5 % n)) (pt n (q % 5) (q / 5 / n) (q / 5 % n))))⁻¹ = t at *
    have x0 : (pt n (q % 5) (q / 5 / n) (q / 5 % n)).1 = 0 := by
      have := e1.1
      rcases mul_eq_zero.1 (neg_eq_zero.1 this.symm) with h | h
      · exact absurd h hd.ne'
      · exact h
    have y0 : (pt n (q % 5) (q / 5 / n) (q / 5 % n)).2.1 = 0 := by
      have := e1.2.1
      rcases mul_eq_zero.1 (neg_eq_zero.1 this.symm) with h | h
      · exact absurd h hd.ne'
      · exact h
    rw [x0, y0] at hh
    norm_num at hh
  have hns : Corner.north.at ≠ Corner.south.at := by
    unfold Spec.Corner.at
    intro h'
    rw [Prod.ext_iff, Prod.ext_iff] at h'
    norm_num at h'
  rcases i with _ | _ | i <;> rcases j with _ | _ | j
  · rfl
  · rw [hN, hS] at e; exact absurd e hns
  · rw [hN] at e; exact absurd e.symm (hax j (by omega) 1)
  · rw [hN, hS] at e; exact absurd e.symm hns
  · rfl
  · rw [hS] at e; exact absurd e.symm (hax j (by omega) (-1))
  · rw [hN] at e; exact absurd e (hax i (by omega) 1)
  · rw [hS] at e; exact absurd e (hax i (by omega) (-1))
  · obtain ⟨e1, h1, h2⟩ := hq i (by omega)
    obtain ⟨e2, h3, h4⟩ := hq j (by omega)
    rw [e1, e2, neg_inj] at e
    obtain ⟨u1, u2, u3⟩ := index_unique (Nat.mod_lt _ (by norm_num)) h1 h2 (Nat.mod_lt _ (by norm_num)) h3 h4 e
    have d1 := Nat.div_add_mod (i / 5) n
    have d2 := Nat.div_add_mod (j / 5) n
    rw [u2, u3] at d1
    omega

/-- C321: with every point, the mesh has the one on the other side of the globe. -/
theorem C321_antipodes (m : ℕ) (hm : m ≤ 8000000) (w : ℕ → ℕ → ℕ → P3) (lat lon : List ℝ) (h : getgeodesicpts m w = some (lat, lon))
    (i : ℕ) (hi : i < lat.length) : ∃ j < lat.length, point (lat.getD j 0) (lon.getD j 0) = -point (lat.getD i 0) (lon.getD i 0) := by
  have e := C319_mesh m hm w lat lon h
  have h1 : point (lat.getD i 0) (lon.getD i 0) ∈ Mesh (m - 1) := by rw [← e]; exact ⟨i, hi, rfl⟩
  have h2 := mesh_neg h1
  rw [← e] at h2
  obtain ⟨j, hj, e'⟩ := h2
  exact ⟨j, hj, e'.symm⟩

/-- The five corners next to one of the ring. -/
def nbrs (e : Fin 10) : Finset Corner := {if e.val % 2 = 1 then Corner.north else Corner.south, .ring (e + 1), .ring (e + 2), .ring (e + 9), .ring (e + 8)}

private theorem five : ∀ e : Fin 10, (nbrs e).card = 5 := by decide

/-- C322: the 12 points of `getgeodesicpts(2)` are the corners of a regular icosahedron: on the unit sphere, with scalar products at most `1/sqrt 5`
(angles of at least 63.4 degrees), and each has five others at exactly that angle. -/
theorem C322_icosahedron (w : ℕ → ℕ → ℕ → P3) (lat lon : List ℝ) (h : getgeodesicpts 2 w = some (lat, lon)) :
    lat.length = 12 ∧ (∀ i < 12, ∀ j < 12, i ≠ j →
      dot (point (lat.getD i 0) (lon.getD i 0)) (point (lat.getD j 0) (lon.getD j 0)) ≤ 1 / Real.sqrt 5) ∧
    ∀ i < 12, ∃ s : Finset ℕ, s.card = 5 ∧ ∀ j ∈ s, j < 12 ∧
      dot (point (lat.getD i 0) (lon.getD i 0)) (point (lat.getD j 0) (lon.getD j 0)) = 1 / Real.sqrt 5 := by
  have hl : lat.length = 12 := by
    have := ((C317_sizes 2 w).2 lat lon h).1
    norm_num at this
    exact_mod_cast this
  have hM := C319_mesh 2 (by norm_num) w lat lon h
  have hD := C320_distinct 2 (by norm_num) w lat lon h
  have hself : ∀ A : Corner, project A.at = A.at := by intro A; unfold project; rw [corner_self]; simp
  have hcorner : ∀ i < 12, ∃ A : Corner, point (lat.getD i 0) (lon.getD i 0) = A.at := by
    intro i hi
    have : point (lat.getD i 0) (lon.getD i 0) ∈ Mesh 1 := by rw [← hM]; exact ⟨i, by omega, rfl⟩
    obtain ⟨A, B, C, a, b, c, -, hs, e⟩ := this
    have hcases : (a = 1 ∧ b = 0 ∧ c = 0) ∨ (a = 0 ∧ b = 1 ∧ c = 0) ∨ (a = 0 ∧ b = 0 ∧ c = 1) := by omega
    rcases hcases with ⟨rfl, rfl, rfl⟩ | ⟨rfl, rfl, rfl⟩ | ⟨rfl, rfl, rfl⟩
    · exact ⟨A, by rw [e]; simpa using hself A⟩
    · exact ⟨B, by rw [e]; simpa using hself B⟩
    · exact ⟨C, by rw [e]; simpa using hself C⟩
  have hindex : ∀ A : Corner, ∃ i < 12, point (lat.getD i 0) (lon.getD i 0) = A.at := by
    intro A
    have : A.at ∈ Mesh 1 := by
      cases A with
      | north => exact ⟨_, _, _, 0, 1, 0, Face.cap 1, rfl, by simpa using (hself .north).symm⟩
      | south => exact ⟨_, _, _, 0, 1, 0, Face.cap 0, rfl, by simpa using (hself .south).symm⟩
      | ring e => exact ⟨_, _, _, 1, 0, 0, Face.cap e, rfl, by simpa using (hself (.ring e)).symm⟩
    rw [← hM] at this
    obtain ⟨i, hi, e⟩ := this
    exact ⟨i, by omega, e.symm⟩
  refine ⟨hl, ?_, ?_⟩
  · intro i hi j hj hij
    obtain ⟨A, hA⟩ := hcorner i hi
    obtain ⟨B, hB⟩ := hcorner j hj
    rw [hA, hB, inv5]
    refine corner_le ?_
    rintro rfl
    exact hij (hD i j (by omega) (by omega) (by rw [hA, hB]))
  · intro i hi
    obtain ⟨A, hA⟩ := hcorner i hi
    choose idx hidx hat using hindex
    have hinj : ∀ B C, idx B = idx C → dot A.at B.at = g → dot A.at C.at = g → B.at = C.at := by
      intro B C h' _ _; rw [← hat B, ← hat C, h']
    have hatinj : ∀ B C : Corner, B.at = C.at → B = C := by
      intro B C h'
      by_contra hn
      have := corner_le hn
      rw [h', corner_self] at this
      linarith [g_lt]
    have key : ∀ s : Finset Corner, s.card = 5 → (∀ B ∈ s, dot A.at B.at = g) →
        ∃ s : Finset ℕ, s.card = 5 ∧ ∀ j ∈ s, j < 12 ∧ dot (point (lat.getD i 0) (lon.getD i 0)) (point (lat.getD j 0) (lon.getD j 0)) = 1 / Real.sqrt 5 := by
      intro s hs hd
      refine ⟨s.image idx, ?_, ?_⟩
      · rw [Finset.card_image_of_injOn, hs]
        intro B hB C hC h'
        exact hatinj B C (hinj B C h' (hd B hB) (hd C hC))
      · intro j hj
        obtain ⟨B, hB, rfl⟩ := Finset.mem_image.1 hj
        refine ⟨hidx B, ?_⟩
        rw [hA, hat B, inv5]
        exact hd B hB
    have capd : ∀ e : Fin 10, dot (Corner.ring e).at (if e.val % 2 = 1 then Corner.north else Corner.south).at = g := fun e => (face_dot (Face.cap e)).1
    cases A with
    | north =>
      refine key {.ring 1, .ring 3, .ring 5, .ring 7, .ring 9} (by decide) ?_
      intro B hB
      simp only [Finset.mem_insert, Finset.mem_singleton] at hB
      rw [dot_comm']
      rcases hB with rfl | rfl | rfl | rfl | rfl
      · exact capd 1
      · exact capd 3
      · exact capd 5
      · exact capd 7
      · exact capd 9
    | south =>
      refine key {.ring 0, .ring 2, .ring 4, .ring 6, .ring 8} (by decide) ?_
      intro B hB
      simp only [Finset.mem_insert, Finset.mem_singleton] at hB
      rw [dot_comm']
      rcases hB with rfl | rfl | rfl | rfl | rfl
      · exact capd 0
      · exact capd 2
      · exact capd 4
      · exact capd 6
      · exact capd 8
    | ring e =>
      refine key (nbrs e) (five e) ?_
      intro B hB
      unfold nbrs at hB
      simp only [Finset.mem_insert, Finset.mem_singleton] at hB
      rcases hB with rfl | rfl | rfl | rfl | rfl
      · exact capd e
      · exact (face_dot (Face.belt e)).1
      · exact (face_dot (Face.belt e)).2.1
      · rw [dot_comm']
        have := (face_dot (Face.belt (e + 9))).1
        rw [add_assoc, show (9 + 1 : Fin 10) = 0 from rfl, add_zero] at this
        exact this
      · rw [dot_comm']
        have := (face_dot (Face.belt (e + 8))).2.1
        rw [add_assoc, show (8 + 2 : Fin 10) = 0 from rfl, add_zero] at this
        exact this

/-- The hypotheses are met: `m = 3` gives 42 points. -/
example : ∃ lat lon, getgeodesicpts (3 : ℕ) (fun _ _ _ => 0) = some (lat, lon) ∧ lat.length = 42 := by
  have h := (C317_sizes (3 : ℕ) (fun _ _ _ => 0))
  obtain ⟨r, hr⟩ := Option.ne_none_iff_exists'.1 (fun h' => absurd (h.1.1 h') (by norm_num))
  refine ⟨r.1, r.2, hr, ?_⟩
  have := (h.2 r.1 r.2 hr).1
  norm_num at this
  exact_mod_cast this

end Skyborn.Sphere.Geodesic
