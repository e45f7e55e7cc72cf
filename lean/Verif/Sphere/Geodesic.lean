/-
`getgeodesicpts(m)`: points of the icosahedral mesh on the sphere.
Modelled: spharm/spherical_harmonics.py:1800-1847 and spharm/src/ihgeod.f90. Exact real arithmetic (the code works with single precision); the three
components of a point are handled together; `atan2` is the argument of a complex number.
-/
import Mathlib.Analysis.SpecialFunctions.Complex.Arg
import Mathlib.Analysis.SpecialFunctions.Trigonometric.Arctan
import Mathlib.Analysis.SpecialFunctions.Trigonometric.Chebyshev.Basic
import Mathlib.Tactic.Module
import Mathlib.Tactic.LinearCombination

namespace Skyborn.Sphere.Geodesic

/-! ## Model -/

/-- Cartesian coordinates. -/
abbrev P3 := ℝ × ℝ × ℝ

/-- Fortran and NumPy `atan2(y, x)`. -/
noncomputable def atan2 (y x : ℝ) : ℝ := Complex.arg ⟨x, y⟩

/-- ihgeod.f90:188-206 `stoc`. -/
noncomputable def stoc (r theta phi : ℝ) : P3 := (r * Real.sin theta * Real.cos phi, r * Real.sin theta * Real.sin phi, r * Real.cos theta)

/-- ihgeod.f90:161-185 `ctos`, without the radius, which is not used. -/
noncomputable def ctos (p : P3) : ℝ × ℝ :=
  let r1 := p.1 * p.1 + p.2.1 * p.2.1
  if r1 < 1 / 10 ^ 14 then (if p.2.2 < 0 then 4 * Real.arctan 1 else 0, 0)
  else (atan2 (Real.sqrt r1) p.2.2, atan2 p.2.1 p.1)

/-- ihgeod.f90:37-43: longitude step. -/
noncomputable def dphi : ℝ := 4 / 10 * (4 * Real.arctan 1)

/-- ihgeod.f90:37-43: colatitude of the upper ring. -/
noncomputable def theta1 : ℝ := Real.arccos (Real.cos dphi / (1 - Real.cos dphi))

/-- ihgeod.f90:37-43: colatitude of the lower ring. -/
noncomputable def theta2 : ℝ := 4 * Real.arctan 1 - theta1

/-- ihgeod.f90:46-145: the flat triangles of strip `k` (indices from 1), written over `w`. The pairs of loops, whose passes write different elements,
are written as conditions on the indices. -/
noncomputable def flat (m k : ℕ) (w : ℕ → ℕ → P3) : ℕ → ℕ → P3 :=
  let h : ℝ := ((m : ℝ) - 1)⁻¹
  let phi := ((k : ℝ) - 1) * dphi
  let v1 := stoc 1 theta2 phi
  let v2 := stoc 1 (4 * Real.arctan 1) (phi + dphi * (1 / 2))
  let v3 := stoc 1 theta2 (phi + dphi)
  let di := h • (v2 - v1)
  let dj := h • (v3 - v2)
  let w : ℕ → ℕ → P3 := fun j i => if 1 ≤ j ∧ j ≤ i ∧ i ≤ m then v1 + ((i : ℝ) - 1) • di + ((j : ℝ) - 1) • dj else w j i
  let v4 := stoc 1 theta1 (phi + dphi * (1 / 2))
  let di := h • (v3 - v4)
  let dj := h • (v4 - v1)
  let w : ℕ → ℕ → P3 := fun j i => if 1 ≤ i ∧ i ≤ j ∧ j ≤ m then v1 + ((j : ℝ) - 1) • dj + ((i : ℝ) - 1) • di else w j i
  let v5 := stoc 1 theta1 (phi + 3 * (dphi * (1 / 2)))
  let dj := h • (v5 - v3)
  let w : ℕ → ℕ → P3 := fun j i => if m ≤ j ∧ j + 1 - m ≤ i ∧ i ≤ m then v4 + ((i : ℝ) - 1) • di + ((j : ℝ) - m) • dj else w j i
  let v6 := stoc 1 0 (phi + dphi)
  let di := h • (v5 - v6)
  let dj := h • (v6 - v4)
  fun j i => if 1 ≤ i ∧ i ≤ j + 1 - m ∧ j + 1 - m ≤ m then v4 + ((j : ℝ) - m) • dj + ((i : ℝ) - 1) • di else w j i

/-- ihgeod.f90:22-158 `ihgeod`: the mesh; `w` is what the arrays hold before. -/
noncomputable def ihgeod (m : ℕ) (w : ℕ → ℕ → ℕ → P3) (j i k : ℕ) : P3 :=
  let p := if 1 ≤ k ∧ k ≤ 5 then flat m k (fun j i => w j i k) j i else w j i k
  if (1 ≤ k ∧ k ≤ 5) ∧ (1 ≤ j ∧ j ≤ m + m - 1) ∧ 1 ≤ i ∧ i ≤ m then stoc 1 (ctos p).1 (ctos p).2 else p

open Classical in
/-- spherical_harmonics.py:1822-1830: latitude and longitude in degrees. -/
noncomputable def lonlat (p : P3) : ℝ × ℝ :=
  let r1 := Real.sqrt (p.1 * p.1 + p.2.1 * p.2.1)
  let xtmp := if p.1 ≠ 0 ∨ p.2.1 ≠ 0 then p.1 else 1
  let ztmp := if r1 ≠ 0 ∨ p.2.2 ≠ 0 then p.2.2 else 1
  (180 / Real.pi * atan2 r1 ztmp - 90, 180 / Real.pi * atan2 p.2.1 xtmp + 180)

/-- spherical_harmonics.py:1800-1847 `getgeodesicpts`: latitudes and longitudes; `none`: an error. Element `q` of the flattened part is the one with indices
`q / 5 / (m-1)`, `q / 5 % (m-1)`, `q % 5`. -/
noncomputable def getgeodesicpts (m : ℤ) (w : ℕ → ℕ → ℕ → P3) : Option (List ℝ × List ℝ) :=
  if m < 2 then none
  else
    let n := m.toNat - 1
    let total := 10 * n ^ 2 + 2
    let flattened := (List.range (2 * n * n * 5)).map fun q => lonlat (ihgeod m.toNat w (q / 5 / n + 1) (q / 5 % n + 1) (q % 5 + 1))
    if flattened.length ≠ total - 2 then none
    else some ([90, -90] ++ flattened.map Prod.fst, [0, 0] ++ flattened.map Prod.snd)

/-! ## Specification -/

/-- The corners of an icosahedron: the poles and ten points in zigzag around the equator. -/
inductive Spec.Corner
  | north
  | south
  | ring (e : Fin 10)
  deriving DecidableEq

/-- Where the corners are: corner `e` of the ring at longitude `36 e` degrees, at height `1/sqrt 5` above (odd `e`) or below the equator. -/
noncomputable def Spec.Corner.at : Spec.Corner → P3
  | .north => (0, 0, 1)
  | .south => (0, 0, -1)
  | .ring e => (2 / Real.sqrt 5 * Real.cos (Real.pi * e.val / 5), 2 / Real.sqrt 5 * Real.sin (Real.pi * e.val / 5), (if e.val % 2 = 1 then 1 else -1) / Real.sqrt 5)

/-- The twenty faces. -/
inductive Spec.Face : Spec.Corner → Spec.Corner → Spec.Corner → Prop
  | cap (e : Fin 10) : Spec.Face (.ring e) (if e.val % 2 = 1 then .north else .south) (.ring (e + 2))
  | belt (e : Fin 10) : Spec.Face (.ring e) (.ring (e + 1)) (.ring (e + 2))

/-- Scalar product. -/
def Spec.dot (p q : P3) : ℝ := p.1 * q.1 + p.2.1 * q.2.1 + p.2.2 * q.2.2

/-- Projection to the sphere. -/
noncomputable def Spec.project (p : P3) : P3 := (Real.sqrt (Spec.dot p p))⁻¹ • p

/-- The geodesic mesh: on every face the points that divide its sides into `n` parts, projected to the sphere. -/
def Spec.Mesh (n : ℕ) : Set P3 :=
  {p | ∃ A B C a b c, Spec.Face A B C ∧ a + b + c = n ∧ p = Spec.project ((a : ℝ) • A.at + (b : ℝ) • B.at + (c : ℝ) • C.at)}

/-- The point of the sphere with this latitude and longitude in degrees. -/
noncomputable def Spec.point (lat lon : ℝ) : P3 :=
  (Real.cos (lat * (Real.pi / 180)) * Real.cos (lon * (Real.pi / 180)), Real.cos (lat * (Real.pi / 180)) * Real.sin (lon * (Real.pi / 180)),
    Real.sin (lat * (Real.pi / 180)))

/-! ## Coordinates -/

theorem pi_eq : 4 * Real.arctan 1 = Real.pi := by rw [Real.arctan_one]; ring

theorem dphi_eq : dphi = 2 * (Real.pi / 5) := by unfold dphi; rw [pi_eq]; ring

theorem s5 : Real.sqrt 5 * Real.sqrt 5 = 5 := Real.mul_self_sqrt (by norm_num)

theorem s5_pos : 0 < Real.sqrt 5 := Real.sqrt_pos.2 (by norm_num)

theorem s5_gt : 2 < Real.sqrt 5 := by nlinarith [s5, s5_pos]

theorem s5_lt : Real.sqrt 5 < 9 / 4 := by nlinarith [s5, s5_pos]

theorem inv5 : 1 / Real.sqrt 5 = Real.sqrt 5 / 5 := by
  have := s5; have := s5_pos; field_simp; linarith

theorem cos1 : Real.cos (Real.pi / 5) = (1 + Real.sqrt 5) / 4 := Real.cos_pi_div_five

theorem cos2 : Real.cos (2 * (Real.pi / 5)) = (Real.sqrt 5 - 1) / 4 := by
  rw [Real.cos_two_mul, cos1]; nlinarith [s5]

theorem cos_theta1 : Real.cos theta1 = 1 / Real.sqrt 5 := by
  unfold theta1
  have e : Real.cos dphi / (1 - Real.cos dphi) = 1 / Real.sqrt 5 := by
    rw [dphi_eq, cos2, div_eq_div_iff (by nlinarith [s5_lt]) s5_pos.ne']
    nlinarith [s5]
  rw [e, Real.cos_arccos]
  · have := s5_pos; have : 0 < 1 / Real.sqrt 5 := by positivity
    linarith
  · rw [div_le_one s5_pos]; linarith [s5_gt]

theorem sin_theta1 : Real.sin theta1 = 2 / Real.sqrt 5 := by
  have h0 : 0 ≤ Real.sin theta1 := by
    unfold theta1; rw [Real.sin_arccos]; exact Real.sqrt_nonneg _
  have h1 := Real.sin_sq_add_cos_sq theta1
  rw [cos_theta1] at h1
  have h2 : (2 / Real.sqrt 5) ^ 2 = 4 / 5 := by rw [div_pow, sq (Real.sqrt 5), s5]; norm_num
  have h3 : (1 / Real.sqrt 5) ^ 2 = 1 / 5 := by rw [div_pow, sq (Real.sqrt 5), s5]; norm_num
  have h4 : 0 < 2 / Real.sqrt 5 := by have := s5_pos; positivity
  nlinarith

theorem cos_theta2 : Real.cos theta2 = -1 / Real.sqrt 5 := by unfold theta2; rw [pi_eq, Real.cos_pi_sub, cos_theta1]; ring

theorem sin_theta2 : Real.sin theta2 = 2 / Real.sqrt 5 := by unfold theta2; rw [pi_eq, Real.sin_pi_sub, sin_theta1]

private theorem ring_eq {x : ℝ} {z : ℝ} {e : Fin 10} {N : ℕ} (hx : x = Real.pi * N / 5) (hN : N % 10 = e.val)
    (hz : z = (if e.val % 2 = 1 then 1 else -1) / Real.sqrt 5) :
    (2 / Real.sqrt 5 * Real.cos x, 2 / Real.sqrt 5 * Real.sin x, z) = (Spec.Corner.ring e).at := by
  have h : x = Real.pi * e.val / 5 + (N / 10 : ℕ) * (2 * Real.pi) := by
    have : N = e.val + 10 * (N / 10) := by omega
    have h' : (N : ℝ) = e.val + 10 * (N / 10 : ℕ) := by exact_mod_cast this
    rw [hx, h']; ring
  unfold Spec.Corner.at
  rw [hz, h, Real.cos_add_nat_mul_two_pi, Real.sin_add_nat_mul_two_pi]

/-- The corner number `2 k` of the ring and those after it. -/
def R (N : ℕ) : Spec.Corner := .ring ⟨N % 10, by omega⟩

private theorem low (k : ℕ) (x : ℝ) (hx : x = Real.pi * (2 * k : ℕ) / 5) : stoc 1 theta2 x = (R (2 * k)).at := by
  unfold stoc
  rw [one_mul, one_mul, sin_theta2, cos_theta2]
  refine ring_eq hx rfl ?_
  dsimp only
  rw [if_neg (by omega)]

private theorem high (k : ℕ) (x : ℝ) (hx : x = Real.pi * (2 * k + 1 : ℕ) / 5) : stoc 1 theta1 x = (R (2 * k + 1)).at := by
  unfold stoc
  rw [one_mul, one_mul, sin_theta1, cos_theta1]
  refine ring_eq hx rfl ?_
  dsimp only
  rw [if_pos (by omega)]

private theorem southp (x : ℝ) : stoc 1 (4 * Real.arctan 1) x = Spec.Corner.south.at := by
  unfold stoc Spec.Corner.at; rw [pi_eq]; simp

private theorem northp (x : ℝ) : stoc 1 0 x = Spec.Corner.north.at := by
  unfold stoc Spec.Corner.at; simp

/-! ## Points of the mesh by index -/

/-- First corner, by strip and row. -/
def num (n k J : ℕ) : ℕ := if J < n then 2 * k else 2 * k + 1

/-- Row within the half of the strip. -/
def row (n J : ℕ) : ℕ := if J < n then J else J - n

/-- The middle corner: a pole or the next of the ring. -/
def mid (n k J I : ℕ) : Spec.Corner :=
  if J < n then (if J ≤ I then .south else R (2 * k + 1)) else if J - n < I then R (2 * k + 2) else .north

/-- The point before projection, times `n`. -/
noncomputable def pt (n k J I : ℕ) : P3 :=
  ((n - max (row n J) I : ℕ) : ℝ) • (R (num n k J)).at + ((max (row n J) I - min (row n J) I : ℕ) : ℝ) • (mid n k J I).at
    + ((min (row n J) I : ℕ) : ℝ) • (R (num n k J + 2)).at

theorem flat_pt (n k J I : ℕ) (w : ℕ → ℕ → P3) (hn : 1 ≤ n) (hJ : J < 2 * n) (hI : I < n) :
    flat (n + 1) (k + 1) w (J + 1) (I + 1) = (n : ℝ)⁻¹ • pt n k J I := by
  have hn' : (n : ℝ) ≠ 0 := by positivity
  have hp : (((k + 1 : ℕ) : ℝ) - 1) * dphi = Real.pi * (2 * k : ℕ) / 5 := by rw [dphi_eq]; push_cast; ring
  unfold flat
  dsimp only
  rw [hp, low k _ rfl, southp, high k (Real.pi * (2 * k : ℕ) / 5 + dphi * (1 / 2)) (by rw [dphi_eq]; push_cast; ring),
    low (k + 1) (Real.pi * (2 * k : ℕ) / 5 + dphi) (by rw [dphi_eq]; push_cast; ring),
    high (k + 1) (Real.pi * (2 * k : ℕ) / 5 + 3 * (dphi * (1 / 2))) (by rw [dphi_eq]; push_cast; ring), northp]
  rw [show (((n + 1 : ℕ) : ℝ) - 1) = n by push_cast; ring]
  unfold pt num row mid
  rw [show 2 * (k + 1) = 2 * k + 2 by ring]
  rcases Nat.lt_or_ge J n with hJn | hJn
  · simp only [if_pos hJn]
    rw [if_neg (by omega)]
    rw [if_neg (by omega)]
    rcases Nat.lt_or_ge J I with h | h
    · rw [if_neg (by omega), if_pos (by omega), if_pos (by omega), max_eq_right (by omega), min_eq_left (by omega)]
      push_cast [Nat.cast_sub (show I ≤ n by omega), Nat.cast_sub (show J ≤ I by omega)]
      match_scalars <;> field_simp <;> ring
    · rw [if_pos (by omega), max_eq_left (by omega), min_eq_right (by omega)]
      rcases h.lt_or_eq with h' | rfl
      · rw [if_neg (by omega)]
        push_cast [Nat.cast_sub (show J ≤ n by omega), Nat.cast_sub (show I ≤ J by omega)]
        match_scalars <;> field_simp <;> ring
      · rw [if_pos le_rfl]
        push_cast [Nat.cast_sub (show I ≤ n by omega), Nat.sub_self]
        match_scalars <;> field_simp <;> ring
  · simp only [if_neg (show ¬ J < n by omega)]
    obtain ⟨j, rfl⟩ := Nat.exists_eq_add_of_le hJn
    rw [show n + j - n = j by omega]
    rcases Nat.lt_or_ge j I with h | h
    · rw [if_neg (by omega), if_pos (by omega), if_pos h, max_eq_right (by omega), min_eq_left (by omega)]
      push_cast [Nat.cast_sub (show I ≤ n by omega), Nat.cast_sub (show j ≤ I by omega)]
      match_scalars <;> field_simp <;> ring
    · rw [if_pos (by omega), if_neg (by omega), max_eq_left (by omega), min_eq_right (by omega)]
      push_cast [Nat.cast_sub (show j ≤ n by omega), Nat.cast_sub (show I ≤ j by omega)]
      match_scalars <;> field_simp <;> ring

end Skyborn.Sphere.Geodesic
