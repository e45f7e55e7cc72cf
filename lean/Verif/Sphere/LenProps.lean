/-
C149, C150: construction and transform calls pass the length tests of the compiled routines.
-/
import Verif.Sphere.Lengths
import Mathlib.Tactic.Linarith
import Mathlib.Tactic.LinearCombination
import Mathlib.Algebra.Ring.Int.Parity

namespace Skyborn.Sphere

/-- The sizes the Python code computes, without its case distinctions. -/
theorem sizes {nlat nlon : ℤ} (hlat : 3 ≤ nlat) (hlon : 4 ≤ nlon) :
    n2 nlat = (nlat + 1) / 2 ∧ (nlat + 1).tdiv 2 = n2 nlat ∧ (nlat + nlat.tmod 2).tdiv 2 = n2 nlat ∧
    n1 nlat nlon = min nlat (nlon / 2 + 1) ∧
    min nlat (nlon.tdiv 2 + 1) = n1 nlat nlon ∧ min ((nlon + 2).tdiv 2) nlat = n1 nlat nlon ∧
    min nlat ((nlon + 1).tdiv 2) = min nlat ((nlon + 1) / 2) := by
  have e1 : (nlat + 1).tdiv 2 = (nlat + 1) / 2 := Int.tdiv_eq_ediv_of_nonneg (by omega)
  have e2 : nlat.tmod 2 = nlat % 2 := Int.tmod_eq_emod_of_nonneg (by omega)
  have e3 : (nlat + nlat % 2).tdiv 2 = (nlat + nlat % 2) / 2 :=
    Int.tdiv_eq_ediv_of_nonneg (by omega)
  have e4 : nlon.tdiv 2 = nlon / 2 := Int.tdiv_eq_ediv_of_nonneg (by omega)
  have e5 : (nlon + 2).tdiv 2 = (nlon + 2) / 2 := Int.tdiv_eq_ediv_of_nonneg (by omega)
  have e6 : (nlon + 1).tdiv 2 = (nlon + 1) / 2 := Int.tdiv_eq_ediv_of_nonneg (by omega)
  have e7 : nlon.fmod 2 = nlon % 2 := Int.fmod_eq_emod_of_nonneg _ (by omega)
  have e8 : nlat.fmod 2 = nlat % 2 := Int.fmod_eq_emod_of_nonneg _ (by omega)
  have e9 : ∀ x : ℤ, x.fdiv 2 = x / 2 := fun x => Int.fdiv_eq_ediv_of_nonneg _ (by omega)
  unfold n1 n2
  simp only [e1, e2, e3, e4, e5, e6, e7, e8, e9]
  refine ⟨?_, ?_, ?_, ?_, ?_, ?_, trivial⟩ <;> split_ifs <;> omega

theorem fdiv2 (x : ℤ) : x.fdiv 2 = x / 2 := Int.fdiv_eq_ediv_of_nonneg _ (by omega)

theorem tdiv2 {x : ℤ} (h : 0 ≤ x) : x.tdiv 2 = x / 2 := Int.tdiv_eq_ediv_of_nonneg h

theorem tdiv2_even {x : ℤ} (h : 2 ∣ x) : x.tdiv 2 = x / 2 := Int.tdiv_eq_ediv_of_dvd h

/-- A successful call. -/
theorem call_ok {args : List ℤ} {e : ℤ} :
    call args e = .ok () ↔ (∀ x ∈ args, fitsInt x) ∧ e = 0 := by
  unfold call
  by_cases h : (args.all fun x => decide (fitsInt x)) = true
  · have h' : ∀ x ∈ args, fitsInt x := by simpa using h
    by_cases he : e = 0 <;> simp [h, he] <;> exact h'
  · have h' : ¬ ∀ x ∈ args, fitsInt x := by simpa using h
    simp [h, h']

/-- Sequencing two calls. -/
theorem bind_ok {a b : Except Err Unit} :
    (do a; b) = .ok () ↔ a = .ok () ∧ b = .ok () := by
  cases a with
  | error e => simp [bind, Except.bind]
  | ok u => simp [bind, Except.bind]

section arith

variable {N a h m : ℤ}

/-- The size functions grow with the number of waves. -/
theorem grow (hm : m ≤ a) (ha : a ≤ N) :
    m * (N + N - m + 1) ≤ a * (N + N - a + 1) ∧
    (m - 2) * (N + N - m - 1) ≤ (a - 2) * (N + N - a - 1) := by
  constructor <;> nlinarith [mul_nonneg (sub_nonneg.2 hm) (show (0:ℤ) ≤ 2 * N - a - m by linarith)]

theorem even1 (a : ℤ) : 2 ∣ 3 * a * (1 - a) := by
  have : 3 * a * (1 - a) = 2 * (-(3 * (a * (a - 1) / 2))) := by
    have := Int.even_mul_pred_self a
    obtain ⟨k, hk⟩ := this
    have e : a * (a - 1) / 2 = k := by omega
    rw [e]; linear_combination -3 * hk
  exact ⟨_, this⟩

theorem even2 (N a h : ℤ) : 2 ∣ (a - 1) * (h * (2 * N - a) - 3 * a) := by
  rcases Int.even_or_odd a with ⟨k, hk⟩ | ⟨k, hk⟩
  · exact ⟨(a - 1) * (h * (N - k) - 3 * k), by subst hk; ring⟩
  · exact ⟨k * (h * (2 * N - a) - 3 * a), by subst hk; ring⟩

theorem even3 (N a : ℤ) : 2 ∣ a * (N + N - a + 1) := by
  rcases Int.even_or_odd a with ⟨k, hk⟩ | ⟨k, hk⟩
  · exact ⟨k * (N + N - a + 1), by subst hk; ring⟩
  · exact ⟨a * (N - k), by subst hk; ring⟩

/-- Facts about the sizes used below, in one place. -/
theorem bounds {nlat nlon : ℤ} (hlat : 3 ≤ nlat) (hlon : 4 ≤ nlon) :
    3 ≤ n1 nlat nlon ∧ n1 nlat nlon ≤ nlat ∧ 2 ≤ n2 nlat ∧ 2 * n2 nlat ≤ nlat + 1 ∧ nlat ≤ 2 * n2 nlat ∧
    2 ≤ min nlat ((nlon + 1) / 2) ∧ min nlat ((nlon + 1) / 2) ≤ n1 nlat nlon := by
  obtain ⟨e1, -, -, e4, -⟩ := sizes hlat hlon
  rw [e1, e4]
  omega

end arith

section zero

variable {nlat nlon : ℤ} (hlat : 3 ≤ nlat) (hlon : 4 ≤ nlon)
include hlat hlon

theorem shaesi_zero : shaesi nlat nlon (lshaes nlat nlon) (lworkEs nlat nlon) (nlat + 1) = 0 := by
  obtain ⟨-, e2, e3, -, e5, e6, e7⟩ := sizes hlat hlon
  obtain ⟨b1, b2, b3, b4, b5, b6, b7⟩ := bounds hlat hlon
  unfold shaesi lshaes lworkEs
  simp only [e2, e5, fdiv2]
  generalize n1 nlat nlon = a at *
  generalize n2 nlat = h at *
  have p1 : 0 ≤ h * a * (nlat + nlat - a + 1) :=
    mul_nonneg (mul_nonneg (by omega) (by omega)) (by omega)
  have p2 : 0 ≤ 3 * ((a - 2) * (nlat + nlat - a - 1)) :=
    mul_nonneg (by omega) (mul_nonneg (by omega) (by omega))
  rw [tdiv2 p1, tdiv2 p2, mul_comm h a]
  rw [if_neg (by omega), if_neg (by omega), if_neg (by omega), if_neg (by omega), if_neg (by omega)]

theorem shaeci_zero : shaeci nlat nlon (lshaec nlat nlon) (2 * (nlat + 1)) = 0 := by
  obtain ⟨-, e2, e3, -, e5, e6, e7⟩ := sizes hlat hlon
  obtain ⟨b1, b2, b3, b4, b5, b6, b7⟩ := bounds hlat hlon
  unfold shaeci lshaec
  simp only [e2, e5, fdiv2]
  generalize n1 nlat nlon = a at *
  generalize n2 nlat = h at *
  have p2 : 0 ≤ 3 * ((a - 2) * (nlat + nlat - a - 1)) :=
    mul_nonneg (by omega) (mul_nonneg (by omega) (by omega))
  rw [tdiv2 p2]
  rw [if_neg (by omega), if_neg (by omega), if_neg (by omega), if_neg (by omega)]

theorem shagsi_zero :
    shagsi nlat nlon (lshags nlat nlon) (4 * nlat * (nlat + 2) + 2) (nlat * (nlat + 4)) = 0 := by
  obtain ⟨-, e2, e3, -, e5, e6, e7⟩ := sizes hlat hlon
  obtain ⟨b1, b2, b3, b4, b5, b6, b7⟩ := bounds hlat hlon
  unfold shagsi lshags
  simp only [e2, e3, e6, fdiv2]
  generalize n1 nlat nlon = a at *
  generalize n2 nlat = h at *
  rw [tdiv2_even (even1 a), tdiv2_even (even2 nlat a h)]
  obtain ⟨x, hx⟩ := even1 a
  obtain ⟨y, hy⟩ := even2 nlat a h
  have ex : 3 * a * (1 - a) / 2 = x := by omega
  have ey : (a - 1) * (h * (2 * nlat - a) - 3 * a) / 2 = y := by omega
  rw [ex, ey]
  have p : 0 ≤ nlat * h := mul_nonneg (by omega) (by omega)
  have q : 0 ≤ (a - 1) * (h * (2 * nlat - a)) := mul_nonneg (by omega) (mul_nonneg (by omega) (by omega))
  have key : nlat * (2 * h + 3 * a - 2) + x ≤ nlat * (3 * (a + h) - 2) + y := by nlinarith
  rw [if_neg (by omega), if_neg (by omega), if_neg (by omega), if_neg (by omega), if_neg (by omega),
    if_neg (by omega)]

theorem shagci_zero : shagci nlat nlon (lshagc nlat nlon) (nlat * (nlat + 4)) = 0 := by
  obtain ⟨-, e2, e3, -, e5, e6, e7⟩ := sizes hlat hlon
  unfold shagci lshagc
  simp only [e3, e6, fdiv2]
  rw [tdiv2_even (even1 _)]
  rw [if_neg (by omega), if_neg (by omega), if_neg (by omega), if_neg (by omega)]

/-- The bounds of the vector routines, `m` waves against the `n1` waves the Python code allows for. -/
theorem vec_bounds :
    (n2 nlat * min nlat ((nlon + 1) / 2) * (nlat + nlat - min nlat ((nlon + 1) / 2) + 1)).tdiv 2 * 2 ≤
      n1 nlat nlon * n2 nlat * (nlat + nlat - n1 nlat nlon + 1) ∧
    (3 * (max (min nlat ((nlon + 1) / 2) - 2) 0 *
        (nlat + nlat - min nlat ((nlon + 1) / 2) - 1))).tdiv 2 ≤
      (3 * (max (n1 nlat nlon - 2) 0 * (nlat + nlat - n1 nlat nlon - 1))) / 2 ∧
    (3 * (max (min nlat ((nlon + 1) / 2) - 2) 0 *
        (nlat + nlat - min nlat ((nlon + 1) / 2) - 1))).tdiv 2 * 2 ≤
      3 * max (n1 nlat nlon - 2) 0 * (2 * nlat - n1 nlat nlon - 1) := by
  obtain ⟨b1, b2, b3, b4, b5, b6, b7⟩ := bounds hlat hlon
  generalize n1 nlat nlon = a at *
  generalize n2 nlat = h at *
  generalize min nlat ((nlon + 1) / 2) = m at *
  obtain ⟨g1, g2⟩ := grow b7 b2
  rw [max_eq_left (show (0:ℤ) ≤ a - 2 by omega), max_eq_left (show (0:ℤ) ≤ m - 2 by omega)]
  have p1 : 0 ≤ h * m * (nlat + nlat - m + 1) :=
    mul_nonneg (mul_nonneg (by omega) (by omega)) (by omega)
  have p2 : 0 ≤ 3 * ((m - 2) * (nlat + nlat - m - 1)) :=
    mul_nonneg (by omega) (mul_nonneg (by omega) (by omega))
  rw [tdiv2 p1, tdiv2 p2]
  refine ⟨?_, ?_, ?_⟩
  · have : h * m * (nlat + nlat - m + 1) ≤ a * h * (nlat + nlat - a + 1) := by
      have := mul_le_mul_of_nonneg_left g1 (show (0:ℤ) ≤ h by omega)
      linarith [this, mul_assoc h m (nlat + nlat - m + 1), mul_assoc a h (nlat + nlat - a + 1),
        mul_left_comm a h (nlat + nlat - a + 1)]
    omega
  · omega
  · have : (3 : ℤ) * (a - 2) * (2 * nlat - a - 1) = 3 * ((a - 2) * (nlat + nlat - a - 1)) := by ring
    omega

theorem vhaesi_zero : vhaesi nlat nlon (lvhaes nlat nlon) (lworkVec nlat nlon) (2 * (nlat + 1)) = 0 := by
  obtain ⟨-, e2, e3, -, e5, e6, e7⟩ := sizes hlat hlon
  obtain ⟨v1, v2, v3⟩ := vec_bounds hlat hlon
  unfold vhaesi lvhaes lworkVec
  simp only [e2, e7, fdiv2]
  have e : 5 * nlat * n2 nlat = 5 * n2 nlat * nlat := by ring
  rw [e]
  rw [if_neg (by omega), if_neg (by omega), if_neg (by omega), if_neg (by omega), if_neg (by omega)]

theorem vhaeci_zero : vhaeci nlat nlon (lvhaec nlat nlon) (2 * (nlat + 1)) = 0 := by
  obtain ⟨-, e2, e3, -, e5, e6, e7⟩ := sizes hlat hlon
  obtain ⟨v1, v2, v3⟩ := vec_bounds hlat hlon
  unfold vhaeci lvhaec
  simp only [e2, e7]
  have e : 2 * (2 * nlat * n2 nlat) = 4 * nlat * n2 nlat := by ring
  rw [mul_add, e]
  rw [if_neg (by omega), if_neg (by omega), if_neg (by omega), if_neg (by omega)]

theorem vhagci_zero : vhagci nlat nlon (lvhagc nlat nlon) (2 * nlat * (nlat + 1) + 1) = 0 := by
  obtain ⟨-, e2, e3, -, e5, e6, e7⟩ := sizes hlat hlon
  obtain ⟨v1, v2, v3⟩ := vec_bounds hlat hlon
  unfold vhagci lvhagc
  simp only [e2, e7]
  have e : 2 * (2 * nlat * n2 nlat) = 4 * nlat * n2 nlat := by ring
  rw [mul_add, e]
  rw [if_neg (by omega), if_neg (by omega), if_neg (by omega), if_neg (by omega)]

theorem vhsgci_zero : vhsgci nlat nlon (lvhaec nlat nlon) (2 * nlat * (nlat + 1) + 1) = 0 := by
  obtain ⟨-, e2, e3, -, e5, e6, e7⟩ := sizes hlat hlon
  obtain ⟨v1, v2, v3⟩ := vec_bounds hlat hlon
  unfold vhsgci lvhaec
  simp only [e2, e7]
  have e : 2 * (2 * nlat * n2 nlat) = 4 * nlat * n2 nlat := by ring
  rw [mul_add, e]
  rw [if_neg (by omega), if_neg (by omega), if_neg (by omega), if_neg (by omega)]

theorem tri_half (n : ℤ) (hn : 0 ≤ n) : (n * (n + 1)).tdiv 2 * 2 = n * (n + 1) := by
  rw [tdiv2 (mul_nonneg hn (by omega))]
  have := Int.even_mul_succ_self n
  obtain ⟨k, hk⟩ := this
  omega

theorem vhagsi_zero : vhagsi nlat nlon (lvhags nlat nlon) (ldworkGs nlat) = 0 := by
  obtain ⟨-, e2, e3, -, e5, e6, e7⟩ := sizes hlat hlon
  obtain ⟨b1, b2, b3, b4, b5, b6, b7⟩ := bounds hlat hlon
  unfold vhagsi lvhags ldworkGs
  simp only [e2, fdiv2]
  have t := tri_half hlat hlon nlat (by omega)
  generalize n2 nlat = h at *
  have d0 : 0 ≤ nlat * (3 * nlat + 9) + 2 := by
    have := mul_nonneg (show (0:ℤ) ≤ nlat by omega) (show (0:ℤ) ≤ 3 * nlat + 9 by omega); omega
  rw [tdiv2 d0]
  have e : 3 * nlat * (nlat + 3) + 2 = nlat * (3 * nlat + 9) + 2 := by ring
  have k1 : 2 * (h * (nlat * (nlat + 1)).tdiv 2) = h * (nlat * (nlat + 1)) := by
    linear_combination h * t
  have k2 : 2 * (h * (nlat * (nlat + 1))) ≤ (nlat + 1) * (nlat + 1) * nlat := by
    nlinarith [mul_nonneg (show (0:ℤ) ≤ nlat + 1 - 2 * h by omega)
      (mul_nonneg (show (0:ℤ) ≤ nlat by omega) (show (0:ℤ) ≤ nlat + 1 by omega))]
  rw [k1, e]
  rw [if_neg (by omega), if_neg (by omega), if_neg (by omega), if_neg (by omega)]

/-- The Gaussian stored synthesis workspace is long enough exactly when at most one wave is missing. -/
theorem vhsgsi_zero_iff :
    vhsgsi nlat nlon (lvhsgs nlat nlon) (ldworkGs nlat) = 0 ↔ nlat ≤ n1 nlat nlon + 1 := by
  obtain ⟨-, e2, e3, -, e5, e6, e7⟩ := sizes hlat hlon
  obtain ⟨b1, b2, b3, b4, b5, b6, b7⟩ := bounds hlat hlon
  unfold vhsgsi lvhsgs ldworkGs
  simp only [e2, fdiv2]
  have t := tri_half hlat hlon nlat (by omega)
  generalize n1 nlat nlon = a at *
  generalize n2 nlat = h at *
  have d0 : 0 ≤ nlat * 3 * (nlat + 3) + 2 := by
    have := mul_nonneg (show (0:ℤ) ≤ nlat * 3 by omega) (show (0:ℤ) ≤ nlat + 3 by omega); omega
  rw [tdiv2 d0]
  have e : 3 * nlat * (nlat + 3) + 2 = nlat * 3 * (nlat + 3) + 2 := by ring
  have k1 : 2 * (h * (nlat * (nlat + 1)).tdiv 2) = h * (nlat * (nlat + 1)) := by
    linear_combination h * t
  have k3 : h * (nlat * (nlat + 1)) = a * h * (nlat + nlat - a + 1) + h * ((nlat - a) * (nlat - a + 1)) := by
    ring
  rw [k1, e, k3]
  rw [if_neg (by omega), if_neg (by omega)]
  by_cases hd : nlat ≤ a + 1
  · have : h * ((nlat - a) * (nlat - a + 1)) ≤ 2 * nlat := by
      rcases (by omega : nlat = a ∨ nlat = a + 1) with rfl | rfl
      · simp; omega
      · ring_nf; omega
    rw [if_neg (by omega), if_neg (by omega)]
    simp [hd]
  · have h6 : 6 ≤ (nlat - a) * (nlat - a + 1) := by nlinarith
    have : h * 6 ≤ h * ((nlat - a) * (nlat - a + 1)) := mul_le_mul_of_nonneg_left h6 (by omega)
    rw [if_pos (by omega)]
    simp [hd]

/-- The Python lengths are positive and, up to 1280 latitudes, fit a C `int`. -/
theorem lengths_fit (hmax : nlat ≤ 1280) (hlmax : nlon ≤ 1073741824) :
    fitsInt (lshaes nlat nlon) ∧ fitsInt (lworkEs nlat nlon) ∧ fitsInt (lvhaes nlat nlon) ∧
    fitsInt (lworkVec nlat nlon) ∧ fitsInt (lshaec nlat nlon) ∧ fitsInt (lvhaec nlat nlon) ∧
    fitsInt (lshags nlat nlon) ∧ fitsInt (lvhags nlat nlon) ∧ fitsInt (ldworkGs nlat) ∧
    fitsInt (lvhsgs nlat nlon) ∧ fitsInt (lshagc nlat nlon) ∧ fitsInt (lvhagc nlat nlon) := by
  obtain ⟨b1, b2, b3, b4, b5, b6, b7⟩ := bounds hlat hlon
  unfold lshaes lworkEs lvhaes lworkVec lshaec lvhaec lshags lvhags ldworkGs lvhsgs lshagc lvhagc fitsInt
  simp only [fdiv2]
  generalize n1 nlat nlon = a at *
  generalize n2 nlat = h at *
  rw [max_eq_left (show (0:ℤ) ≤ a - 2 by omega)]
  have hh : h ≤ 640 := by omega
  -- products that occur
  have q1 : 0 ≤ a * h * (nlat + nlat - a + 1) :=
    mul_nonneg (mul_nonneg (by omega) (by omega)) (by omega)
  have q2 : a * (nlat + nlat - a + 1) ≤ 1280 * 1281 := by nlinarith
  have q2' : 0 ≤ a * (nlat + nlat - a + 1) := mul_nonneg (by omega) (by omega)
  have q3 : a * h * (nlat + nlat - a + 1) ≤ 640 * (1280 * 1281) := by
    have := mul_le_mul hh q2 q2' (by norm_num)
    calc a * h * (nlat + nlat - a + 1) = h * (a * (nlat + nlat - a + 1)) := by ring
      _ ≤ _ := this
  have q4 : 0 ≤ nlat * h := mul_nonneg (by omega) (by omega)
  have q5 : nlat * h ≤ 1280 * 640 := mul_le_mul (by omega) hh (by omega) (by norm_num)
  have q6 : 0 ≤ (a - 2) * (nlat + nlat - a - 1) := mul_nonneg (by omega) (by omega)
  have q7 : (a - 2) * (nlat + nlat - a - 1) ≤ 1280 * 1281 := by nlinarith
  have r1 : 5 * nlat * h = 5 * (nlat * h) := by ring
  have r2 : 5 * h * nlat = 5 * (nlat * h) := by ring
  have r3 : 2 * nlat * h = 2 * (nlat * h) := by ring
  have r4 : 4 * nlat * h = 4 * (nlat * h) := by ring
  have r5 : 3 * (a - 2) * (2 * nlat - a - 1) = 3 * ((a - 2) * (nlat + nlat - a - 1)) := by ring
  have r6 : nlat * (3 * (a + h) - 2) = 3 * (nlat * a) + 3 * (nlat * h) - 2 * nlat := by ring
  have r7 : nlat * (2 * h + 3 * a - 2) = 3 * (nlat * a) + 2 * (nlat * h) - 2 * nlat := by ring
  have q8 : 0 ≤ nlat * a := mul_nonneg (by omega) (by omega)
  have q9 : nlat * a ≤ 1280 * 1280 := mul_le_mul (by omega) (by omega) (by omega) (by norm_num)
  have r8 : 3 * a * (1 - a) = 3 * a - 3 * (a * a) := by ring
  have q10 : 0 ≤ a * a := mul_nonneg (by omega) (by omega)
  have q11 : a * a ≤ 1280 * 1280 := mul_le_mul (by omega) (by omega) (by omega) (by norm_num)
  have q12 : 0 ≤ nlat * nlat := mul_nonneg (by omega) (by omega)
  have q13 : nlat * nlat ≤ 1280 * 1280 := mul_le_mul (by omega) (by omega) (by omega) (by norm_num)
  have q14 : 0 ≤ (nlat + 1) * (nlat + 1) * nlat := mul_nonneg (mul_nonneg (by omega) (by omega)) (by omega)
  have q15 : (nlat + 1) * (nlat + 1) * nlat ≤ 1281 * 1281 * 1280 :=
    mul_le_mul (mul_le_mul (by omega) (by omega) (by omega) (by norm_num)) (by omega) (by omega) (by norm_num)
  have r9 : 3 * nlat * (nlat + 3) = 3 * (nlat * nlat) + 9 * nlat := by ring
  have q16 : 0 ≤ h * (2 * nlat - a) := mul_nonneg (by omega) (by omega)
  have q17 : h * (2 * nlat - a) ≤ 640 * 2560 := mul_le_mul hh (by omega) (by omega) (by norm_num)
  have q18 : -(1280 * 3840) ≤ (a - 1) * (h * (2 * nlat - a) - 3 * a) := by
    have : (a - 1) * (3 * a) ≤ 1280 * 3840 := mul_le_mul (by omega) (by omega) (by omega) (by norm_num)
    have := mul_nonneg (show (0:ℤ) ≤ a - 1 by omega) q16
    linarith [mul_sub (a - 1) (h * (2 * nlat - a)) (3 * a)]
  have q19 : (a - 1) * (h * (2 * nlat - a) - 3 * a) ≤ 1280 * (640 * 2560) := by
    have h1 : (a - 1) * (h * (2 * nlat - a)) ≤ 1280 * (640 * 2560) :=
      mul_le_mul (by omega) q17 q16 (by norm_num)
    have h2 : 0 ≤ (a - 1) * (3 * a) := mul_nonneg (by omega) (by omega)
    linarith [mul_sub (a - 1) (h * (2 * nlat - a)) (3 * a)]
  rw [r1, r2, r3, r4, r5, r6, r7, r8, r9]
  generalize a * h * (nlat + nlat - a + 1) = x1 at *
  generalize nlat * h = x2 at *
  generalize (a - 2) * (nlat + nlat - a - 1) = x3 at *
  generalize nlat * a = x4 at *
  generalize a * a = x5 at *
  generalize nlat * nlat = x6 at *
  generalize (nlat + 1) * (nlat + 1) * nlat = x7 at *
  generalize (a - 1) * (h * (2 * nlat - a) - 3 * a) = x8 at *
  clear r1 r2 r3 r4 r5 r6 r7 r8 r9 q2 q2' q16 q17
  norm_num at *
  omega

end zero

/-! ### C149: construction -/

/-- **C149 is false of the code**: a Gaussian grid with stored Legendre functions and as many longitudes as
latitudes is refused (flag 3 of `vhsgsi`), although all arguments are valid and the same grid is accepted with
computed functions; and the regular 0.1 degree grid is refused because a workspace length does not fit a C
`int`. -/
theorem C149_false :
    construct .gaussian .stored 64 64 6371200 = .error (.code 3) ∧
    construct .gaussian .computed 64 64 6371200 = .ok () ∧
    construct .regular .stored 3600 1801 6371200 = .error .overflow ∧
    construct .regular .computed 3600 1801 6371200 = .ok () := by
  refine ⟨?_, ?_, ?_, ?_⟩ <;> rfl

/-- Checking a list of four or five integers at once. -/
theorem fits_all {nlat nlon : ℤ} (hlat : 3 ≤ nlat) (hlon : 4 ≤ nlon) (hmax : nlat ≤ 1280)
    (hlmax : nlon ≤ 1073741824) :
    fitsInt nlat ∧ fitsInt nlon ∧ fitsInt (nlat + 1) ∧ fitsInt (2 * (nlat + 1)) ∧
    fitsInt (4 * nlat * (nlat + 2) + 2) ∧ fitsInt (nlat * (nlat + 4)) ∧
    fitsInt (2 * nlat * (nlat + 1) + 1) := by
  unfold fitsInt
  have q12 : 0 ≤ nlat * nlat := mul_nonneg (by omega) (by omega)
  have q13 : nlat * nlat ≤ 1280 * 1280 := mul_le_mul (by omega) (by omega) (by omega) (by norm_num)
  have r1 : 4 * nlat * (nlat + 2) = 4 * (nlat * nlat) + 8 * nlat := by ring
  have r2 : nlat * (nlat + 4) = nlat * nlat + 4 * nlat := by ring
  have r3 : 2 * nlat * (nlat + 1) = 2 * (nlat * nlat) + 2 * nlat := by ring
  rw [r1, r2, r3]
  omega

/-- **C149** (partial: up to 1280 latitudes, and Gaussian stored grids need `nlat ≤ nlon/2 + 2`). For a positive
radius, `Spharmt` accepts every grid of 3 to 1280 latitudes and at least 4 longitudes, except exactly the
Gaussian grids with stored Legendre functions that have more than `nlon/2 + 2` latitudes. -/
theorem C149_construct_partial (g : Grid) (l : Leg) (nlon nlat : ℤ) (rsphere : ℚ)
    (hlat : 3 ≤ nlat) (hmax : nlat ≤ 1280) (hlon : 4 ≤ nlon) (hlmax : nlon ≤ 1073741824)
    (hr : 0 < rsphere) :
    construct g l nlon nlat rsphere = .ok () ↔
      ¬ (g = .gaussian ∧ l = .stored ∧ nlon / 2 + 2 < nlat) := by
  obtain ⟨f1, f2, f3, f4, f5, f6, f7⟩ := fits_all hlat hlon hmax hlmax
  obtain ⟨g1, g2, g3, g4, g5, g6, g7, g8, g9, g10, g11, g12⟩ := lengths_fit hlat hlon hmax hlmax
  unfold construct
  rw [if_neg (not_not.2 hr), if_neg (by omega), if_neg (by omega)]
  cases g <;> cases l <;> dsimp only
  · simp [initRegularStored, bind_ok, call_ok, shaesi_zero hlat hlon, vhaesi_zero hlat hlon, *]
  · simp [initRegularComputed, bind_ok, call_ok, shaeci_zero hlat hlon, vhaeci_zero hlat hlon, *]
  · have e : n1 nlat nlon = min nlat (nlon / 2 + 1) := (sizes hlat hlon).2.2.2.1
    have k : nlat ≤ n1 nlat nlon + 1 ↔ nlat ≤ nlon / 2 + 2 := by rw [e]; omega
    simp [initGaussianStored, bind_ok, call_ok, shagsi_zero hlat hlon, vhagsi_zero hlat hlon,
      vhsgsi_zero_iff hlat hlon, k, f1, f2, f5, f6, g7, g8, g9, g10]
  · simp [initGaussianComputed, bind_ok, call_ok, shagci_zero hlat hlon, vhagci_zero hlat hlon,
      vhsgci_zero hlat hlon, f1, f2, f6, f7, g11, g12, g6]

/-- Invalid sizes or radius are refused with a `ValidationError` before any routine is called. -/
theorem C149_rejects (g : Grid) (l : Leg) (nlon nlat : ℤ) (rsphere : ℚ)
    (h : rsphere ≤ 0 ∨ nlon < 4 ∨ nlat < 3) :
    construct g l nlon nlat rsphere = .error .validation := by
  unfold construct
  by_cases h1 : rsphere > 0
  · by_cases h2 : nlon ≥ 4
    · by_cases h3 : nlat ≥ 3
      · exfalso
        rcases h with h | h | h
        · linarith
        · omega
        · omega
      · simp [h1, h2, h3]
    · simp [h1, h2]
  · simp [h1]

example : construct .gaussian .stored 144 73 6371200 = .ok () :=
  (C149_construct_partial _ _ _ _ _ (by norm_num) (by norm_num) (by norm_num) (by norm_num)
    (by norm_num)).2 (by norm_num)

/-! ### C150: the transforms accept any number of slices -/

/-- **C150 is false of the code**: on the regular 73 by 144 grid with stored Legendre functions, twenty-five
slices can be analysed for vorticity, or for both parts together, but not for divergence alone. -/
theorem C150_false :
    construct .regular .stored 144 73 6371200 = .ok () ∧
    vectorAnalysis .regular .stored .both 73 144 25 = .ok () ∧
    vectorAnalysis .regular .stored .vrt 73 144 25 = .ok () ∧
    vectorAnalysis .regular .stored .div 73 144 24 = .ok () ∧
    vectorAnalysis .regular .stored .div 73 144 25 = .error (.code 10) := by
  refine ⟨?_, ?_, ?_, ?_, ?_⟩ <;> rfl

section transforms

variable {nlat nlon nt : ℤ} (hlat : 3 ≤ nlat) (hlon : 4 ≤ nlon)
include hlat hlon

theorem shaes_zero (hnt : 0 ≤ nt) :
    shaes nlat nlon nt (lshaes nlat nlon) ((nt + 1) * nlat * nlon) = 0 := by
  obtain ⟨-, e2, e3, -, e5, e6, e7⟩ := sizes hlat hlon
  obtain ⟨b1, b2, b3, b4, b5, b6, b7⟩ := bounds hlat hlon
  unfold shaes lshaes
  simp only [e2, e5, fdiv2]
  generalize n1 nlat nlon = a at *
  generalize n2 nlat = h at *
  have p1 : 0 ≤ h * a * (nlat + nlat - a + 1) :=
    mul_nonneg (mul_nonneg (by omega) (by omega)) (by omega)
  have e : (nt + 1) * nlat * nlon = nt * nlat * nlon + nlat * nlon := by ring
  rw [tdiv2 p1, mul_comm h a, e]
  rw [if_neg (by omega), if_neg (by omega), if_neg (by omega), if_neg (by omega), if_neg (by omega)]

theorem shaec_zero (hnt : 0 ≤ nt) :
    shaec nlat nlon nt (lshaec nlat nlon) (nlat * (nt * nlon + max (3 * n2 nlat) nlon)) = 0 := by
  obtain ⟨-, e2, e3, -, e5, e6, e7⟩ := sizes hlat hlon
  obtain ⟨b1, b2, b3, b4, b5, b6, b7⟩ := bounds hlat hlon
  unfold shaec lshaec
  simp only [e2, e5, fdiv2]
  generalize n1 nlat nlon = a at *
  generalize n2 nlat = h at *
  have p2 : 0 ≤ 3 * ((a - 2) * (nlat + nlat - a - 1)) :=
    mul_nonneg (by omega) (mul_nonneg (by omega) (by omega))
  have e : nlat * (nt * nlon + max (3 * h) nlon)
      = nt * nlat * nlon + max (nlat * nlon) (3 * nlat * h) := by
    rw [mul_add, mul_max_of_nonneg _ _ (by omega : (0:ℤ) ≤ nlat), max_comm]
    congr 1
    · ring
    · congr 1; ring
  rw [tdiv2 p2, e]
  rw [if_neg (by omega), if_neg (by omega), if_neg (by omega), if_neg (by omega), if_neg (by omega)]

theorem shags_zero (hnt : 1 ≤ nt) :
    shags nlat nlon nt (lshags nlat nlon) (nlat * nlon * (nt + 1)) = 0 := by
  obtain ⟨-, e2, e3, -, e5, e6, e7⟩ := sizes hlat hlon
  unfold shags lshags
  simp only [e3, e6, fdiv2]
  rw [tdiv2_even (even2 _ _ _)]
  rw [if_neg (by omega), if_neg (by omega), if_neg (by omega), if_neg (by omega), if_neg (by omega)]

theorem shagc_zero (hnt : 1 ≤ nt) :
    shagc nlat nlon nt (lshagc nlat nlon) (nlat * (nlon * nt + max (3 * n2 nlat) nlon)) = 0 := by
  obtain ⟨-, e2, e3, -, e5, e6, e7⟩ := sizes hlat hlon
  unfold shagc lshagc
  simp only [e3, e6, fdiv2]
  rw [tdiv2_even (even1 _)]
  rw [if_neg (by omega), if_neg (by omega), if_neg (by omega), if_neg (by omega), if_neg (by omega)]

/-- The permanent workspace test of the stored vector transforms. -/
theorem lz_le :
    (min nlat ((nlon + 1) / 2) * (nlat + nlat - min nlat ((nlon + 1) / 2) + 1)).tdiv 2 * n2 nlat +
      (min nlat ((nlon + 1) / 2) * (nlat + nlat - min nlat ((nlon + 1) / 2) + 1)).tdiv 2 * n2 nlat ≤
      n1 nlat nlon * n2 nlat * (nlat + nlat - n1 nlat nlon + 1) := by
  obtain ⟨b1, b2, b3, b4, b5, b6, b7⟩ := bounds hlat hlon
  generalize n1 nlat nlon = a at *
  generalize n2 nlat = h at *
  generalize min nlat ((nlon + 1) / 2) = m at *
  obtain ⟨g1, -⟩ := grow b7 b2
  have p1 : 0 ≤ m * (nlat + nlat - m + 1) := mul_nonneg (by omega) (by omega)
  rw [tdiv2 p1]
  have hx : m * (nlat + nlat - m + 1) / 2 * 2 ≤ a * (nlat + nlat - a + 1) := by omega
  have := mul_le_mul_of_nonneg_left hx (show (0:ℤ) ≤ h by omega)
  calc _ = h * (m * (nlat + nlat - m + 1) / 2 * 2) := by ring
    _ ≤ h * (a * (nlat + nlat - a + 1)) := this
    _ = _ := by ring

theorem vhaes_iff (hnt : 0 ≤ nt) {lvh lw : ℤ}
    (hl : n1 nlat nlon * n2 nlat * (nlat + nlat - n1 nlat nlon + 1) + nlon + 15 ≤ lvh) :
    vhaes nlat nlon nt lvh lw = 0 ↔ (2 * nt + 1) * nlat * nlon ≤ lw := by
  obtain ⟨-, e2, e3, -, e5, e6, e7⟩ := sizes hlat hlon
  have z := lz_le hlat hlon
  unfold vhaes
  simp only [e2, e7]
  have e : (2 * nt + 1) * nlat * nlon = nt * nlat * nlon + nt * nlat * nlon + nlat * nlon := by ring
  rw [if_neg (by omega), if_neg (by omega), if_neg (by omega), if_neg (by omega), e]
  by_cases h : lw < nt * nlat * nlon + nt * nlat * nlon + nlat * nlon
  · rw [if_pos h]; constructor
    · intro h'; norm_num at h'
    · intro h'; omega
  · rw [if_neg h]; simpa using h

theorem vhaec_zero (hnt : 0 ≤ nt) :
    vhaec nlat nlon nt (lvhaec nlat nlon) (nlat * (2 * nt * nlon + max (6 * n2 nlat) nlon)) = 0 := by
  obtain ⟨-, e2, e3, -, e5, e6, e7⟩ := sizes hlat hlon
  obtain ⟨v1, v2, v3⟩ := vec_bounds hlat hlon
  unfold vhaec lvhaec
  simp only [e2, e7]
  have e : 2 * (2 * nlat * n2 nlat) = 4 * nlat * n2 nlat := by ring
  rw [mul_add, e]
  rw [if_neg (by omega), if_neg (by omega), if_neg (by omega), if_neg (by omega), if_neg (by omega)]

theorem vhagc_zero (hnt : 0 ≤ nt) :
    vhagc nlat nlon nt (lvhagc nlat nlon) (2 * nlat * (2 * nlon * nt + 3 * n2 nlat)) = 0 := by
  obtain ⟨-, e2, e3, -, e5, e6, e7⟩ := sizes hlat hlon
  obtain ⟨v1, v2, v3⟩ := vec_bounds hlat hlon
  unfold vhagc lvhagc
  simp only [e2, e7]
  have e : 2 * (2 * nlat * n2 nlat) = 4 * nlat * n2 nlat := by ring
  have e' : 2 * nlat * (2 * nlon * nt + 3 * n2 nlat) = nlat * (4 * nlon * nt + 6 * n2 nlat) := by ring
  rw [mul_add 2 (2 * nlat * n2 nlat), e, e']
  rw [if_neg (by omega), if_neg (by omega), if_neg (by omega), if_neg (by omega), if_neg (by omega)]

/-- The vector workspaces are at least as long as the transforms require. -/
theorem lvhags_le : n1 nlat nlon * n2 nlat * (nlat + nlat - n1 nlat nlon + 1) + nlon + 15 ≤ lvhags nlat nlon := by
  obtain ⟨b1, b2, b3, b4, b5, b6, b7⟩ := bounds hlat hlon
  unfold lvhags
  simp only [fdiv2]
  generalize n1 nlat nlon = a at *
  generalize n2 nlat = h at *
  have g : a * (nlat + nlat - a + 1) ≤ nlat * (nlat + 1) := by nlinarith
  have k : 2 * (a * h * (nlat + nlat - a + 1)) ≤ (nlat + 1) * (nlat + 1) * nlat := by
    have q : 0 ≤ nlat * (nlat + 1) := mul_nonneg (by omega) (by omega)
    have h1 := mul_le_mul_of_nonneg_left g (show (0:ℤ) ≤ 2 * h by omega)
    have h2 := mul_le_mul_of_nonneg_right b4 q
    calc 2 * (a * h * (nlat + nlat - a + 1)) = 2 * h * (a * (nlat + nlat - a + 1)) := by ring
      _ ≤ 2 * h * (nlat * (nlat + 1)) := h1
      _ ≤ (nlat + 1) * (nlat * (nlat + 1)) := h2
      _ = _ := by ring
  omega

/-- The work lengths of one call fit a C `int` when four copies of the data do. -/
theorem works_fit (hnt : 0 ≤ nt)
    (hfit : nlat * (4 * nt * nlon + 4 * max nlat nlon) ≤ 2147483647) :
    fitsInt nlon ∧ fitsInt ((nt + 1) * nlat * nlon) ∧
    fitsInt (nlat * (nt * nlon + max (3 * n2 nlat) nlon)) ∧ fitsInt (nlat * nlon * (nt + 1)) ∧
    fitsInt (nlat * (nlon * nt + max (3 * n2 nlat) nlon)) ∧ fitsInt ((2 * nt + 1) * nlat * nlon) ∧
    fitsInt (nlat * (2 * nt * nlon + max (6 * n2 nlat) nlon)) ∧
    fitsInt (2 * nlat * (2 * nlon * nt + 3 * n2 nlat)) := by
  obtain ⟨b1, b2, b3, b4, b5, b6, b7⟩ := bounds hlat hlon
  unfold fitsInt
  generalize n2 nlat = h at *
  have hp : 0 ≤ nt * nlon := mul_nonneg hnt (by omega)
  have up : ∀ x : ℤ, x ≤ 4 * nt * nlon + 4 * max nlat nlon → nlat * x ≤ 2147483647 := fun x hx =>
    le_trans (mul_le_mul_of_nonneg_left hx (by omega)) hfit
  have lo : ∀ x : ℤ, 0 ≤ x → -2147483648 ≤ nlat * x := fun x hx => by
    have := mul_nonneg (show (0:ℤ) ≤ nlat by omega) hx; omega
  have r0 : 4 * nt * nlon = 4 * (nt * nlon) := by ring
  have r1 : (nt + 1) * nlat * nlon = nlat * (nt * nlon + nlon) := by ring
  have r2 : nlat * nlon * (nt + 1) = nlat * (nt * nlon + nlon) := by ring
  have r3 : nlon * nt = nt * nlon := by ring
  have r4 : (2 * nt + 1) * nlat * nlon = nlat * (2 * (nt * nlon) + nlon) := by ring
  have r5 : 2 * nt * nlon = 2 * (nt * nlon) := by ring
  have r6 : 2 * nlat * (2 * nlon * nt + 3 * h) = nlat * (4 * (nt * nlon) + 6 * h) := by ring
  rw [r0] at up
  rw [r1, r2, r3, r4, r5, r6]
  refine ⟨?_, ⟨lo _ ?_, up _ ?_⟩, ⟨lo _ ?_, up _ ?_⟩, ⟨lo _ ?_, up _ ?_⟩, ⟨lo _ ?_, up _ ?_⟩,
    ⟨lo _ ?_, up _ ?_⟩, ⟨lo _ ?_, up _ ?_⟩, ⟨lo _ ?_, up _ ?_⟩⟩
  · have := up nlon (by omega)
    have : nlon ≤ nlat * nlon := by nlinarith
    omega
  all_goals omega

end transforms

/-- **C150** (partial: the calls whose work array fits a C `int`, and divergence alone on regular stored grids only
up to 24 slices). For at least one slice, with room for four copies of the data below `2^31` elements, every
scalar analysis and synthesis and every vector synthesis is accepted, on each kind of grid; and so is every vector
analysis, except exactly the analysis for divergence alone of more than 24 slices on a regular grid with stored
Legendre functions. -/
theorem C150_slices_partial (g : Grid) (l : Leg) (p : Part) (nlat nlon nt : ℤ)
    (hlat : 3 ≤ nlat) (hlon : 4 ≤ nlon) (hnt : 1 ≤ nt)
    (hfit : nlat * (4 * nt * nlon + 4 * max nlat nlon) ≤ 2147483647) :
    scalarAnalysis g l nlat nlon nt = .ok () ∧ scalarSynthesis g l nlat nlon nt = .ok () ∧
    vectorSynthesis g l p nlat nlon nt = .ok () ∧
    (vectorAnalysis g l p nlat nlon nt = .ok () ↔
      ¬ (g = .regular ∧ l = .stored ∧ p = .div ∧ 24 < nt)) := by
  have hnt0 : 0 ≤ nt := by omega
  obtain ⟨f1, f2, f3, f4, f5, f6, f7, f8⟩ := works_fit hlat hlon hnt0 hfit
  have v1 := vhaes_iff hlat hlon hnt0 (lvh := lvhaes nlat nlon) (lw := (2 * nt + 1) * nlat * nlon)
    (by unfold lvhaes; omega)
  have v2 := vhaes_iff hlat hlon hnt0 (lvh := lvhags nlat nlon) (lw := (2 * nt + 1) * nlat * nlon)
    (lvhags_le hlat hlon)
  have v3 := vhaes_iff hlat hlon hnt0 (lvh := lvhsgs nlat nlon) (lw := (2 * nt + 1) * nlat * nlon)
    (by unfold lvhsgs; omega)
  have v4 := vhaes_iff hlat hlon hnt0 (lvh := lvhaes nlat nlon) (lw := (2 * 24 + 1) * nlat * nlon)
    (by unfold lvhaes; omega)
  have w : (2 * nt + 1) * nlat * nlon ≤ (2 * 24 + 1) * nlat * nlon ↔ nt ≤ 24 := by
    have hpos : 0 < nlat * nlon := mul_pos (by omega) (by omega)
    rw [mul_assoc, mul_assoc, mul_le_mul_iff_left₀ hpos]
    omega
  rw [w] at v4
  simp only [le_refl, iff_true] at v1 v2 v3
  cases g <;> cases l
  · refine ⟨?_, ?_, ?_, ?_⟩
    · simp [scalarAnalysis, call_ok, shaes_zero hlat hlon hnt0, f2]
    · simp [scalarSynthesis, call_ok, shaes_zero hlat hlon hnt0, f1, f2]
    · simp [vectorSynthesis, call_ok, v1, f1, f6]
    · cases p
      · simp [vectorAnalysis, call_ok, v1, f6]
      · simp only [vectorAnalysis, call_ok, v4]; simp
      · simp [vectorAnalysis, call_ok, v1, f6]
  · refine ⟨?_, ?_, ?_, ?_⟩
    · simp [scalarAnalysis, call_ok, shaec_zero hlat hlon hnt0, f3]
    · simp [scalarSynthesis, call_ok, shaec_zero hlat hlon hnt0, f1, f3]
    · simp [vectorSynthesis, call_ok, vhaec_zero hlat hlon hnt0, f1, f7]
    · simp [vectorAnalysis, call_ok, vhaec_zero hlat hlon hnt0, f7]
  · refine ⟨?_, ?_, ?_, ?_⟩
    · simp [scalarAnalysis, call_ok, shags_zero hlat hlon hnt, f4]
    · simp [scalarSynthesis, call_ok, shags_zero hlat hlon hnt, f1, f4]
    · simp [vectorSynthesis, call_ok, v3, f1, f6]
    · simp [vectorAnalysis, call_ok, v2, f6]
  · refine ⟨?_, ?_, ?_, ?_⟩
    · simp [scalarAnalysis, call_ok, shagc_zero hlat hlon hnt, f5]
    · simp [scalarSynthesis, call_ok, shagc_zero hlat hlon hnt, f1, f5]
    · simp [vectorSynthesis, call_ok, vhaec_zero hlat hlon hnt0, f1, f7]
    · simp [vectorAnalysis, call_ok, vhagc_zero hlat hlon hnt0, f8]

/-- The hypotheses are met by a year of daily 2.5 degree fields. -/
example : (73 : ℤ) * (4 * 365 * 144 + 4 * max 73 144) ≤ 2147483647 ∧
    scalarAnalysis .regular .stored 73 144 365 = .ok () :=
  ⟨by norm_num, (C150_slices_partial .regular .stored .both 73 144 365 (by norm_num) (by norm_num)
    (by norm_num) (by norm_num)).1⟩

end Skyborn.Sphere
