/-
`legendre(lat, ntrunc)`: the associated Legendre functions at a latitude.
Modelled: spharm/spherical_harmonics.py:1850-1873, _spherepack_module.c:118-138, src/getlegfunc.f90 and `alfk`, `lfpt` of src/alf.f90.
Exact reals for single precision; memory not initialised is arbitrary. `alfk` is called with orders `m >= 0` only, its branches for negative
orders are left out.
-/
import Verif.Sphere.TrigPoly
import Mathlib.Data.Nat.Factorial.DoubleFactorial
import Mathlib.Analysis.SpecialFunctions.Pow.Real
import Mathlib.Analysis.SpecialFunctions.Trigonometric.Arctan
import Mathlib.Tactic.IntervalCases

namespace Skyborn.Sphere.Leg

/-! ## Model -/

/-- alf.f90 `alfk`: `sc10*sc10`. -/
noncomputable def sc20 : ℝ := 1024 * 1024

/-- alf.f90 `alfk`: `sc20*sc20`. -/
noncomputable def sc40 : ℝ := sc20 * sc20

/-- alf.f90 `alfk`: the variables of the first loop. -/
structure Scale where
  /-- running product, scaled -/ t1 : ℝ
  /-- exponent of the scale -/ nex : ℝ
  /-- next numerator -/ fnum : ℝ
  /-- next denominator -/ fden : ℝ

/-- alf.f90 `alfk`: one pass of the first loop. -/
noncomputable def scaleStep (s : Scale) : Scale :=
  let t1 := s.fnum * s.t1 / s.fden
  if t1 > sc20 then ⟨t1 / sc40, s.nex + 40, s.fnum + 2, s.fden + 2⟩ else ⟨t1, s.nex, s.fnum + 2, s.fden + 2⟩

/-- alf.f90 `alfk`: one pass of the second loop, for `t2` and `fnmh`. -/
noncomputable def ratioStep (pm1 : ℝ) (s : ℝ × ℝ) : ℝ × ℝ := (s.2 * s.1 / (s.2 + pm1), s.2 + 2)

/-- alf.f90 `alfk`: the loop `do while (l > 2)`. -/
noncomputable def down (fnnp1 fnmsq : ℝ) : ℕ → ℝ → (ℕ → ℝ) → ℕ → ℝ
  | l + 3, fk, cp =>
    let fk := fk - 2
    let a1 := (fk - 2) * (fk - 1) - fnnp1
    let b1 := -2 * (fk * fk - fnmsq)
    let c1 := (fk + 1) * (fk + 2) - fnnp1
    down fnnp1 fnmsq (l + 2) fk (Function.update cp (l + 1) (-(b1 * cp (l + 2) + c1 * cp (l + 3)) / a1))
  | _, _, cp => cp

/-- alf.f90 `alfk(n, m, cp)` for `m >= 0`: the coefficients of the trigonometric series; `cp` is counted from 1. -/
noncomputable def alfk (n m : ℕ) (cp : ℕ → ℝ) : ℕ → ℝ :=
  let cp := Function.update cp 1 0
  if m > n then cp
  else if n = 0 then Function.update cp 1 (Real.sqrt 2)
  else if n = 1 then Function.update cp 1 (if m = 0 then Real.sqrt (3 / 2) else Real.sqrt (3 / 4))
  else
    let nmms2 := if (n + m) % 2 = 0 then (n - m) / 2 else (n - m - 1) / 2
    let fnum : ℝ := if (n + m) % 2 = 0 then n + m + 1 else n + m + 2
    let fnmh : ℝ := if (n + m) % 2 = 0 then n - m + 1 else n - m + 2
    let pm1 : ℝ := if (n + m) % 2 = 0 then 1 else -1
    let s := scaleStep^[nmms2] ⟨1 / sc20, 20, fnum, 2⟩
    let t1 := s.t1 / (2 : ℝ) ^ ((n : ℝ) - 1 - s.nex)
    let t1 := if m / 2 % 2 ≠ 0 then -t1 else t1
    let t2 := ((ratioStep pm1)^[m] (1, fnmh)).1
    let cp2 := t1 * Real.sqrt ((n + 1 / 2) * t2)
    let fnnp1 : ℝ := n * (n + 1)
    let fnmsq : ℝ := fnnp1 - 2 * m * m
    let l := if n % 2 = 0 ∧ m % 2 = 0 then (n + 1) / 2 + 1 else (n + 1) / 2
    let cp := Function.update cp l cp2
    if l ≤ 1 then cp
    else
      let fk : ℝ := n
      let a1 := (fk - 2) * (fk - 1) - fnnp1
      let b1 := 2 * (fk * fk - fnmsq)
      down fnnp1 fnmsq l fk (Function.update cp (l - 1) (b1 * cp l / a1))

/-- alf.f90 `lfpt`: the loops, from `k`, for so many passes; state `ct`, `st`, `sum`. -/
noncomputable def lfLoop (cdt sdt : ℝ) (sine : Bool) (cp : ℕ → ℝ) : ℕ → ℕ → ℝ × ℝ × ℝ → ℝ
  | _, 0, s => s.2.2
  | k, c + 1, s =>
    let cth := cdt * s.1 - sdt * s.2.1
    let st := sdt * s.1 + cdt * s.2.1
    lfLoop cdt sdt sine cp (k + 1) c (cth, st, s.2.2 + cp k * (if sine then st else cth))

/-- alf.f90 `lfpt(n, m, theta, cp, pb)` for `m >= 0`: the value of the series. -/
noncomputable def lfpt (n m : ℕ) (theta : ℝ) (cp : ℕ → ℝ) : ℝ :=
  if m > n then 0
  else if n = 0 then (if m = 0 then Real.sqrt (1 / 2) else 0)
  else
    let cdt := Real.cos (theta + theta)
    let sdt := Real.sin (theta + theta)
    if n % 2 = 0 then
      if m % 2 = 0 then lfLoop cdt sdt false cp 2 (n / 2 + 1 - 1) (1, 0, 1 / 2 * cp 1)
      else lfLoop cdt sdt true cp 1 (n / 2) (1, 0, 0)
    else if m % 2 = 0 then lfLoop cdt sdt false cp 1 ((n + 1) / 2) (Real.cos theta, -Real.sin theta, 0)
    else lfLoop cdt sdt true cp 1 ((n + 1) / 2) (Real.cos theta, -Real.sin theta, 0)

/-- getlegfunc.f90, the loop over `n` (so many passes from `n`); state: work array and result, counted from 1. -/
noncomputable def degrees (theta : ℝ) (m nmstrt : ℕ) : ℕ → ℕ → (ℕ → ℝ) × (ℕ → ℝ) → (ℕ → ℝ) × (ℕ → ℝ)
  | _, 0, s => s
  | n, c + 1, s =>
    let nm := nmstrt + n - m + 1
    let cp := alfk (n - 1) (m - 1) s.1
    degrees theta m nmstrt (n + 1) c (cp, Function.update s.2 nm (lfpt (n - 1) (m - 1) theta cp))

/-- getlegfunc.f90, the loop over `m` (so many passes from `m`); the terms of the next start are in another order, natural numbers have no sign. -/
noncomputable def orders (theta : ℝ) (ntrunc : ℕ) : ℕ → ℕ → ℕ → (ℕ → ℝ) × (ℕ → ℝ) → (ℕ → ℝ) × (ℕ → ℝ)
  | _, 0, _, s => s
  | m, c + 1, nmstrt, s => orders theta ntrunc (m + 1) c (nmstrt + ntrunc + 2 - m) (degrees theta m nmstrt m (ntrunc + 1 - m + 1) s)

/-- getlegfunc.f90 `getlegfunc`, with arbitrary first contents of the work array and the result. -/
noncomputable def getlegfunc (lat : ℝ) (ntrunc : ℕ) (cp0 leg0 : ℕ → ℝ) : ℕ → ℝ :=
  let pi := 4 * Real.arctan 1
  let theta := 1 / 2 * pi - (pi / 180) * lat
  (orders theta ntrunc 1 (ntrunc + 1) 0 (cp0, leg0)).2

open Classical in
/-- spherical_harmonics.py:1850-1873 `legendre` with _spherepack_module.c:118-138; `none`: `ValidationError`. -/
noncomputable def legendre (lat : ℝ) (ntrunc : ℤ) (cp0 leg0 : ℕ → ℝ) : Option (List ℝ) :=
  if ¬ (-90 ≤ lat ∧ lat ≤ 90) then none
  else if ntrunc < 0 then none
  else some ((List.range ((ntrunc.toNat + 1) * (ntrunc.toNat + 2) / 2)).map fun i => getlegfunc lat ntrunc.toNat cp0 leg0 (i + 1))

/-! ## Specification -/

/-- Colatitude in radians. -/
noncomputable def Spec.colat (lat : ℝ) : ℝ := (90 - lat) * (Real.pi / 180)

/-- Where degree `n` of order `m` stands: after all degrees of the orders below, in ascending degree. -/
def Spec.place (T m n : ℕ) : ℕ := ∑ k ∈ Finset.range m, (T + 1 - k) + (n - m)

/-! ## The leading coefficient -/

private theorem scale_iter (fnum : ℝ) (i : ℕ) : let s := scaleStep^[i] ⟨1 / sc20, 20, fnum, 2⟩
    s.t1 * (2 : ℝ) ^ s.nex = ∏ j ∈ Finset.range i, ((fnum + 2 * j) / (2 + 2 * j)) ∧ s.fnum = fnum + 2 * i ∧ s.fden = 2 + 2 * i := by
  induction i with
  | zero =>
    refine ⟨?_, by simp, by simp⟩
    simp only [Function.iterate_zero, id, Finset.range_zero, Finset.prod_empty, sc20]
    rw [show (20 : ℝ) = ((20 : ℕ) : ℝ) by norm_num, Real.rpow_natCast]; norm_num
  | succ i ih =>
    rw [Function.iterate_succ_apply']
    generalize scaleStep^[i] ⟨1 / sc20, 20, fnum, 2⟩ = s at *
    obtain ⟨h1, h2, h3⟩ := ih
    dsimp only at h1 h2 h3 ⊢
    have e40 : (2 : ℝ) ^ (s.nex + 40) = 2 ^ s.nex * sc40 := by
      rw [Real.rpow_add (by norm_num), show (40 : ℝ) = ((40 : ℕ) : ℝ) by norm_num, Real.rpow_natCast]; norm_num [sc40, sc20]
    have h40 : sc40 ≠ 0 := by norm_num [sc40, sc20]
    rw [Finset.prod_range_succ, ← h1, ← h2, ← h3]
    unfold scaleStep
    dsimp only
    split_ifs with h
    · refine ⟨?_, by push_cast; linarith, by push_cast; linarith⟩
      dsimp only
      rw [e40]
      field_simp
    · refine ⟨?_, by push_cast; linarith, by push_cast; linarith⟩
      dsimp only
      ring

private theorem ratio_iter (pm1 fnmh : ℝ) (i : ℕ) : ((ratioStep pm1)^[i] (1, fnmh)).1 = ∏ j ∈ Finset.range i, ((fnmh + 2 * j) / (fnmh + 2 * j + pm1)) ∧
    ((ratioStep pm1)^[i] (1, fnmh)).2 = fnmh + 2 * i := by
  induction i with
  | zero => simp
  | succ i ih =>
    rw [Function.iterate_succ_apply', Finset.prod_range_succ, ← ih.1]
    obtain ⟨-, h2⟩ := ih
    generalize (ratioStep pm1)^[i] (1, fnmh) = s at *
    unfold ratioStep
    dsimp only
    rw [h2]
    constructor
    · ring
    · push_cast; ring

/-- Double factorial as a real number. -/
private noncomputable def D (k : ℕ) : ℝ := (Nat.doubleFactorial k : ℝ)

private theorem D_pos (k : ℕ) : 0 < D k := by unfold D; exact_mod_cast Nat.doubleFactorial_pos k

private theorem D_fact (k : ℕ) : (k.factorial : ℝ) = D k * D (k - 1) := by
  unfold D
  cases k with
  | zero => simp
  | succ k => rw [Nat.factorial_eq_mul_doubleFactorial, Nat.add_sub_cancel]; push_cast; rfl

private theorem D_up (b s : ℕ) : (∏ i ∈ Finset.range s, ((b : ℝ) + 1 + 2 * i)) * D (b - 1) = D (b + 2 * s - 1) := by
  induction s with
  | zero => simp
  | succ s ih =>
    rw [Finset.prod_range_succ, mul_right_comm, ih]
    unfold D
    rcases Nat.eq_zero_or_pos (b + 2 * s) with h | h
    · obtain ⟨rfl, rfl⟩ : b = 0 ∧ s = 0 := by omega
      simp
    · rw [show b + 2 * (s + 1) - 1 = (b + 2 * s - 1) + 2 by omega, Nat.doubleFactorial_add_two]
      have : ((b + 2 * s - 1 + 2 : ℕ) : ℝ) = b + 1 + 2 * s := by
        rw [show b + 2 * s - 1 + 2 = b + 2 * s + 1 by omega]; push_cast; ring
      rw [Nat.cast_mul, this]; ring

private theorem D_two (n : ℕ) : D (2 * n) = 2 ^ n * n.factorial := by
  unfold D; rw [Nat.doubleFactorial_two_mul]; push_cast; ring

private theorem prod_pos' (b : ℝ) (hb : 0 ≤ b) (s : ℕ) : 0 < ∏ i ∈ Finset.range s, (b + 1 + 2 * (i : ℝ)) :=
  Finset.prod_pos fun i _ => by positivity

/-- The products of `alfk` and the factorials. -/
private theorem key_fact (m n s : ℕ) (A t2 : ℝ) (hA : 0 < A) (h : m ≤ n)
    (hh : (n + m = 2 * s + 2 * m ∧ A = ∏ i ∈ Finset.range s, ((((n + m : ℕ) : ℝ) + 1 + 2 * i) / (2 + 2 * i)) ∧
        t2 = ∏ i ∈ Finset.range m, ((((n - m : ℕ) : ℝ) + 1 + 2 * i) / (((n - m : ℕ) : ℝ) + 1 + 1 + 2 * i))) ∨
      (n + m = 2 * s + 1 + 2 * m ∧ A = ∏ i ∈ Finset.range s, ((((n + m : ℕ) : ℝ) + 1 + 1 + 2 * i) / (2 + 2 * i)) ∧
        t2 = ∏ i ∈ Finset.range m, ((((n - m : ℕ) : ℝ) + 1 + 1 + 2 * i) / (((n - m : ℕ) : ℝ) + 1 + 2 * i)))) :
    A ^ 2 * t2 * ((n + m).factorial * (n - m).factorial) * (2 ^ n * n.factorial) ^ 2 = ((2 * n).factorial : ℝ) ^ 2 := by
  have hden : (∏ i ∈ Finset.range s, ((2 : ℝ) + 2 * i)) = D (2 * s) := by
    have := D_up 1 s
    rw [show 1 + 2 * s - 1 = 2 * s by omega, show D (1 - 1) = 1 by simp [D], mul_one] at this
    rw [← this]
    refine Finset.prod_congr rfl fun i _ => ?_
    push_cast; ring
  rw [D_fact (2 * n), D_fact (n + m), D_fact (n - m), D_two]
  have p1 := D_pos (n + m)
  have p2 := D_pos (n + m - 1)
  have p3 := D_pos (n - m)
  have p4 := D_pos (n - m - 1)
  have p5 := D_pos (2 * s)
  have hF : (0 : ℝ) < 2 ^ n * n.factorial := by positivity
  rcases hh with ⟨hs, rfl, rfl⟩ | ⟨hs, rfl, rfl⟩
  · rw [Finset.prod_div_distrib, Finset.prod_div_distrib, hden]
    have u1 := D_up (n + m) s
    rw [show n + m + 2 * s - 1 = 2 * n - 1 by omega] at u1
    have u2 := D_up (n - m) m
    rw [show n - m + 2 * m - 1 = n + m - 1 by omega] at u2
    have u3 := D_up (n - m + 1) m
    rw [show n - m + 1 + 2 * m - 1 = n + m by omega, Nat.add_sub_cancel] at u3
    have q3 := prod_pos' (((n - m : ℕ) : ℝ) + 1) (by positivity) m
    push_cast [Nat.cast_add] at u1 u2 u3
    rw [Nat.cast_sub h] at *
    push_cast at *
    rw [show D (n - m) = D (2 * s) by congr 1; omega] at *
    generalize (∏ i ∈ Finset.range s, ((n : ℝ) + m + 1 + 2 * i)) = a1 at *
    generalize (∏ i ∈ Finset.range m, ((n : ℝ) - m + 1 + 2 * i)) = a2 at *
    generalize (∏ i ∈ Finset.range m, ((n : ℝ) - m + 1 + 1 + 2 * i)) = a3 at *
    rw [← u1]
    have h3 : D (2 * s) = D (n + m) / a3 := by field_simp; linarith
    have h2 : D (n - m - 1) * a2 = D (n + m - 1) := by linarith
    have e : D (n + m) = a3 * D (2 * s) := by linarith
    rw [e, ← h2]
    field_simp
  · rw [Finset.prod_div_distrib, Finset.prod_div_distrib, hden]
    have u1 := D_up (n + m + 1) s
    rw [show n + m + 1 + 2 * s - 1 = 2 * n - 1 by omega, Nat.add_sub_cancel] at u1
    have u2 := D_up (n - m) m
    rw [show n - m + 2 * m - 1 = n + m - 1 by omega] at u2
    have u3 := D_up (n - m + 1) m
    rw [show n - m + 1 + 2 * m - 1 = n + m by omega, Nat.add_sub_cancel] at u3
    have q2 := prod_pos' ((n - m : ℕ) : ℝ) (by positivity) m
    push_cast [Nat.cast_add] at u1 u2 u3
    rw [Nat.cast_sub h] at *
    push_cast at *
    rw [show D (n - m - 1) = D (2 * s) by congr 1; omega] at *
    generalize (∏ i ∈ Finset.range s, ((n : ℝ) + m + 1 + 1 + 2 * i)) = a1 at *
    generalize (∏ i ∈ Finset.range m, ((n : ℝ) - m + 1 + 2 * i)) = a2 at *
    generalize (∏ i ∈ Finset.range m, ((n : ℝ) - m + 1 + 1 + 2 * i)) = a3 at *
    rw [← u1, ← u2, ← u3]
    field_simp

private theorem lead_eq (m n : ℕ) (hn : 1 ≤ n) (h : m ≤ n) (A t2 : ℝ) (hA : 0 < A)
    (hk : A ^ 2 * t2 * ((n + m).factorial * (n - m).factorial) * (2 ^ n * n.factorial) ^ 2 = ((2 * n).factorial : ℝ) ^ 2) :
    A / 2 ^ (n - 1) * Real.sqrt ((n + 1 / 2) * t2) = 2 * lead m n := by
  have f1 : (0 : ℝ) < (n + m).factorial := by positivity
  have f2 : (0 : ℝ) < (n - m).factorial := by positivity
  have f3 : (0 : ℝ) < n.factorial := by positivity
  have f4 : (0 : ℝ) < (2 * n).factorial := by positivity
  have f5 : (0 : ℝ) < 2 ^ n := by positivity
  have e : ((n : ℝ) + 1 / 2) * t2 = ((2 * n + 1) * (n - m).factorial / (2 * (n + m).factorial)) * ((2 * n).factorial / ((n - m).factorial * (2 ^ n * n.factorial) * A)) ^ 2 := by
    field_simp
    rw [← hk]
    ring
  rw [e, Real.sqrt_mul (by positivity), Real.sqrt_sq (by positivity)]
  unfold lead Sphere.norm
  have h2 : (2 : ℝ) ^ n = 2 * 2 ^ (n - 1) := by rw [← pow_succ']; congr 1; omega
  rw [h2]
  field_simp

/-! ## The recurrence -/

/-- alf.f90 `alfk`: the expression of one pass of the downward loop. -/
private noncomputable def one (fnnp1 fnmsq fk x y : ℝ) : ℝ :=
  -(-2 * (fk * fk - fnmsq) * x + ((fk + 1) * (fk + 2) - fnnp1) * y) / ((fk - 2) * (fk - 1) - fnnp1)

private theorem down_spec (fnnp1 fnmsq : ℝ) : ∀ (l : ℕ) (fk : ℝ) (cp : ℕ → ℝ), 2 ≤ l → (∀ i, l - 1 ≤ i → down fnnp1 fnmsq l fk cp i = cp i) ∧
    ∀ i, 2 ≤ i → i < l → down fnnp1 fnmsq l fk cp (i - 1) = one fnnp1 fnmsq (fk - 2 * (l - i : ℕ)) (down fnnp1 fnmsq l fk cp i) (down fnnp1 fnmsq l fk cp (i + 1))
  | 2, fk, cp, _ => ⟨fun _ _ => rfl, fun i h1 h2 => by omega⟩
  | l + 3, fk, cp, _ => by
    obtain ⟨h1, h2⟩ := down_spec fnnp1 fnmsq (l + 2) (fk - 2) (Function.update cp (l + 1) (one fnnp1 fnmsq (fk - 2) (cp (l + 2)) (cp (l + 3)))) (by omega)
    have e : down fnnp1 fnmsq (l + 3) fk cp = down fnnp1 fnmsq (l + 2) (fk - 2) (Function.update cp (l + 1) (one fnnp1 fnmsq (fk - 2) (cp (l + 2)) (cp (l + 3)))) := rfl
    rw [e]
    refine ⟨fun i hi => ?_, fun i hi hil => ?_⟩
    · rw [h1 i (by omega), Function.update_of_ne (by omega)]
    · rcases Nat.lt_or_ge i (l + 2) with h' | h'
      · rw [h2 i hi h']
        congr 1
        rw [show l + 3 - i = (l + 2 - i) + 1 by omega]; push_cast; ring
      · have : i = l + 2 := by omega
        subst this
        rw [h1 (l + 2 - 1) (by omega), h1 (l + 2) (by omega), h1 (l + 2 + 1) (by omega), show l + 2 - 1 = l + 1 by omega, Function.update_self,
          Function.update_of_ne (by omega), Function.update_of_ne (by omega), show l + 3 - (l + 2) = 1 by omega]
        norm_num

/-- Where the leading coefficient stands. -/
private def last (n m : ℕ) : ℕ := if n % 2 = 0 ∧ m % 2 = 0 then (n + 1) / 2 + 1 else (n + 1) / 2

private theorem alfk_spec (n m : ℕ) (hn : 2 ≤ n) (h : m ≤ n) (cp : ℕ → ℝ) :
    alfk n m cp (last n m) = 2 * ((-1) ^ (m / 2) * lead m n) ∧
    ∀ i, 2 ≤ i → i ≤ last n m → alfk n m cp (i - 1) = one (n * (n + 1)) (n * (n + 1) - 2 * m * m) (n - 2 * (last n m - i : ℕ)) (alfk n m cp i)
      (if i = last n m then 0 else alfk n m cp (i + 1)) := by
  unfold alfk
  dsimp only
  rw [if_neg (by omega : ¬ m > n), if_neg (by omega : ¬ n = 0), if_neg (by omega : ¬ n = 1)]
  change _ ∧ _
  rw [show (if n % 2 = 0 ∧ m % 2 = 0 then (n + 1) / 2 + 1 else (n + 1) / 2) = last n m from rfl]
  set cp2 : ℝ := _ * Real.sqrt _ with hcp2
  have htop : cp2 = 2 * ((-1) ^ (m / 2) * lead m n) := by
    rw [hcp2]
    set s := if (n + m) % 2 = 0 then (n - m) / 2 else (n - m - 1) / 2 with hs
    have hA : ∀ f : ℝ, 0 ≤ f → 0 < ∏ j ∈ Finset.range s, ((f + 2 * j) / (2 + 2 * j)) ∨ f = 0 := fun f hf => by
      rcases hf.lt_or_eq with h' | h'
      · exact Or.inl (Finset.prod_pos fun j _ => by positivity)
      · exact Or.inr h'.symm
    generalize hf : (if (n + m) % 2 = 0 then ((n : ℝ) + m + 1) else n + m + 2) = fnum
    have hf0 : 0 < fnum := by rw [← hf]; split_ifs <;> positivity
    have hApos : 0 < ∏ j ∈ Finset.range s, ((fnum + 2 * j) / (2 + 2 * j)) := Finset.prod_pos fun j _ => by positivity
    obtain ⟨h1, -, -⟩ := scale_iter fnum s
    generalize scaleStep^[s] ⟨1 / sc20, 20, fnum, 2⟩ = S at *
    rw [(ratio_iter _ _ m).1]
    have e1 : S.t1 / (2 : ℝ) ^ ((n : ℝ) - 1 - S.nex) = (∏ j ∈ Finset.range s, ((fnum + 2 * j) / (2 + 2 * j))) / 2 ^ (n - 1) := by
      rw [← h1, Real.rpow_sub (by norm_num), show ((n : ℝ) - 1) = ((n - 1 : ℕ) : ℝ) by rw [Nat.cast_sub (by omega)]; norm_num, Real.rpow_natCast]
      have : (0 : ℝ) < 2 ^ S.nex := by positivity
      field_simp
    rw [e1]
    have hc : ((n - m : ℕ) : ℝ) = n - m := Nat.cast_sub h
    have hl := lead_eq m n (by omega) h _ (∏ j ∈ Finset.range m, (((if (n + m) % 2 = 0 then (n : ℝ) - m + 1 else n - m + 2) + 2 * j) /
      ((if (n + m) % 2 = 0 then (n : ℝ) - m + 1 else n - m + 2) + 2 * j + (if (n + m) % 2 = 0 then 1 else -1)))) hApos (key_fact m n s _ _ hApos h (by
        by_cases hp : (n + m) % 2 = 0
        · left
          rw [if_pos hp] at hs
          refine ⟨by omega, ?_, ?_⟩
          · rw [← hf, if_pos hp]; push_cast; rfl
          · simp only [if_pos hp, hc]
            refine Finset.prod_congr rfl fun j _ => ?_
            congr 1; ring
        · right
          rw [if_neg hp] at hs
          refine ⟨by omega, ?_, ?_⟩
          · rw [← hf, if_neg hp]
            refine Finset.prod_congr rfl fun j _ => ?_
            congr 1; push_cast; ring
          · simp only [if_neg hp, hc]
            refine Finset.prod_congr rfl fun j _ => ?_
            congr 1 <;> ring))
    by_cases hq : m / 2 % 2 = 0
    · rw [if_neg (by omega), hl, Even.neg_one_pow (Nat.even_iff.2 hq)]; ring
    · rw [if_pos (by omega), neg_mul, hl, Odd.neg_one_pow (Nat.odd_iff.2 (by omega))]; ring
  clear_value cp2
  have hL : 1 ≤ last n m := by unfold last; split_ifs <;> omega
  generalize last n m = L at *
  by_cases hL1 : L ≤ 1
  · rw [if_pos hL1]
    exact ⟨by rw [Function.update_self, htop], fun i h1 h2 => by omega⟩
  rw [if_neg hL1]
  obtain ⟨d1, d2⟩ := down_spec (n * (n + 1)) (n * (n + 1) - 2 * m * m) L n (Function.update (Function.update (Function.update cp 1 0) L cp2) (L - 1)
    (2 * ((n : ℝ) * n - (n * (n + 1) - 2 * m * m)) * (Function.update (Function.update cp 1 0) L cp2) L / (((n : ℝ) - 2) * (n - 1) - n * (n + 1)))) (by omega)
  refine ⟨?_, fun i h1 h2 => ?_⟩
  · rw [d1 _ (by omega), Function.update_of_ne (by omega), Function.update_self, htop]
  · rcases Nat.lt_or_ge i L with h' | h'
    · rw [d2 i h1 h', if_neg (by omega)]
    · have : i = L := by omega
      subst this
      rw [d1 (i - 1) (by omega), d1 i (by omega), if_pos rfl, Nat.sub_self]
      rw [Function.update_self, Function.update_of_ne (show i ≠ i - 1 by omega), Function.update_self]
      unfold one
      congr 1
      · push_cast; ring
      · push_cast; ring

/-- What `alfk` computes, as a series in all harmonics. -/
private noncomputable def harm (n m : ℕ) (r : ℕ → ℝ) (k : ℕ) : ℝ := if k ≤ n ∧ n % 2 = k % 2 then r (last n m - (n - k) / 2) else 0

private theorem harm_top (n m : ℕ) (r : ℕ → ℝ) : harm n m r n = r (last n m) := by simp [harm]

private theorem harm_high (n m : ℕ) (r : ℕ → ℝ) (k : ℕ) (h : n < k) : harm n m r k = 0 := by unfold harm; rw [if_neg (by omega)]

private theorem harm_at (n m : ℕ) (r : ℕ → ℝ) (k : ℕ) (h : k ≤ n) (hp : n % 2 = k % 2) : harm n m r k = r (last n m - (n - k) / 2) := by
  unfold harm; rw [if_pos ⟨h, hp⟩]

private theorem harm_off (n m : ℕ) (r : ℕ → ℝ) (k : ℕ) (hp : n % 2 ≠ k % 2) : harm n m r k = 0 := by unfold harm; rw [if_neg (by omega)]

private theorem harm_rec (n m : ℕ) (hn : 2 ≤ n) (h : m ≤ n) (cp : ℕ → ℝ) (k : ℕ) (hk : k < n) (h0 : m % 2 = 1 → 1 ≤ k) :
    ((n : ℝ) * (n + 1) - k * (k + 1)) * harm n m (alfk n m cp) k + (4 * (m : ℝ) ^ 2 - 2 * ((n : ℝ) * (n + 1) - ((k : ℝ) + 2) ^ 2)) * harm n m (alfk n m cp) (k + 2)
      + ((n : ℝ) * (n + 1) - ((k : ℝ) + 4) * ((k : ℝ) + 3)) * harm n m (alfk n m cp) (k + 4) = 0 := by
  by_cases hp : n % 2 = k % 2
  · have hL : last n m - (n - k) / 2 ≥ 1 ∧ (n - k) / 2 < last n m := by
      unfold last; split_ifs <;> omega
    obtain ⟨-, hs⟩ := alfk_spec n m hn h cp
    generalize alfk n m cp = r at *
    have := hs (last n m - (n - k) / 2 + 1) (by omega) (by omega)
    rw [Nat.add_sub_cancel] at this
    have hfk : ((n : ℝ) - 2 * (last n m - (last n m - (n - k) / 2 + 1) : ℕ)) = k + 2 := by
      have : n = k + 2 + 2 * (last n m - (last n m - (n - k) / 2 + 1)) := by omega
      have := congrArg (fun x : ℕ => (x : ℝ)) this
      push_cast at this
      push_cast
      linarith
    rw [hfk] at this
    have h1 : harm n m r k = r (last n m - (n - k) / 2) := by unfold harm; rw [if_pos ⟨by omega, hp⟩]
    have h2 : harm n m r (k + 2) = r (last n m - (n - k) / 2 + 1) := by
      unfold harm; rw [if_pos ⟨by omega, by omega⟩]; congr 1; omega
    have h3 : harm n m r (k + 4) = if last n m - (n - k) / 2 + 1 = last n m then 0 else r (last n m - (n - k) / 2 + 1 + 1) := by
      unfold harm
      by_cases h4 : k + 4 ≤ n
      · rw [if_pos ⟨h4, by omega⟩, if_neg (by omega)]; congr 1; omega
      · rw [if_neg (by omega), if_pos (by omega)]
    rw [h1, h2, h3, this]
    unfold one
    have hne : ((k : ℝ) + 2 - 2) * (k + 2 - 1) - n * (n + 1) ≠ 0 := by
      have : (k : ℝ) < n := by exact_mod_cast hk
      have : (0 : ℝ) ≤ k := Nat.cast_nonneg k
      nlinarith
    field_simp
    ring
  · unfold harm
    rw [if_neg (by omega), if_neg (by omega), if_neg (by omega)]; ring

/-! ## The series -/

private theorem lfLoop_spec (θ : ℝ) (sine : Bool) (cp : ℕ → ℝ) : ∀ (c k : ℕ) (φ S : ℝ),
    lfLoop (Real.cos (θ + θ)) (Real.sin (θ + θ)) sine cp k c (Real.cos φ, Real.sin φ, S)
      = S + ∑ i ∈ Finset.range c, cp (k + i) * (if sine then Real.sin (φ + 2 * (i + 1) * θ) else Real.cos (φ + 2 * (i + 1) * θ))
  | 0, k, φ, S => by simp [lfLoop]
  | c + 1, k, φ, S => by
    unfold lfLoop
    dsimp only
    have e1 : Real.cos (θ + θ) * Real.cos φ - Real.sin (θ + θ) * Real.sin φ = Real.cos (φ + 2 * θ) := by
      rw [← Real.cos_add]; congr 1; ring
    have e2 : Real.sin (θ + θ) * Real.cos φ + Real.cos (θ + θ) * Real.sin φ = Real.sin (φ + 2 * θ) := by
      rw [← Real.sin_add]; congr 1; ring
    rw [e1, e2, lfLoop_spec θ sine cp c (k + 1) (φ + 2 * θ), Finset.sum_range_succ', add_assoc, add_comm (∑ _ ∈ _, _)]
    congr 2
    · simp
    · refine Finset.sum_congr rfl fun i _ => ?_
      rw [show k + 1 + i = k + (i + 1) by ring, show φ + 2 * θ + 2 * ((i : ℝ) + 1) * θ = φ + 2 * (((i + 1 : ℕ) : ℝ) + 1) * θ by push_cast; ring]

private theorem sum_even (f : ℕ → ℝ) (hf : ∀ i, f (2 * i + 1) = 0) (p : ℕ) : ∑ k ∈ Finset.range (2 * p), f (k + 1) = ∑ i ∈ Finset.range p, f (2 * (i + 1)) := by
  induction p with
  | zero => simp
  | succ p ih =>
    rw [show 2 * (p + 1) = 2 * p + 1 + 1 by ring, Finset.sum_range_succ, Finset.sum_range_succ, ih, Finset.sum_range_succ, hf]
    rw [show 2 * p + 1 + 1 = 2 * (p + 1) by ring]; ring

private theorem sum_odd (f : ℕ → ℝ) (hf : ∀ i, f (2 * i + 2) = 0) (p : ℕ) : ∑ k ∈ Finset.range (2 * p + 1), f (k + 1) = ∑ i ∈ Finset.range (p + 1), f (2 * i + 1) := by
  induction p with
  | zero => simp
  | succ p ih =>
    rw [show 2 * (p + 1) + 1 = 2 * p + 1 + 1 + 1 by ring, Finset.sum_range_succ, Finset.sum_range_succ, ih, Finset.sum_range_succ _ (p + 1), hf]
    rw [show 2 * p + 1 + 1 + 1 = 2 * (p + 1) + 1 by ring]; ring

/-- The two routines together give the normalised associated Legendre function, whatever the work array had before. -/
theorem lfpt_alfk (n m : ℕ) (h : m ≤ n) (θ : ℝ) (cp : ℕ → ℝ) : lfpt n m θ (alfk n m cp) = pbar m n θ := by
  rcases Nat.lt_or_ge n 2 with hn | hn
  · have hc : (n = 0 ∧ m = 0) ∨ (n = 1 ∧ m = 0) ∨ (n = 1 ∧ m = 1) := by omega
    rcases hc with ⟨rfl, rfl⟩ | ⟨rfl, rfl⟩ | ⟨rfl, rfl⟩
    · unfold lfpt pbar Sphere.norm rod
      simp
    · have e := lfLoop_spec θ false (alfk 1 0 cp) 1 1 (-θ) 0
      rw [Real.cos_neg, Real.sin_neg] at e
      unfold lfpt
      norm_num
      rw [e]
      unfold alfk pbar Sphere.norm rod
      norm_num
      ring_nf
    · have e := lfLoop_spec θ true (alfk 1 1 cp) 1 1 (-θ) 0
      rw [Real.cos_neg, Real.sin_neg] at e
      unfold lfpt
      norm_num
      rw [e]
      unfold alfk pbar Sphere.norm rod
      norm_num
      ring_nf
  · have htop := (alfk_spec n m hn h cp).1
    have hrec := harm_rec n m hn h cp
    have ht := harm_top n m (alfk n m cp)
    have hh := harm_high n m (alfk n m cp)
    unfold lfpt
    rw [if_neg (by omega), if_neg (by omega)]
    dsimp only
    have i0 := lfLoop_spec θ
    rcases Nat.even_or_odd' m with ⟨q, rfl | rfl⟩
    · have hs := series_even q n h _ (by rw [ht, htop, show 2 * q / 2 = q by omega]) hh (fun k hk => hrec k hk (by omega)) θ
      rw [hs]
      rcases Nat.even_or_odd' n with ⟨p, rfl | rfl⟩
      · rw [if_pos (by omega), if_pos (by omega)]
        have e := i0 false (alfk (2 * p) (2 * q) cp) (2 * p / 2 + 1 - 1) 2 0 (1 / 2 * alfk (2 * p) (2 * q) cp 1)
        rw [Real.cos_zero, Real.sin_zero] at e
        rw [e, show 2 * p / 2 + 1 - 1 = p by omega]
        have hz := sum_even (fun k => harm (2 * p) (2 * q) (alfk (2 * p) (2 * q) cp) k * Real.cos (k * θ)) (fun i => by
          rw [harm_off _ _ _ _ (by omega), zero_mul]) p
        push_cast at hz
        rw [hz]
        have hl : last (2 * p) (2 * q) = p + 1 := by unfold last; rw [if_pos (by omega)]; omega
        congr 1
        · rw [harm_at _ _ _ _ (by omega) (by omega), hl, show p + 1 - (2 * p - 0) / 2 = 1 by omega]; ring
        · refine Finset.sum_congr rfl fun i hi => ?_
          rw [Finset.mem_range] at hi
          rw [harm_at _ _ _ _ (by omega) (by omega), hl, show p + 1 - (2 * p - 2 * (i + 1)) / 2 = 2 + i by omega]
          simp
      · rw [if_neg (by omega), if_pos (by omega)]
        have e := i0 false (alfk (2 * p + 1) (2 * q) cp) ((2 * p + 1 + 1) / 2) 1 (-θ) 0
        rw [Real.cos_neg, Real.sin_neg] at e
        rw [e, show (2 * p + 1 + 1) / 2 = p + 1 by omega]
        have hz := sum_odd (fun k => harm (2 * p + 1) (2 * q) (alfk (2 * p + 1) (2 * q) cp) k * Real.cos (k * θ)) (fun i => by
          rw [harm_off _ _ _ _ (by omega), zero_mul]) p
        push_cast at hz
        rw [hz]
        have hl : last (2 * p + 1) (2 * q) = p + 1 := by unfold last; rw [if_neg (by omega)]; omega
        congr 1
        · rw [harm_off _ _ _ _ (by omega)]; ring
        · refine Finset.sum_congr rfl fun i hi => ?_
          rw [Finset.mem_range] at hi
          rw [harm_at _ _ _ _ (by omega) (by omega), hl, show p + 1 - (2 * p + 1 - (2 * i + 1)) / 2 = 1 + i by omega]
          simp only [Bool.false_eq_true, if_false]
          congr 2; ring
    · have hs := series_odd q n h _ (by rw [ht, htop, show (2 * q + 1) / 2 = q by omega]) hh (fun k h1 hk => hrec k hk (fun _ => h1)) θ
      rw [hs]
      rcases Nat.even_or_odd' n with ⟨p, rfl | rfl⟩
      · rw [if_pos (by omega), if_neg (by omega)]
        have e := i0 true (alfk (2 * p) (2 * q + 1) cp) (2 * p / 2) 1 0 0
        rw [Real.cos_zero, Real.sin_zero] at e
        rw [e, show 2 * p / 2 = p by omega]
        have hz := sum_even (fun k => harm (2 * p) (2 * q + 1) (alfk (2 * p) (2 * q + 1) cp) k * Real.sin (k * θ)) (fun i => by
          rw [harm_off _ _ _ _ (by omega), zero_mul]) p
        push_cast at hz
        rw [hz, zero_add]
        have hl : last (2 * p) (2 * q + 1) = p := by unfold last; rw [if_neg (by omega)]; omega
        refine Finset.sum_congr rfl fun i hi => ?_
        rw [Finset.mem_range] at hi
        rw [harm_at _ _ _ _ (by omega) (by omega), hl, show p - (2 * p - 2 * (i + 1)) / 2 = 1 + i by omega]
        simp
      · rw [if_neg (by omega), if_neg (by omega)]
        have e := i0 true (alfk (2 * p + 1) (2 * q + 1) cp) ((2 * p + 1 + 1) / 2) 1 (-θ) 0
        rw [Real.cos_neg, Real.sin_neg] at e
        rw [e, show (2 * p + 1 + 1) / 2 = p + 1 by omega]
        have hz := sum_odd (fun k => harm (2 * p + 1) (2 * q + 1) (alfk (2 * p + 1) (2 * q + 1) cp) k * Real.sin (k * θ)) (fun i => by
          rw [harm_off _ _ _ _ (by omega), zero_mul]) p
        push_cast at hz
        rw [hz, zero_add]
        have hl : last (2 * p + 1) (2 * q + 1) = p + 1 := by unfold last; rw [if_neg (by omega)]; omega
        refine Finset.sum_congr rfl fun i hi => ?_
        rw [Finset.mem_range] at hi
        rw [harm_at _ _ _ _ (by omega) (by omega), hl, show p + 1 - (2 * p + 1 - (2 * i + 1)) / 2 = 1 + i by omega]
        simp only [if_true]
        congr 2; ring

end Skyborn.Sphere.Leg
