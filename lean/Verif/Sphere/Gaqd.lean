/-
Gaussian latitudes and weights: `gaussian_lats_wts` (spharm/spherical_harmonics.py:1752-1775) and the routine behind it
(spharm/src/gaqd.f90). Exact real arithmetic: `eps` (the tolerance the code derives from the unit roundoff) and `u` (Fortran's `epsilon`) are
parameters. Arrays are counted from 1, as in the Fortran source; what they hold before the call is a parameter.
-/
import Verif.Sphere.TrigPoly
import Mathlib.Analysis.SpecialFunctions.Trigonometric.Arctan
import Mathlib.Analysis.SpecialFunctions.Trigonometric.Inverse

namespace Skyborn.Sphere.Gaqd

open Skyborn.Sphere Skyborn.Sphere.Leg Polynomial

/-! ## Model -/

/-- gaqd.f90:172-178 `cpdp`: the four running numbers. -/
structure T where
  t1 : ℝ
  t2 : ℝ
  t3 : ℝ
  t4 : ℝ

/-- gaqd.f90:183-186 (and 189-192, 202-205): one step of the running numbers. -/
def bump (t : T) : T := ⟨t.t1 + 2, t.t2 - 1, t.t3 + 1, t.t4 - 2⟩

/-- gaqd.f90:187, 193, 206: the ratio of neighbouring coefficients. -/
noncomputable def ratio (t : T) : ℝ := t.t1 * t.t2 / (t.t3 * t.t4)

/-- gaqd.f90:182-188 (even) and 201-207 (odd): the downward loop, which writes element `j - 1` from element `j`. -/
noncomputable def cpLoop : ℕ → T → (ℕ → ℝ) → T × (ℕ → ℝ)
  | j + 2, t, cp => cpLoop (j + 1) (bump t) (Function.update cp (j + 1) (ratio (bump t) * cp (j + 2)))
  | _, t, cp => (t, cp)

/-- gaqd.f90:165-215 `cpdp(n, cz, cp, dcp)`. For odd `n` the routine leaves `cz` unset; it is not used then. -/
noncomputable def cpdp (n : ℕ) (cp dcp : ℕ → ℝ) : ℝ × (ℕ → ℝ) × (ℕ → ℝ) :=
  let ncp := (n + 1) / 2
  let r := cpLoop ncp ⟨-1, n + 1, 0, n + n + 1⟩ (Function.update cp ncp 1)
  let cz := ratio (bump r.1) * r.2 1
  let dcp := fun j => if 1 ≤ j ∧ j ≤ ncp then (if n % 2 = 0 then (j + j : ℝ) else j + j - 1) * r.2 j else dcp j
  (cz, r.2, dcp)

/-- gaqd.f90:243-249 and 260-266: the loops of `tpdp`, from `k` for so many passes; state `cth`, `sth`, `pb`, `dpb`. -/
noncomputable def tpLoop (cdt sdt : ℝ) (cp dcp : ℕ → ℝ) : ℕ → ℕ → ℝ × ℝ × ℝ × ℝ → ℝ × ℝ
  | _, 0, s => s.2.2
  | k, c + 1, s =>
    tpLoop cdt sdt cp dcp (k + 1) c (cdt * s.1 - sdt * s.2.1, sdt * s.1 + cdt * s.2.1, s.2.2.1 + cp k * s.1, s.2.2.2 - dcp k * s.2.1)

/-- gaqd.f90:218-269 `tpdp(n, theta, cz, cp, dcp, pb, dpb)` for `n > 0`. -/
noncomputable def tpdp (n : ℕ) (theta cz : ℝ) (cp dcp : ℕ → ℝ) : ℝ × ℝ :=
  let cdt := Real.cos (theta + theta)
  let sdt := Real.sin (theta + theta)
  if n % 2 = 0 then tpLoop cdt sdt cp dcp 1 (n / 2) (cdt, sdt, 1 / 2 * cz, 0)
  else tpLoop cdt sdt cp dcp 1 ((n + 1) / 2) (Real.cos theta, Real.sin theta, 0, 0)

/-- gaqd.f90:77-101: the Newton iteration from `zero`, with so many passes left after this one; result: new `zero`, `zlast`, `pb`, `dpb`. `tp` =
polynomial and derivative. -/
noncomputable def newton (eps u cmax : ℝ) (tp : ℝ → ℝ × ℝ) : ℕ → ℝ → ℝ × ℝ × ℝ × ℝ
  | left, zlast =>
    let pb := (tp zlast).1
    let dpb := (tp zlast).2
    let dcor := if |dpb| < u * 1000 then (if 0 ≤ pb then |eps| else -|eps|) else pb / dpb
    let sgnd := if dcor ≠ 0 then dcor / |dcor| else 1
    let dcor := sgnd * min |dcor| cmax
    let zero := zlast - dcor
    match left with
    | 0 => (zero, zlast, pb, dpb)
    | left + 1 => if |zero - zlast| ≤ eps * max |zero| 1 then (zero, zlast, pb, dpb) else newton eps u cmax tp left zero

/-- gaqd.f90:73-124: the loop `do while (nix > 0)`; state: `zero`, `zprev` and the arrays `theta` and `wts`, whose elements from `nlat/2 + 1` on hold the
coefficients. -/
noncomputable def zeros (nlat : ℕ) (eps u cz : ℝ) : ℕ → ℝ → ℝ → (ℕ → ℝ) × (ℕ → ℝ) → (ℕ → ℝ) × (ℕ → ℝ)
  | 0, _, _, s => s
  | nix + 1, zero, zprev, s =>
    let ns2 := nlat / 2
    let nhalf := (nlat + 1) / 2
    let pis2 := 2 * Real.arctan 1
    let cmax := 2 / 10 * (pis2 / nhalf)
    let r := newton eps u cmax (fun z => tpdp nlat z cz (fun k => s.1 (ns2 + k)) (fun k => s.2 (ns2 + k))) 50 zero
    let w := if |Real.sin r.2.1| > u * 1000 then (nlat + nlat + 1) / (r.2.2.2 + r.2.2.1 * Real.cos r.2.1 / Real.sin r.2.1) ^ 2
      else (nlat + nlat + 1) / (r.2.2.2 * r.2.2.2)
    let s := (Function.update s.1 (nix + 1) r.1, Function.update s.2 (nix + 1) w)
    let zero := if nix = nhalf - 1 then 3 * r.1 - (pis2 + pis2) else if nix < nhalf - 1 then r.1 + r.1 - zprev else r.1
    zeros nlat eps u cz nix zero r.1 s

/-- gaqd.f90:301-320 `kahan_sum`, from element `i` for so many passes; state `result`, `c`. -/
def kahan (a : ℕ → ℝ) : ℕ → ℕ → ℝ × ℝ → ℝ
  | _, 0, s => s.1
  | i, k + 1, s =>
    let y := a i - s.2
    let t := s.1 + y
    kahan a (i + 1) k (t, (t - s.1) - y)

/-- gaqd.f90:147-149: the plain sum of elements `1` to `n`. -/
def plain (a : ℕ → ℝ) : ℕ → ℝ
  | 0 => 0
  | n + 1 => plain a n + a (n + 1)

/-- gaqd.f90:6-162 `gaqd` for `nlat >= 1`: colatitudes and weights. A division by zero (infinity in the code) is zero here. -/
noncomputable def gaqd (nlat : ℕ) (eps u : ℝ) (theta wts : ℕ → ℝ) : (ℕ → ℝ) × (ℕ → ℝ) :=
  if nlat = 1 then (Function.update theta 1 (Real.arccos 0), Function.update wts 1 2)
  else if nlat = 2 then
    let x := Real.sqrt (1 / 3)
    (Function.update (Function.update theta 1 (Real.arccos x)) 2 (Real.arccos (-x)), Function.update (Function.update wts 1 1) 2 1)
  else
    let pis2 := 2 * Real.arctan 1
    let pi := pis2 + pis2
    let ns2 := nlat / 2
    let nhalf := (nlat + 1) / 2
    let c := cpdp nlat (fun k => theta (ns2 + k)) (fun k => wts (ns2 + k))
    let theta := fun j => if ns2 < j then c.2.1 (j - ns2) else theta j
    let wts := fun j => if ns2 < j then c.2.2 (j - ns2) else wts j
    let dtheta := pis2 / nhalf
    let s := if nlat % 2 ≠ 0 then zeros nlat eps u c.1 (nhalf - 1) (pis2 - dtheta) pis2 (theta, wts)
      else zeros nlat eps u c.1 nhalf (pis2 - dtheta / 2) 0 (theta, wts)
    let s := if nlat % 2 ≠ 0 then
        let theta := Function.update s.1 nhalf pis2
        let r := tpdp nlat pis2 c.1 (fun k => theta (ns2 + k)) (fun k => s.2 (ns2 + k))
        (theta, Function.update s.2 nhalf ((nlat + nlat + 1) / (r.2 * r.2)))
      else s
    let wts := fun j => if nlat - ns2 < j ∧ j ≤ nlat then s.2 (nlat + 1 - j) else s.2 j
    let theta := fun j => if nlat - ns2 < j ∧ j ≤ nlat then pi - s.1 (nlat + 1 - j) else s.1 j
    let sum := if nlat > 1000 then kahan wts 1 nlat (0, 0) else plain wts nlat
    let sum := if |sum| < u * nlat then 2 else sum
    (theta, fun i => if 1 ≤ i ∧ i ≤ nlat then 2 * wts i / sum else wts i)

/-- spherical_harmonics.py:1752-1775 `gaussian_lats_wts`: latitudes and weights; `none`: the error raised for `nlat < 1` (gaqd.f90:25-26, or no array of
negative length). -/
noncomputable def gaussianLatsWts (nlat : ℤ) (eps u : ℝ) (theta wts : ℕ → ℝ) : Option (List ℝ × List ℝ) :=
  if nlat ≤ 0 then none
  else
    let r := gaqd nlat.toNat eps u theta wts
    some ((List.range nlat.toNat).map fun i => 90 - r.1 (i + 1) * (180 / Real.pi), (List.range nlat.toNat).map fun i => r.2 (i + 1))

/-! ## Specification -/

/-- The Legendre polynomial of degree `n`, up to its normalisation (Rodrigues). -/
noncomputable def Spec.legendre (n : ℕ) : ℝ[X] := derivative^[n] ((X ^ 2 - 1) ^ n)

/-! ## The polynomial -/

/-- Coefficients from the top. -/
noncomputable def gam (n : ℕ) : ℕ → ℝ
  | 0 => 1
  | i + 1 => (2 * (i : ℝ) + 1) * ((n : ℝ) - i) / (((i : ℝ) + 1) * (2 * n - 1 - 2 * i)) * gam n i

/-- All harmonics. -/
noncomputable def harm (n k : ℕ) : ℝ := if k ≤ n ∧ n % 2 = k % 2 then gam n ((n - k) / 2) else 0

theorem harm_rec (n k : ℕ) (hk : k < n) :
    ((n : ℝ) * (n + 1) - k * (k + 1)) * harm n k + (4 * ((2 * 0 : ℕ) : ℝ) ^ 2 - 2 * ((n : ℝ) * (n + 1) - ((k : ℝ) + 2) ^ 2)) * harm n (k + 2)
      + ((n : ℝ) * (n + 1) - ((k : ℝ) + 4) * ((k : ℝ) + 3)) * harm n (k + 4) = 0 := by
  by_cases hp : n % 2 = k % 2
  · obtain ⟨i, hi⟩ : ∃ i, n = k + 2 * (i + 1) := ⟨(n - k) / 2 - 1, by omega⟩
    have h1 : harm n k = gam n (i + 1) := by unfold harm; rw [if_pos ⟨by omega, hp⟩]; congr 1; omega
    have h2 : harm n (k + 2) = gam n i := by unfold harm; rw [if_pos ⟨by omega, by omega⟩]; congr 1; omega
    have hn : (n : ℝ) = k + 2 * (i + 1) := by rw [hi]; push_cast; ring
    have hk0 : (0 : ℝ) ≤ k := Nat.cast_nonneg k
    have hi0 : (0 : ℝ) ≤ i := Nat.cast_nonneg i
    cases i with
    | zero =>
      have h3 : harm n (k + 4) = 0 := by unfold harm; rw [if_neg (by omega)]
      rw [h1, h2, h3]
      simp only [gam, hn]
      push_cast
      have : (2 * ((k : ℝ) + 2 * (0 + 1)) - 1 - 2 * 0) ≠ 0 := by nlinarith
      field_simp
      ring
    | succ j =>
      have h3 : harm n (k + 4) = gam n j := by unfold harm; rw [if_pos ⟨by omega, by omega⟩]; congr 1; omega
      rw [h1, h2, h3]
      simp only [gam]
      rw [hn]
      push_cast at hi0 ⊢
      have hj0 : (0 : ℝ) ≤ j := Nat.cast_nonneg j
      have a1 : (2 * ((k : ℝ) + 2 * ((j : ℝ) + 1 + 1)) - 1 - 2 * ((j : ℝ) + 1)) ≠ 0 := by nlinarith
      have a2 : (2 * ((k : ℝ) + 2 * ((j : ℝ) + 1 + 1)) - 1 - 2 * (j : ℝ)) ≠ 0 := by nlinarith
      have a3 : ((j : ℝ) + 1 + 1) ≠ 0 := by positivity
      have a4 : ((j : ℝ) + 1) ≠ 0 := by positivity
      field_simp
      ring
  · unfold harm
    rw [if_neg (by omega), if_neg (by omega), if_neg (by omega)]; ring

theorem lead_pos (n : ℕ) : 0 < lead 0 n := by
  unfold lead Sphere.norm; positivity

/-- The normalised Legendre function of order 0 in terms of the coefficients. -/
theorem series (n : ℕ) (θ : ℝ) : pbar 0 n θ = 2 * lead 0 n * (harm n 0 / 2 + ∑ k ∈ Finset.range n, harm n (k + 1) * Real.cos ((k + 1) * θ)) := by
  have := series_even 0 n (by omega) (fun k => 2 * lead 0 n * harm n k)
    (by rw [show harm n n = 1 by unfold harm; rw [if_pos ⟨le_rfl, rfl⟩, Nat.sub_self]; rfl]; simp)
    (fun k hk => by rw [show harm n k = 0 by unfold harm; rw [if_neg (by omega)]]; ring)
    (fun k hk => by linear_combination 2 * lead 0 n * harm_rec n k hk) θ
  rw [mul_zero] at this
  rw [this, mul_add, Finset.mul_sum]
  congr 1
  · ring
  · refine Finset.sum_congr rfl fun k _ => ?_; ring

/-- The running numbers after `i` steps. -/
def tAt (n i : ℕ) : T := ⟨2 * i - 1, n + 1 - i, i, 2 * n + 1 - 2 * i⟩

theorem bump_tAt (n i : ℕ) : bump (tAt n i) = tAt n (i + 1) := by
  unfold bump tAt; congr 1 <;> push_cast <;> ring

theorem ratio_tAt (n i : ℕ) : ratio (tAt n (i + 1)) * gam n i = gam n (i + 1) := by
  unfold ratio tAt; simp only [gam]; push_cast
  congr 2
  · ring
  · ring

theorem cpLoop_spec (n : ℕ) : ∀ (j i : ℕ) (cp : ℕ → ℝ), 1 ≤ j → cp j = gam n i →
    (cpLoop j (tAt n i) cp).1 = tAt n (i + (j - 1)) ∧ (∀ l, j < l → (cpLoop j (tAt n i) cp).2 l = cp l) ∧
    ∀ l, 1 ≤ l → l ≤ j → (cpLoop j (tAt n i) cp).2 l = gam n (i + (j - l))
  | 1, i, cp, _, h => ⟨by simp [cpLoop], fun l _ => rfl, fun l h1 h2 => by
      obtain rfl : l = 1 := by omega
      simpa [cpLoop] using h⟩
  | j + 2, i, cp, _, h => by
    have e : cpLoop (j + 2) (tAt n i) cp = cpLoop (j + 1) (tAt n (i + 1)) (Function.update cp (j + 1) (ratio (bump (tAt n i)) * cp (j + 2))) := by
      rw [← bump_tAt]; rfl
    obtain ⟨h1, h2, h3⟩ := cpLoop_spec n (j + 1) (i + 1) (Function.update cp (j + 1) (ratio (bump (tAt n i)) * cp (j + 2))) (by omega)
      (by rw [Function.update_self, bump_tAt, h, ratio_tAt])
    rw [e]
    refine ⟨by rw [h1]; congr 1; omega, fun l hl => ?_, fun l hl1 hl2 => ?_⟩
    · rw [h2 l (by omega), Function.update_of_ne (by omega)]
    · rcases Nat.lt_or_ge l (j + 2) with g | g
      · rw [h3 l hl1 (by omega)]; congr 1; omega
      · obtain rfl : l = j + 2 := by omega
        rw [h2 _ (by omega), Function.update_of_ne (by omega), h]; congr 1; omega

theorem cpdp_spec (n : ℕ) (hn : 1 ≤ n) (cp dcp : ℕ → ℝ) :
    (n % 2 = 0 → (cpdp n cp dcp).1 = gam n (n / 2)) ∧ (∀ l, 1 ≤ l → l ≤ (n + 1) / 2 → (cpdp n cp dcp).2.1 l = gam n ((n + 1) / 2 - l)) ∧
    ∀ l, 1 ≤ l → l ≤ (n + 1) / 2 → (cpdp n cp dcp).2.2 l = (if n % 2 = 0 then 2 * (l : ℝ) else 2 * l - 1) * gam n ((n + 1) / 2 - l) := by
  have e0 : (⟨-1, n + 1, 0, n + n + 1⟩ : T) = tAt n 0 := by unfold tAt; congr 1 <;> push_cast <;> ring
  obtain ⟨h1, -, h3⟩ := cpLoop_spec n ((n + 1) / 2) 0 (Function.update cp ((n + 1) / 2) 1) (by omega) (by rw [Function.update_self]; rfl)
  unfold cpdp
  dsimp only
  rw [e0]
  refine ⟨fun he => ?_, fun l a b => ?_, fun l a b => ?_⟩
  · rw [h1, bump_tAt, h3 1 le_rfl (by omega), ratio_tAt]; congr 1; omega
  · rw [h3 l a b, Nat.zero_add]
  · rw [if_pos ⟨a, b⟩, h3 l a b, Nat.zero_add]
    congr 1
    split <;> ring

theorem tpLoop_spec (θ : ℝ) (cp dcp : ℕ → ℝ) : ∀ (c k : ℕ) (φ p d : ℝ),
    tpLoop (Real.cos (θ + θ)) (Real.sin (θ + θ)) cp dcp k c (Real.cos φ, Real.sin φ, p, d)
      = (p + ∑ i ∈ Finset.range c, cp (k + i) * Real.cos (φ + 2 * i * θ), d - ∑ i ∈ Finset.range c, dcp (k + i) * Real.sin (φ + 2 * i * θ))
  | 0, k, φ, p, d => by simp [tpLoop]
  | c + 1, k, φ, p, d => by
    unfold tpLoop
    dsimp only
    have e1 : Real.cos (θ + θ) * Real.cos φ - Real.sin (θ + θ) * Real.sin φ = Real.cos (φ + 2 * θ) := by
      rw [← Real.cos_add]; congr 1; ring
    have e2 : Real.sin (θ + θ) * Real.cos φ + Real.cos (θ + θ) * Real.sin φ = Real.sin (φ + 2 * θ) := by
      rw [← Real.sin_add]; congr 1; ring
    rw [e1, e2, tpLoop_spec θ cp dcp c (k + 1) (φ + 2 * θ), Finset.sum_range_succ', Finset.sum_range_succ']
    have s : ∀ i : ℕ, φ + 2 * θ + 2 * (i : ℝ) * θ = φ + 2 * ((i + 1 : ℕ) : ℝ) * θ := fun i => by push_cast; ring
    simp only [s, show ∀ i, k + 1 + i = k + (i + 1) from fun i => by ring]
    refine Prod.ext ?_ ?_
    · simp; ring
    · simp; ring

theorem sum_even (f : ℕ → ℝ) (hf : ∀ i, f (2 * i + 1) = 0) (p : ℕ) : ∑ k ∈ Finset.range (2 * p), f (k + 1) = ∑ i ∈ Finset.range p, f (2 * (i + 1)) := by
  induction p with
  | zero => simp
  | succ p ih =>
    rw [show 2 * (p + 1) = 2 * p + 1 + 1 by ring, Finset.sum_range_succ, Finset.sum_range_succ, ih, Finset.sum_range_succ, hf]
    rw [show 2 * p + 1 + 1 = 2 * (p + 1) by ring]; ring

theorem sum_odd (f : ℕ → ℝ) (hf : ∀ i, f (2 * i + 2) = 0) (p : ℕ) : ∑ k ∈ Finset.range (2 * p + 1), f (k + 1) = ∑ i ∈ Finset.range (p + 1), f (2 * i + 1) := by
  induction p with
  | zero => simp
  | succ p ih =>
    rw [show 2 * (p + 1) + 1 = 2 * p + 1 + 1 + 1 by ring, Finset.sum_range_succ, Finset.sum_range_succ, ih, Finset.sum_range_succ _ (p + 1), hf]
    rw [show 2 * p + 1 + 1 + 1 = 2 * (p + 1) + 1 by ring]; ring

/-- The value `tpdp` computes. -/
noncomputable def poly (n : ℕ) (θ : ℝ) : ℝ := harm n 0 / 2 + ∑ k ∈ Finset.range n, harm n (k + 1) * Real.cos ((k + 1) * θ)

/-- The derivative `tpdp` computes. -/
noncomputable def dpoly (n : ℕ) (θ : ℝ) : ℝ := -∑ k ∈ Finset.range n, ((k : ℝ) + 1) * harm n (k + 1) * Real.sin ((k + 1) * θ)

theorem hasDerivAt_poly (n : ℕ) (θ : ℝ) : HasDerivAt (poly n) (dpoly n θ) θ := by
  unfold poly dpoly
  have h : HasDerivAt (fun θ : ℝ => ∑ k ∈ Finset.range n, harm n (k + 1) * Real.cos (((k : ℝ) + 1) * θ))
      (∑ k ∈ Finset.range n, -(((k : ℝ) + 1) * harm n (k + 1) * Real.sin ((k + 1) * θ))) θ := by
    refine HasDerivAt.fun_sum fun k _ => ?_
    have h1 : HasDerivAt (fun θ : ℝ => ((k : ℝ) + 1) * θ) ((k : ℝ) + 1) θ := by simpa using (hasDerivAt_id θ).const_mul ((k : ℝ) + 1)
    refine ((h1.cos).const_mul (harm n (k + 1))).congr_deriv ?_
    ring
  rw [← Finset.sum_neg_distrib]
  exact h.const_add _

theorem tpdp_spec (n : ℕ) (hn : 1 ≤ n) (θ cz : ℝ) (cp dcp : ℕ → ℝ) (h0 : n % 2 = 0 → cz = gam n (n / 2))
    (h1 : ∀ l, 1 ≤ l → l ≤ (n + 1) / 2 → cp l = gam n ((n + 1) / 2 - l))
    (h2 : ∀ l, 1 ≤ l → l ≤ (n + 1) / 2 → dcp l = (if n % 2 = 0 then 2 * (l : ℝ) else 2 * l - 1) * gam n ((n + 1) / 2 - l)) :
    tpdp n θ cz cp dcp = (poly n θ, dpoly n θ) := by
  unfold tpdp
  dsimp only
  rcases Nat.even_or_odd' n with ⟨p, rfl | rfl⟩
  · rw [if_pos (by omega)]
    have e := tpLoop_spec θ cp dcp (2 * p / 2) 1 (θ + θ) (1 / 2 * cz) 0
    rw [e, show 2 * p / 2 = p by omega]
    have z1 := sum_even (fun k => harm (2 * p) k * Real.cos (k * θ)) (fun i => by
      unfold harm; rw [if_neg (by omega), zero_mul]) p
    have z2 := sum_even (fun k => (k : ℝ) * harm (2 * p) k * Real.sin (k * θ)) (fun i => by
      unfold harm; rw [if_neg (by omega)]; ring) p
    push_cast at z1 z2
    unfold poly dpoly
    rw [z1, z2]
    have hh : ∀ i, i < p → harm (2 * p) (2 * (i + 1)) = gam (2 * p) (p - 1 - i) := fun i hi => by
      unfold harm; rw [if_pos ⟨by omega, by omega⟩]; congr 1; omega
    have h00 : harm (2 * p) 0 = cz := by
      rw [h0 (by omega)]; unfold harm; rw [if_pos ⟨by omega, by omega⟩]; congr 1
    refine Prod.ext ?_ ?_
    · dsimp only
      rw [h00]
      congr 1
      · ring
      · refine Finset.sum_congr rfl fun i hi => ?_
        rw [Finset.mem_range] at hi
        rw [hh i hi, h1 (1 + i) (by omega) (by omega)]
        congr 2
        · omega
        · ring
    · dsimp only
      rw [zero_sub]
      congr 1
      refine Finset.sum_congr rfl fun i hi => ?_
      rw [Finset.mem_range] at hi
      rw [hh i hi, h2 (1 + i) (by omega) (by omega), if_pos (by omega)]
      rw [show (2 * p + 1) / 2 - (1 + i) = p - 1 - i by omega]
      push_cast
      congr 2
      · ring
      · ring
  · rw [if_neg (by omega)]
    have e := tpLoop_spec θ cp dcp ((2 * p + 1 + 1) / 2) 1 θ 0 0
    rw [e, show (2 * p + 1 + 1) / 2 = p + 1 by omega]
    have z1 := sum_odd (fun k => harm (2 * p + 1) k * Real.cos (k * θ)) (fun i => by
      unfold harm; rw [if_neg (by omega), zero_mul]) p
    have z2 := sum_odd (fun k => (k : ℝ) * harm (2 * p + 1) k * Real.sin (k * θ)) (fun i => by
      unfold harm; rw [if_neg (by omega)]; ring) p
    push_cast at z1 z2
    unfold poly dpoly
    rw [z1, z2]
    have hh : ∀ i, i < p + 1 → harm (2 * p + 1) (2 * i + 1) = gam (2 * p + 1) (p - i) := fun i hi => by
      unfold harm; rw [if_pos ⟨by omega, by omega⟩]; congr 1; omega
    have h00 : harm (2 * p + 1) 0 = 0 := by unfold harm; rw [if_neg (by omega)]
    refine Prod.ext ?_ ?_
    · dsimp only
      rw [h00]
      congr 1
      · ring
      · refine Finset.sum_congr rfl fun i hi => ?_
        rw [Finset.mem_range] at hi
        rw [hh i hi, h1 (1 + i) (by omega) (by omega)]
        congr 2
        · omega
        · ring
    · dsimp only
      rw [zero_sub]
      congr 1
      refine Finset.sum_congr rfl fun i hi => ?_
      rw [Finset.mem_range] at hi
      rw [hh i hi, h2 (1 + i) (by omega) (by omega), if_neg (by omega)]
      rw [show (2 * p + 1 + 1) / 2 - (1 + i) = p - i by omega]
      push_cast
      congr 2
      · ring
      · ring

/-- The polynomial is the Legendre polynomial of the cosine, up to a positive constant. -/
theorem poly_eq (n : ℕ) : ∃ κ : ℝ, 0 < κ ∧ ∀ θ, poly n θ = κ * (Spec.legendre n).eval (Real.cos θ) := by
  have hl := lead_pos n
  have hnorm : 0 < Sphere.norm 0 n := by unfold Sphere.norm; positivity
  refine ⟨Sphere.norm 0 n / (2 * lead 0 n), by positivity, fun θ => ?_⟩
  have := series n θ
  unfold pbar at this
  rw [pow_zero, one_mul, Nat.add_zero] at this
  have e : rod n n = Spec.legendre n := rfl
  rw [e] at this
  unfold poly
  field_simp
  linarith

end Skyborn.Sphere.Gaqd
