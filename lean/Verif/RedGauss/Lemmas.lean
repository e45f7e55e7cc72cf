/-
Closed forms of the loops of `Verif.RedGauss.Model`: sums over degrees, Fourier rows, packed rows, parallel loops.
-/
import Verif.RedGauss.Model
import Mathlib.Algebra.BigOperators.Ring.Finset
import Mathlib.Data.List.Perm.Basic

namespace Skyborn.RedGauss

open Skyborn

/-! ### Packed positions -/

/-- Packed position of degree `n`, order `m`: orders come one after the other, order `k` having `T + 1 - k` degrees. -/
def nmOf (T m n : ℕ) : ℕ := (∑ k ∈ Finset.range m, (T + 1 - k)) + (n - m) + 1

theorem specOff_eq {T m : ℕ} (h : m ≤ T + 1) : specOff m T = ∑ k ∈ Finset.range m, (T + 1 - k) := by
  have h2 : m * (2 * T + 3 - m) = 2 * ∑ k ∈ Finset.range m, (T + 1 - k) := by
    induction m with
    | zero => simp
    | succ m ih =>
      rw [Finset.sum_range_succ, Nat.mul_add 2, ← ih (by omega)]
      obtain ⟨d, rfl⟩ : ∃ d, T = m + d := ⟨T - m, by omega⟩
      rw [show m + d + 1 - m = d + 1 by omega]
      rw [show 2 * (m + d) + 3 - (m + 1) = m + 2 * d + 2 by omega, show 2 * (m + d) + 3 - m = m + 2 * d + 3 by omega]
      ring
  unfold specOff; omega

theorem nmOf_off {T m n : ℕ} (h : m ≤ T) : nmOf T m n = specOff m T + (n - m) + 1 := by
  unfold nmOf; rw [specOff_eq (by omega)]

theorem specOff_succ {T m : ℕ} (h : m ≤ T) : specOff (m + 1) T = specOff m T + (T + 1 - m) := by
  rw [specOff_eq (by omega), specOff_eq (by omega), Finset.sum_range_succ]

theorem specOff_mono {T m m' : ℕ} (h : m' ≤ T) (hm : m ≤ m') : specOff m T ≤ specOff m' T := by
  rw [specOff_eq (by omega), specOff_eq (by omega)]
  exact Finset.sum_le_sum_of_subset (Finset.range_mono hm)

theorem specOff_dim (T : ℕ) : specOff (T + 1) T = nmDim T := by
  unfold specOff nmDim
  rw [show 2 * T + 3 - (T + 1) = T + 2 by omega]

/-- Packed positions of different orders and degrees are different. -/
theorem nmOf_inj {T m n m' n' : ℕ} (h1 : m ≤ n) (h2 : n ≤ T) (h3 : m' ≤ n') (h4 : n' ≤ T) (h : nmOf T m n = nmOf T m' n') :
    m = m' ∧ n = n' := by
  rw [nmOf_off (by omega), nmOf_off (by omega)] at h
  have key : ∀ a b, a < b → b ≤ T → specOff a T + (T + 1 - a) ≤ specOff b T := fun a b hab hb => by
    rw [← specOff_succ (by omega)]; exact specOff_mono hb hab
  rcases Nat.lt_trichotomy m m' with hm | hm | hm
  · have := key m m' hm (by omega); omega
  · subst hm; omega
  · have := key m' m hm (by omega); omega

theorem nmOf_le {T m n : ℕ} (h1 : m ≤ n) (h2 : n ≤ T) : 1 ≤ nmOf T m n ∧ nmOf T m n ≤ nmDim T := by
  rw [nmOf_off (by omega), ← specOff_dim]
  have : specOff (m + 1) T ≤ specOff (T + 1) T := by
    rw [specOff_eq (by omega), specOff_eq (by omega)]
    exact Finset.sum_le_sum_of_subset (Finset.range_mono (by omega))
  rw [specOff_succ (by omega)] at this
  omega

theorem sum_Icc_shift {M : Type*} [AddCommMonoid M] (m T : ℕ) (f : ℕ → M) :
    ∑ n ∈ Finset.Icc m T, f n = ∑ i ∈ Finset.range (T + 1 - m), f (m + i) := by
  rw [← Finset.sum_Ico_eq_sum_range]
  refine Finset.sum_congr ?_ fun _ _ => rfl
  ext x; rw [Finset.mem_Icc, Finset.mem_Ico]; omega

/-- A sum over the degrees of one order, in packed order. -/
theorem sum_deg {M : Type*} [AddCommMonoid M] {T m : ℕ} (h : m ≤ T) (f : ℕ → ℕ → M) :
    ∑ n ∈ Finset.Icc m T, f (nmOf T m n) (n - m) = ∑ i ∈ Finset.range (T + 1 - m), f (specOff m T + i + 1) i := by
  rw [sum_Icc_shift]
  refine Finset.sum_congr rfl fun i _ => ?_
  rw [nmOf_off h, show m + i - m = i by omega]

/-! ### Sums over the degrees -/

theorem polySum_eq {T m : ℕ} (h : m ≤ T) (spec : ℕ → ℂ) (b : ℕ → ℝ) :
    polySum T m spec b = (∑ n ∈ Finset.Icc m T, (spec (nmOf T m n)).re * b (nmOf T m n),
      ∑ n ∈ Finset.Icc m T, (spec (nmOf T m n)).im * b (nmOf T m n)) := by
  have key := doLoop_inv (lo := m) (hi := T) (by omega) (s := (specOff m T, (0 : ℝ), (0 : ℝ)))
    (f := fun _ s => let nm := s.1 + 1; (nm, s.2.1 + (spec nm).re * b nm, s.2.2 + (spec nm).im * b nm))
    (fun n s => s = (specOff m T + (n - m), ∑ i ∈ Finset.range (n - m), (spec (specOff m T + i + 1)).re * b (specOff m T + i + 1),
      ∑ i ∈ Finset.range (n - m), (spec (specOff m T + i + 1)).im * b (specOff m T + i + 1))) (by simp)
    (by
      rintro n s hn1 hn2 rfl
      simp only [show n + 1 - m = (n - m) + 1 by omega, Finset.sum_range_succ, ← add_assoc])
  unfold polySum
  rw [key]
  have e1 := sum_deg h (fun p _ => (spec p).re * b p)
  have e2 := sum_deg h (fun p _ => (spec p).im * b p)
  beta_reduce at e1 e2
  simp only [e1, e2]

theorem doStep_two {σ : Type*} {m T : ℕ} (h : m ≤ T) (s : σ) (f : ℕ → σ → σ) :
    doStep m ((T : ℤ) - 1) 2 s f = (List.range ((T + 1 - m) / 2)).foldl (fun s q => f (m + q * 2) s) s := by
  unfold doStep
  have : (((T : ℤ) - 1 - m + (2 : ℕ)) / (2 : ℕ)).toNat = (T + 1 - m) / 2 := by
    push_cast
    rw [show (T : ℤ) - 1 - m + 2 = ((T + 1 - m : ℕ) : ℤ) by omega]
    norm_cast
  rw [this]

/-- State of the pair accumulators after `q` terms. -/
noncomputable def accAt (off : ℕ) (spec : ℕ → ℂ) (b : ℕ → ℝ) (σ : ℝ) (q : ℕ) : Acc :=
  { nm := off + q
    re := ∑ i ∈ Finset.range q, (spec (off + i + 1)).re * b (off + i + 1)
    im := ∑ i ∈ Finset.range q, (spec (off + i + 1)).im * b (off + i + 1)
    reS := σ * ∑ i ∈ Finset.range q, (-1) ^ i * ((spec (off + i + 1)).re * b (off + i + 1))
    imS := σ * ∑ i ∈ Finset.range q, (-1) ^ i * ((spec (off + i + 1)).im * b (off + i + 1)) }

/-- Sign of a flag. -/
def sgn (b : Bool) : ℝ := if b then 1 else -1

theorem accAt_add (off : ℕ) (spec : ℕ → ℂ) (b : ℕ → ℝ) (σ : ℝ) (q : ℕ) (same : Bool) (h : sgn same = σ * (-1) ^ q) :
    (accAt off spec b σ q).add spec b same = accAt off spec b σ (q + 1) := by
  unfold Acc.add accAt
  simp only [Finset.sum_range_succ, Acc.mk.injEq, true_and, add_assoc]
  refine ⟨?_, ?_⟩
  · rw [mul_add, ← mul_assoc σ, ← h]
    cases same <;> simp [sgn, sub_eq_add_neg]
  · rw [mul_add, ← mul_assoc σ, ← h]
    cases same <;> simp [sgn, sub_eq_add_neg]

theorem polyPair_acc {T m : ℕ} (h : m ≤ T) (spec : ℕ → ℂ) (b : ℕ → ℝ) (first : Bool) :
    polyPair T m spec b first = accAt (specOff m T) spec b (sgn first) (T + 1 - m) := by
  unfold polyPair
  rw [doStep_two h]
  have key : ∀ q, (List.range q).foldl (fun s _ => (s.add spec b first).add spec b (!first)) (Acc.mk (specOff m T) 0 0 0 0)
      = accAt (specOff m T) spec b (sgn first) (2 * q) := by
    intro q
    induction q with
    | zero => simp [accAt]
    | succ q ih =>
      rw [List.range_succ, List.foldl_append, ih, List.foldl_cons, List.foldl_nil,
        accAt_add _ _ _ _ _ _ (by rw [pow_mul]; simp), accAt_add _ _ _ _ _ _ (by rw [pow_succ, pow_mul]; cases first <;> simp [sgn])]
      rfl
  simp only
  rw [key]
  split_ifs with h2
  · rw [accAt_add _ _ _ _ _ _ (by rw [pow_mul]; simp)]
    congr 1; omega
  · congr 1; omega

/-- Southern sums of a symmetric pair. -/
theorem polyPair_eq {T m : ℕ} (h : m ≤ T) (spec : ℕ → ℂ) (b : ℕ → ℝ) (first : Bool) :
    (polyPair T m spec b first).re = ∑ n ∈ Finset.Icc m T, (spec (nmOf T m n)).re * b (nmOf T m n) ∧
    (polyPair T m spec b first).im = ∑ n ∈ Finset.Icc m T, (spec (nmOf T m n)).im * b (nmOf T m n) ∧
    (polyPair T m spec b first).reS = ∑ n ∈ Finset.Icc m T, (spec (nmOf T m n)).re * (sgn first * (-1) ^ (n - m) * b (nmOf T m n)) ∧
    (polyPair T m spec b first).imS = ∑ n ∈ Finset.Icc m T, (spec (nmOf T m n)).im * (sgn first * (-1) ^ (n - m) * b (nmOf T m n)) := by
  rw [polyPair_acc h]
  have e1 := sum_deg h (fun p _ => (spec p).re * b p)
  have e2 := sum_deg h (fun p _ => (spec p).im * b p)
  have e3 := sum_deg h (fun p i => (spec p).re * (sgn first * (-1) ^ i * b p))
  have e4 := sum_deg h (fun p i => (spec p).im * (sgn first * (-1) ^ i * b p))
  beta_reduce at e1 e2 e3 e4
  rw [e1, e2, e3, e4]
  refine ⟨rfl, rfl, ?_, ?_⟩
  · show _ * _ = _
    rw [Finset.mul_sum]; exact Finset.sum_congr rfl fun i _ => by ring
  · show _ * _ = _
    rw [Finset.mul_sum]; exact Finset.sum_congr rfl fun i _ => by ring

/-! ### Fourier rows -/

/-- A row of Fourier coefficients: `c m` and `s m` for the wavenumbers `m ≤ mlimit`, zero above. -/
noncomputable def fourRow (mlimit : ℕ) (c s : ℕ → ℝ) : ℕ → ℝ := fun p =>
  if p = 1 then c 0 else if p / 2 ≤ mlimit then (if p % 2 = 0 then c (p / 2) else s (p / 2)) else 0

theorem putMode_other {N m p : ℕ} {c s : ℝ} {row : ℕ → ℝ} (h : p ≠ 1 → p / 2 ≠ m) (h1 : p = 1 → m ≠ 0) :
    putMode N m c s row p = row p := by
  unfold putMode
  by_cases h0 : m = 0
  · rw [if_pos h0, Function.update_of_ne]
    intro e; exact h1 e h0
  · rw [if_neg h0]
    have e1 : p ≠ 2 * m := by intro e; have := h (by omega); omega
    have e2 : p ≠ 2 * m + 1 := by intro e; have := h (by omega); omega
    split_ifs
    · rw [Function.update_of_ne e2, Function.update_of_ne e1]
    · rw [Function.update_of_ne e1]

/-- What the wavenumber loop followed by the zero fill leaves at the positions of a row. -/
theorem putModes {N mlimit : ℕ} (c s : ℕ → ℝ) (row : ℕ → ℝ) (lo : ℕ) (hlo : lo ≤ 1) (hle : lo ≤ mlimit + 1) {p : ℕ} (hp1 : 1 ≤ p)
    (hp : p ≤ N) (hp2 : p ≤ 2 * mlimit + 1) (hcase : p = 1 → lo = 0) :
    doLoop lo mlimit row (fun m r => putMode N m (c m) (s m) r) p = fourRow mlimit c s p := by
  have key := doLoop_inv (lo := lo) (hi := mlimit) hle (s := row) (f := fun m r => putMode N m (c m) (s m) r)
    (fun q r => ∀ p, 1 ≤ p → p ≤ N → (p = 1 → lo = 0) → (p = 1 → 0 < q) → (p ≠ 1 → p / 2 < q) → r p = fourRow mlimit c s p)
    (by intro p h1 h2 h3 h4 h5; exfalso; by_cases e : p = 1
        · have := h3 e; have := h4 e; omega
        · have := h5 e; omega)
    (by
      intro q r hq1 hq2 ih p h1 h2 h3 h4 h5
      by_cases e : p = 1
      · subst e
        by_cases q0 : q = 0
        · subst q0; simp [putMode, fourRow]
        · rw [putMode_other (by simp) (fun _ => q0)]
          exact ih 1 h1 h2 h3 (by omega) (by simp)
      · have h5' := h5 e
        by_cases eq : p / 2 = q
        · have q0 : q ≠ 0 := by omega
          unfold putMode
          rw [if_neg q0]
          by_cases hev : p % 2 = 0
          · have : p = 2 * q := by omega
            subst this
            have hne : 2 * q ≠ 2 * q + 1 := by omega
            have : (if 2 * q < N then Function.update (Function.update r (2 * q) (c q)) (2 * q + 1) (s q) else Function.update r (2 * q) (c q)) (2 * q) = c q := by
              split_ifs
              · rw [Function.update_of_ne hne, Function.update_self]
              · rw [Function.update_self]
            rw [this]; unfold fourRow
            rw [if_neg e, show 2 * q / 2 = q by omega, if_pos hq2, if_pos hev]
          · have : p = 2 * q + 1 := by omega
            subst this
            rw [if_pos (by omega), Function.update_self]
            unfold fourRow
            rw [if_neg e, show (2 * q + 1) / 2 = q by omega, if_pos hq2, if_neg hev]
        · rw [putMode_other (fun _ => eq) (fun e' => absurd e' e)]
          exact ih p h1 h2 h3 (fun e' => absurd e' e) (fun _ => by omega))
  exact key p hp1 hp hcase (by omega) (by omega)

/-- The Fourier series a row of coefficients stands for. -/
noncomputable def fourSeries (N T : ℕ) (c s : ℕ → ℝ) (l : ℝ) : ℝ :=
  c 0 / 2 + ∑ m ∈ (Finset.Icc 1 T).filter (fun m => 2 * m ≤ N),
    (if 2 * m = N then 1 / 2 else 1) * (c m * Real.cos (m * l) - (if 2 * m = N then 0 else s m) * Real.sin (m * l))

/-- The backward transform of such a row, halved. -/
theorem hrfftb_four {N T i : ℕ} (hi : 1 ≤ i) (hiN : i ≤ N) (c s : ℕ → ℝ) (row : ℕ → ℝ)
    (h : ∀ p, 1 ≤ p → p ≤ N → row p = fourRow (min T (N / 2)) c s p) :
    0.5 * hrfftb N row i = fourSeries N T c s (lam N i) := by
  unfold hrfftb
  rw [if_neg (by omega), h 1 le_rfl (by omega)]
  have hset : (Finset.Icc 1 T).filter (fun m => 2 * m ≤ N) = Finset.Icc 1 (min T (N / 2)) := by
    ext m; simp only [Finset.mem_filter, Finset.mem_Icc]; omega
  unfold fourSeries
  rw [hset]
  have hsum : ∑ m ∈ Finset.Icc 1 ((N - 1) / 2), 2 * (row (2 * m) * Real.cos (m * lam N i) - row (2 * m + 1) * Real.sin (m * lam N i))
      = ∑ m ∈ (Finset.Icc 1 (min T (N / 2))).filter (fun m => 2 * m ≠ N), 2 * (c m * Real.cos (m * lam N i) - s m * Real.sin (m * lam N i)) := by
    have hset2 : (Finset.Icc 1 (min T (N / 2))).filter (fun m => 2 * m ≠ N) = (Finset.Icc 1 ((N - 1) / 2)).filter (fun m => m ≤ T) := by
      ext m; simp only [Finset.mem_filter, Finset.mem_Icc]; omega
    rw [hset2, Finset.sum_filter]
    refine Finset.sum_congr rfl fun m hm => ?_
    rw [Finset.mem_Icc] at hm
    rw [h (2 * m) (by omega) (by omega), h (2 * m + 1) (by omega) (by omega)]
    unfold fourRow
    rw [if_neg (show ¬ 2 * m = 1 by omega), if_neg (show ¬ 2 * m + 1 = 1 by omega), show 2 * m / 2 = m by omega, show (2 * m + 1) / 2 = m by omega]
    by_cases hT : m ≤ T
    · rw [if_pos hT, if_pos (by omega), if_pos (by omega), if_pos (by omega), if_neg (by omega)]
    · rw [if_neg hT, if_neg (by omega), if_neg (by omega)]; ring
  have hlast : (if N % 2 = 0 then row N * Real.cos ((N / 2 : ℕ) * lam N i) else 0)
      = ∑ m ∈ (Finset.Icc 1 (min T (N / 2))).filter (fun m => 2 * m = N), c m * Real.cos (m * lam N i) := by
    by_cases hN : N % 2 = 0
    · rw [if_pos hN, h N (by omega) le_rfl]
      unfold fourRow
      rw [if_neg (by omega), if_pos hN]
      by_cases hT : N / 2 ≤ T
      · rw [if_pos (by omega)]
        have : (Finset.Icc 1 (min T (N / 2))).filter (fun m => 2 * m = N) = {N / 2} := by
          ext m; simp only [Finset.mem_filter, Finset.mem_Icc, Finset.mem_singleton]; omega
        rw [this, Finset.sum_singleton]
      · rw [if_neg (by omega)]
        have : (Finset.Icc 1 (min T (N / 2))).filter (fun m => 2 * m = N) = ∅ := by
          ext m; simp only [Finset.mem_filter, Finset.mem_Icc, Finset.notMem_empty, iff_false]; omega
        rw [this, Finset.sum_empty, zero_mul]
    · rw [if_neg hN]
      have : (Finset.Icc 1 (min T (N / 2))).filter (fun m => 2 * m = N) = ∅ := by
        ext m; simp only [Finset.mem_filter, Finset.mem_Icc, Finset.notMem_empty, iff_false]; omega
      rw [this, Finset.sum_empty]
  rw [hsum, hlast, ← Finset.sum_filter_add_sum_filter_not (Finset.Icc 1 (min T (N / 2))) (fun m => 2 * m = N) (fun m => (if 2 * m = N then (1:ℝ) / 2 else 1) * _)]
  have e1 : ∑ m ∈ (Finset.Icc 1 (min T (N / 2))).filter (fun m => 2 * m = N),
      (if 2 * m = N then (1:ℝ) / 2 else 1) * (c m * Real.cos (m * lam N i) - (if 2 * m = N then 0 else s m) * Real.sin (m * lam N i))
      = (1 / 2) * ∑ m ∈ (Finset.Icc 1 (min T (N / 2))).filter (fun m => 2 * m = N), c m * Real.cos (m * lam N i) := by
    rw [Finset.mul_sum]
    refine Finset.sum_congr rfl fun m hm => ?_
    rw [Finset.mem_filter] at hm
    rw [if_pos hm.2, if_pos hm.2]; ring
  have e2 : ∑ m ∈ (Finset.Icc 1 (min T (N / 2))).filter (fun m => ¬ 2 * m = N),
      (if 2 * m = N then (1:ℝ) / 2 else 1) * (c m * Real.cos (m * lam N i) - (if 2 * m = N then 0 else s m) * Real.sin (m * lam N i))
      = (1 / 2) * ∑ m ∈ (Finset.Icc 1 (min T (N / 2))).filter (fun m => 2 * m ≠ N), 2 * (c m * Real.cos (m * lam N i) - s m * Real.sin (m * lam N i)) := by
    rw [Finset.mul_sum]
    refine Finset.sum_congr rfl fun m hm => ?_
    rw [Finset.mem_filter] at hm
    rw [if_neg hm.2, if_neg hm.2]; ring
  rw [e1, e2]
  have : fourRow (min T (N / 2)) c s 1 = c 0 := by simp [fourRow]
  rw [this]
  ring

end Skyborn.RedGauss
