import Verif.MK.GroupLemmas
import Mathlib.Algebra.Group.Prod
import Mathlib.Algebra.BigOperators.Pi
import Mathlib.Algebra.BigOperators.GroupWithZero.Action

namespace Skyborn.MK

open Skyborn Finset Spec

variable {K : Type} [Field K] [LinearOrder K] [IsStrictOrderedRing K]

theorem doLoop_map {σ τ : Type*} (φ : σ → τ) {lo hi : ℕ} (hle : lo ≤ hi + 1) {s : σ} {f : ℕ → σ → σ} {g : ℕ → τ → τ}
    (h : ∀ i s, lo ≤ i → i ≤ hi → φ (f i s) = g i (φ s)) : φ (doLoop lo hi s f) = doLoop lo hi (φ s) g := by
  unfold doLoop
  have key : ∀ l : List ℕ, (∀ i ∈ l, lo ≤ i ∧ i ≤ hi) → ∀ s,
      φ (l.foldl (fun s i => f i s) s) = l.foldl (fun s i => g i s) (φ s) := by
    intro l
    induction l with
    | nil => intros; rfl
    | cons x xs ih =>
      intro hl s
      simp only [List.foldl_cons]
      rw [← h x s (hl x (by simp)).1 (hl x (by simp)).2]
      exact ih (fun i hi => hl i (by simp [hi])) _
  apply key
  intro i hi
  simp [List.mem_range'_1] at hi
  omega

/-- accumulators as an element of an additive group -/
def accT (a : PartialAcc K) : K × K × K × (ℕ → K) × (ℕ → K) := (a.xs, a.ys, a.k, a.rx, a.ry)

/-- contribution of one pair -/
def pairT (x y : ℕ → K) (i j : ℕ) : K × K × K × (ℕ → K) × (ℕ → K) :=
  (sgn (x j - x i), sgn (y j - y i), sgn (x j - x i) * sgn (y j - y i),
    (fun m => (if m = i then sgn (x i - x j) else 0) + (if m = j then sgn (x j - x i) else 0)),
    (fun m => (if m = i then sgn (y i - y j) else 0) + (if m = j then sgn (y j - y i) else 0)))

theorem accT_step (x y : ℕ → K) {i j : ℕ} (hij : i < j) (a : PartialAcc K) :
    accT (partialStep x y i j a) = accT a + pairT x y i j := by
  unfold accT partialStep pairT
  simp only [sgn_eq_signOf, Prod.mk_add_mk, Prod.mk.injEq, true_and]
  constructor
  · ext m
    by_cases h1 : m = i
    · subst h1
      simp [Function.update_of_ne hij.ne, hij.ne]
      rw [sgn_swap (x m) (x j), sub_eq_add_neg]
    · by_cases h2 : m = j
      · subst h2; simp [h1]
      · simp [h1, h2]
  · ext m
    by_cases h1 : m = i
    · subst h1
      simp [Function.update_of_ne hij.ne, hij.ne]
      rw [sgn_swap (y m) (y j), sub_eq_add_neg]
    · by_cases h2 : m = j
      · subst h2; simp [h1]
      · simp [h1, h2]

theorem accT_init : accT (partialInit (K := K)) = 0 := rfl

theorem sum_pairs_point (n : ℕ) (x : ℕ → K) {m : ℕ} (h1 : 1 ≤ m) (h2 : m ≤ n) :
    ∑ p ∈ pairs n, ((if m = p.1 then sgn (x p.1 - x p.2) else 0) + (if m = p.2 then sgn (x p.2 - x p.1) else 0)) =
      signSum n x m := by
  have h := sum_square n (fun i j => if m = i then sgn (x i - x j) else 0)
  simp only [sub_self, sgn_zero, ite_self, Finset.sum_const_zero, add_zero] at h
  rw [← h]
  unfold signSum
  rw [Finset.sum_eq_single m]
  · simp
  · intro b _ hb; simp [Ne.symm hb]
  · intro hm; simp [h1, h2] at hm

/-- what both partial scans accumulate -/
structure PartialAccOk (n : ℕ) (x y : ℕ → K) (a : PartialAcc K) : Prop where
  xs : a.xs = score n x
  ys : a.ys = score n y
  k : a.k = ∑ p ∈ pairs n, sgn (x p.2 - x p.1) * sgn (y p.2 - y p.1)
  rx : ∀ m, 1 ≤ m → m ≤ n → a.rx m = signSum n x m
  ry : ∀ m, 1 ≤ m → m ≤ n → a.ry m = signSum n y m

theorem PartialAccOk.of_sum {n : ℕ} {x y : ℕ → K} {a : PartialAcc K}
    (h : accT a = ∑ p ∈ pairs n, pairT x y p.1 p.2) : PartialAccOk n x y a := by
  have e1 := congrArg Prod.fst h
  have e2 := congrArg (fun t => t.2.1) h
  have e3 := congrArg (fun t => t.2.2.1) h
  have e4 := congrArg (fun t => t.2.2.2.1) h
  have e5 := congrArg (fun t => t.2.2.2.2) h
  simp only [Prod.fst_sum, Prod.snd_sum, accT, pairT] at e1 e2 e3 e4 e5
  refine ⟨e1, e2, e3, ?_, ?_⟩
  · intro m h1 h2
    rw [e4, Finset.sum_apply, sum_pairs_point n x h1 h2]
  · intro m h1 h2
    rw [e5, Finset.sum_apply, sum_pairs_point n y h1 h2]

theorem partialScan_ok (n : ℕ) (x y : ℕ → K) : PartialAccOk n x y
    (doLoop 1 (n - 1) partialInit fun i a => doLoop (i + 1) n a fun j a => partialStep x y i j a) := by
  apply PartialAccOk.of_sum
  have h1 : ∀ i (a : PartialAcc K), 1 ≤ i → i ≤ n - 1 → accT (doLoop (i + 1) n a fun j a => partialStep x y i j a) =
      accT a + ∑ j ∈ Icc (i + 1) n, pairT x y i j := by
    intro i a i1 i2
    rw [← doLoop_add]
    exact doLoop_map accT (by omega) (fun j a j1 _ => accT_step x y (by omega) a)
  rw [doLoop_map accT (g := fun i t => t + ∑ j ∈ Icc (i + 1) n, pairT x y i j) (by omega) (fun i a i1 i2 => h1 i a i1 i2),
    doLoop_add, accT_init, zero_add, sum_rows n (pairT x y)]

/-- closed form of the statistics -/
theorem partialFinish_ok {n : ℕ} {x y : ℕ → K} {a : PartialAcc K} (h : PartialAccOk n x y a) :
    partialFinish n a =
      (let v : K := (n : K) * ((n : K) - 1) * (2 * (n : K) + 5) / 18
       let rho := dietzKilleen n x y / v
       (score n x - rho * score n y, (1 - rho * rho) * v, score n x / ((1 / 2 : K) * (n : K) * ((n : K) - 1)))) := by
  unfold partialFinish
  have e : (doLoop 1 n (0 : K) fun i s => s + ((n : K) + 1 + a.rx i) / 2 * (((n : K) + 1 + a.ry i) / 2)) =
      ∑ i ∈ Icc 1 n, midRank n x i * midRank n y i := by
    rw [doLoop_add, zero_add]
    apply Finset.sum_congr rfl
    intro i hi
    rw [Finset.mem_Icc] at hi
    rw [h.rx i hi.1 hi.2, h.ry i hi.1 hi.2, midRank_eq, midRank_eq]
  have e2 : dietzKilleen n x y = (a.k + 4 * ∑ i ∈ Icc 1 n, midRank n x i * midRank n y i - (n : K) * ((n : K) + 1) ^ 2) / 3 := by
    unfold dietzKilleen
    simp only [sgn_mul]
    rw [h.k]
  simp only [e, h.xs, h.ys, ← e2]

theorem partialStatsAndSen_ok {n : ℕ} (hn : 2 ≤ n) (x y work : ℕ → K) :
    ∃ a, PartialAccOk n x y a ∧
      partialStatsAndSen n x y work = some (partialFinish n a, some (median (pairSlopes n x))) := by
  unfold partialStatsAndSen
  rw [if_neg (by omega)]
  obtain ⟨s, e, hq, h⟩ := fill_all (σ := PartialAcc K × (ℕ → K) × ℕ) (n := n) x (by omega) (partialInit, work, 0) (fun s => s.2.1)
    (fun lag (st : PartialAcc K × (ℕ → K) × ℕ) => do
      let factor ← rd (n - 1) (invLag (K := K)) lag
      doLoopM 1 (n - lag) st fun i (st : PartialAcc K × (ℕ → K) × ℕ) => do
        let x2 ← rd n x (i + lag)
        let x1 ← rd n x i
        let w ← wr (n * (n - 1) / 2) st.2.1 (st.2.2 + 1) ((x2 - x1) * factor)
        return (partialStep x y i (i + lag) st.1, w, st.2.2 + 1))
    (fun lag i (st : PartialAcc K × (ℕ → K) × ℕ) => do
        let x2 ← rd n x (i + lag)
        let x1 ← rd n x i
        let w ← wr (n * (n - 1) / 2) st.2.1 (st.2.2 + 1) ((x2 - x1) * invLag lag)
        return (partialStep x y i (i + lag) st.1, w, st.2.2 + 1))
    (fun lag i st => st.2.2 = (lag - 1) * (2 * n - lag) / 2 + (i - 1) ∧
      accT st.1 = ∑ l ∈ Icc 1 (lag - 1), ∑ k ∈ Icc 1 (n - l), pairT x y k (k + l)
        + ∑ k ∈ Icc 1 (i - 1), pairT x y k (k + lag))
    (by
      intro lag s l1 l2
      rw [rd_ok l1 (by omega)]
      rfl)
    (by
      intro lag i s l1 l2 i1 i2 ⟨hq1, hq2⟩
      have hb := band_next_le l1 l2
      rw [rd_ok (by omega : 1 ≤ i + lag) (by omega), rd_ok i1 (by omega)]
      simp only [Option.bind_eq_bind, Option.bind_some]
      rw [wr_ok (by omega) (by omega)]
      refine ⟨_, rfl, ⟨?_, ?_⟩, ?_⟩
      · simp only; omega
      · simp only
        rw [accT_step x y (by omega), hq2, Nat.add_sub_cancel, sum_Icc_succ_last _ i1, add_assoc]
      · simp only
        rw [show s.2.2 + 1 = (lag - 1) * (2 * n - lag) / 2 + i by omega]
        rfl)
    (by
      intro lag s l1 l2 ⟨hq1, hq2⟩
      simp only [Nat.add_sub_cancel] at hq1 hq2 ⊢
      refine ⟨?_, ?_⟩
      · rw [hq1, band_step l1 l2]; simp
      · rw [hq2, sum_Icc_succ_last _ l1]
        simp)
    (by simp [accT_init])
  have h1 : 1 ≤ n * (n - 1) / 2 := by
    have : 2 ≤ n * (n - 1) := by
      calc 2 ≤ n := hn
        _ = n * 1 := by ring
        _ ≤ n * (n - 1) := Nat.mul_le_mul_left _ (by omega)
    omega
  refine ⟨s.1, ?_, ?_⟩
  · apply PartialAccOk.of_sum
    rw [hq.2]
    simp only [le_refl, Nat.sub_self, show Icc 1 0 = (∅ : Finset ℕ) from rfl, Finset.sum_empty, add_zero]
    exact sum_lags n (pairT x y)
  · simp only [Option.bind_eq_bind] at e ⊢
    rw [e]
    simp only [Option.bind_some]
    rw [medianByselect_ok _ h1, h]
    rfl

/-! ### correlated grouped statistics -/

theorem doLoop_triangle (f : ℕ → ℕ → K) (hsym : ∀ i j, f i j = f j i) (p : ℕ) :
    (doLoop 1 p (0 : K) fun gi v => doLoop 1 (gi - 1) (v + f gi gi) fun gj v => v + 2 * f gi gj) =
      ∑ g ∈ Icc 1 p, ∑ h ∈ Icc 1 p, f g h := by
  simp only [doLoop_add, add_assoc]
  rw [zero_add, sum_square, Finset.sum_add_distrib, add_comm]
  congr 1
  have : ∀ q : ℕ × ℕ, f q.1 q.2 + f q.2 q.1 = 2 * f q.2 q.1 := by
    intro q; rw [hsym q.1 q.2]; ring
  simp only [this]
  rw [Finset.sum_sigma']
  refine Finset.sum_nbij' (fun x => (x.2, x.1)) (fun q => ⟨q.2, q.1⟩) ?_ ?_ ?_ ?_ ?_
  · rintro ⟨i, j⟩ h; simp [mem_pairs] at h ⊢; omega
  · rintro ⟨i, j⟩ h; simp [mem_pairs] at h ⊢; omega
  · rintro ⟨i, j⟩ _; rfl
  · rintro ⟨i, j⟩ _; rfl
  · rintro ⟨i, j⟩ _; rfl

/-- a sum of the covariance form over all pairs of groups is a sum of squares -/
theorem covForm_sum_nonneg (m p : ℕ) (grp : ℕ → ℕ → K) :
    0 ≤ ∑ g ∈ Icc 1 p, ∑ h ∈ Icc 1 p, covForm m (grp g) (grp h) := by
  unfold covForm
  simp only [← Finset.sum_div, Finset.sum_add_distrib]
  apply div_nonneg _ (by norm_num)
  have e1 : ∑ g ∈ Icc 1 p, ∑ h ∈ Icc 1 p, ∑ q ∈ pairs m, sgn (grp g q.2 - grp g q.1) * sgn (grp h q.2 - grp h q.1) =
      ∑ q ∈ pairs m, (∑ g ∈ Icc 1 p, sgn (grp g q.2 - grp g q.1)) * (∑ g ∈ Icc 1 p, sgn (grp g q.2 - grp g q.1)) := by
    simp only [Finset.sum_mul_sum]
    rw [Finset.sum_comm (s := pairs m)]
    apply Finset.sum_congr rfl; intro g _
    exact Finset.sum_comm
  have e2 : ∑ g ∈ Icc 1 p, ∑ h ∈ Icc 1 p, ∑ q ∈ Icc 1 m, signSum m (grp g) q * signSum m (grp h) q =
      ∑ q ∈ Icc 1 m, (∑ g ∈ Icc 1 p, signSum m (grp g) q) * (∑ g ∈ Icc 1 p, signSum m (grp g) q) := by
    simp only [Finset.sum_mul_sum]
    rw [Finset.sum_comm (s := Icc 1 m)]
    apply Finset.sum_congr rfl; intro g _
    exact Finset.sum_comm
  rw [e1, e2]
  exact add_nonneg (Finset.sum_nonneg fun p _ => mul_self_nonneg _) (Finset.sum_nonneg fun p _ => mul_self_nonneg _)

end Skyborn.MK
