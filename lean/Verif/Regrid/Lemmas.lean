import Verif.Common.FlatLoops
import Verif.Regrid.Model
import Verif.Regrid.Spec
import Mathlib.Tactic.Linarith
import Mathlib.Tactic.FieldSimp
import Mathlib.Algebra.Order.BigOperators.Group.Finset
import Mathlib.Algebra.BigOperators.Field

namespace Skyborn.Regrid

open Skyborn

section
variable {K : Type} [Field K] [LinearOrder K]

theorem strictInc_of_adj {n : ℕ} {x : ℕ → K} (h : ∀ i, 1 ≤ i → i < n → x (i - 1) < x i) : Spec.StrictInc n x := by
  intro i j hij hj
  induction j with
  | zero => omega
  | succ j ih =>
    have h1 := h (j + 1) (by omega) hj
    simp only [Nat.add_sub_cancel] at h1
    rcases Nat.lt_succ_iff_lt_or_eq.mp hij with h2 | h2
    · exact (ih h2 (by omega)).trans h1
    · subst h2; exact h1

theorem isStrictlyIncreasing_spec (n : ℕ) (x : ℕ → K) :
    ∃ b, isStrictlyIncreasing n x = some b ∧ (b = true ↔ Spec.StrictInc n x) := by
  unfold isStrictlyIncreasing
  by_cases hn : n ≤ 1
  · rw [if_pos hn]
    refine ⟨true, rfl, ?_⟩
    simp only [true_iff]
    intro i j h1 h2; omega
  · rw [if_neg hn]
    obtain ⟨b, e, hb⟩ := forM_inv (lo := 1) (hi := n) (by omega) (s := true)
      (f := fun i ok => if ok then do
        let a ← rd0 n x i
        let b ← rd0 n x (i - 1)
        return decide (a > b)
      else return false)
      (fun i (b : Bool) => b = true ↔ ∀ j, 1 ≤ j → j < i → x (j - 1) < x j)
      (by simp only [true_iff]; intro j h1 h2; omega)
      (by
        intro i b h1 h2 hb
        cases b with
        | false =>
          refine ⟨false, rfl, ?_⟩
          simp only [Bool.false_eq_true, false_iff] at hb ⊢
          exact fun h => hb fun j h3 h4 => h j h3 (by omega)
        | true =>
          refine ⟨decide (x i > x (i - 1)), by simp [rd0_ok h2, rd0_ok (show i - 1 < n by omega)], ?_⟩
          simp only [true_iff] at hb
          simp only [decide_eq_true_eq]
          constructor
          · intro h j h3 h4
            rcases Nat.lt_succ_iff_lt_or_eq.mp h4 with h5 | h5
            · exact hb j h3 h5
            · subst h5; exact h
          · intro h; exact h i h1 (by omega))
    refine ⟨b, e, hb.trans ⟨strictInc_of_adj, fun h j h1 h2 => h _ _ (by omega) h2⟩⟩

theorem isStrictlyIncreasing_true {n : ℕ} {x : ℕ → K} (h : Spec.StrictInc n x) : isStrictlyIncreasing n x = some true := by
  obtain ⟨b, e, hb⟩ := isStrictlyIncreasing_spec n x
  rw [e, hb.mpr h]

theorem isStrictlyIncreasing_false {n : ℕ} {x : ℕ → K} (h : ¬ Spec.StrictInc n x) : isStrictlyIncreasing n x = some false := by
  obtain ⟨b, e, hb⟩ := isStrictlyIncreasing_spec n x
  cases b with
  | false => exact e
  | true => exact absurd (hb.mp rfl) h

/-- What `normalize_weight_rows` leaves in the matrix. -/
def normWeight (ncols : ℕ) (O : ℕ → ℕ → K) (i j : ℕ) : K :=
  if (∑ k ∈ Finset.range ncols, O i k) > 1 / 10 ^ 15 then O i j / ∑ k ∈ Finset.range ncols, O i k else 1 / (ncols : K)

theorem normalizeWeightRows_spec {nrows ncols : ℕ} (hc : 0 < ncols) (w : ℕ → K) (O : ℕ → ℕ → K)
    (hw : ∀ i j, i < nrows → j < ncols → w (i * ncols + j) = O i j) :
    ∃ w', normalizeWeightRows nrows ncols w = .ok w' ∧
      ∀ i j, i < nrows → j < ncols → w' (i * ncols + j) = normWeight ncols O i j := by
  unfold normalizeWeightRows
  rw [if_neg (by omega)]
  obtain ⟨w', e, h⟩ := forM_inv (Nat.zero_le nrows) (s := w)
    (f := fun i w => do
      let rowSum ← forM 0 ncols (0 : K) fun j s => do
        let x ← rd0 (nrows * ncols) w (i * ncols + j)
        return s + x
      if rowSum > 1 / 10 ^ 15 then
        forM 0 ncols w fun j w => do
          let x ← rd0 (nrows * ncols) w (i * ncols + j)
          wr0 (nrows * ncols) w (i * ncols + j) (x / rowSum)
      else
        let uniform := 1 / (ncols : K)
        forM 0 ncols w fun j w => wr0 (nrows * ncols) w (i * ncols + j) uniform)
    (fun r b => (∀ i j, i < r → j < ncols → b (i * ncols + j) = normWeight ncols O i j) ∧
      ∀ i j, r ≤ i → i < nrows → j < ncols → b (i * ncols + j) = O i j)
    ⟨by intro i j h; omega, fun i j _ h1 h2 => hw i j h1 h2⟩
    (by
      rintro r b - hr ⟨h1, h2⟩
      have es : (forM 0 ncols (0 : K) fun j s => do
          let x ← rd0 (nrows * ncols) b (r * ncols + j)
          return s + x) = some (0 + ∑ k ∈ Finset.Ico 0 ncols, O r k) := by
        apply forM_sum (Nat.zero_le _)
        intro j _ hj s
        simp [rd0_ok (flat_lt hr hj), h2 r j le_rfl hr hj]
      rw [zero_add, Nat.Ico_zero_eq_range] at es
      beta_reduce
      rw [es]
      have key : ∃ b', (if (∑ k ∈ Finset.range ncols, O r k) > 1 / 10 ^ 15 then
            forM 0 ncols b fun j w => do
              let x ← rd0 (nrows * ncols) w (r * ncols + j)
              wr0 (nrows * ncols) w (r * ncols + j) (x / ∑ k ∈ Finset.range ncols, O r k)
          else forM 0 ncols b fun j w => wr0 (nrows * ncols) w (r * ncols + j) (1 / (ncols : K))) = some b' ∧
          (∀ j, 0 ≤ j → j < ncols → b' (r * ncols + j) = normWeight ncols O r j) ∧
          ∀ p, (∀ j, 0 ≤ j → j < ncols → r * ncols + j ≠ p) → b' p = b p := by
        unfold normWeight
        by_cases hs : (∑ k ∈ Finset.range ncols, O r k) > 1 / 10 ^ 15
        · simp only [if_pos hs]
          refine forM_write (Nat.zero_le _) (fun j => r * ncols + j) _ (by intro i j _ _ _ _ e; omega) ?_
          intro j _ hj c hc _
          simp only [rd0_ok (flat_lt hr hj), wr0_ok (flat_lt hr hj), Option.bind_some]
          rw [hc, h2 r j le_rfl hr hj]
          rfl
        · simp only [if_neg hs]
          refine forM_write (Nat.zero_le _) (fun j => r * ncols + j) _ (by intro i j _ _ _ _ e; omega) ?_
          intro j _ hj c hc _
          rw [wr0_ok (flat_lt hr hj)]
      obtain ⟨b', e, h3, h4⟩ := key
      refine ⟨b', e, ?_, ?_⟩
      · intro i j hi hj
        rcases Nat.lt_succ_iff_lt_or_eq.mp hi with h5 | h5
        · rw [h4 _ fun k _ hk e => by have := flat_inj hk hj e; omega]
          exact h1 i j h5 hj
        · subst h5; exact h3 j (Nat.zero_le _) hj
      · intro i j hi hi' hj
        rw [h4 _ fun k _ hk e => by have := flat_inj hk hj e; omega]
        exact h2 i j (by omega) hi' hj)
  refine ⟨w', ?_, h.1⟩
  have e' := congrArg run e
  exact e'

theorem normWeight_sum [IsStrictOrderedRing K] {ncols : ℕ} (hc : 0 < ncols) (O : ℕ → ℕ → K) (i : ℕ) :
    ∑ j ∈ Finset.range ncols, normWeight ncols O i j = 1 := by
  unfold normWeight
  by_cases hs : (∑ k ∈ Finset.range ncols, O i k) > 1 / 10 ^ 15
  · simp only [if_pos hs]
    rw [← Finset.sum_div]
    have : (0 : K) < 1 / 10 ^ 15 := by positivity
    exact div_self (ne_of_gt (this.trans hs))
  · simp only [if_neg hs]
    rw [Finset.sum_const, Finset.card_range, nsmul_eq_mul]
    have : (ncols : K) ≠ 0 := by exact_mod_cast hc.ne'
    field_simp

theorem normWeight_nonneg [IsStrictOrderedRing K] {ncols : ℕ} {O : ℕ → ℕ → K} {i : ℕ} (h : ∀ j, j < ncols → 0 ≤ O i j) {j : ℕ} (hj : j < ncols) :
    0 ≤ normWeight ncols O i j := by
  unfold normWeight
  split
  · exact div_nonneg (h j hj) (Finset.sum_nonneg fun k hk => h k (Finset.mem_range.mp hk))
  · positivity

theorem latBounds_spec (halfpi : K) {n : ℕ} (hn : 0 < n) (x buf : ℕ → K) :
    ∃ b, latBounds halfpi n x buf = some b ∧ ∀ i, i ≤ n → b i = Spec.latEdge halfpi n x i := by
  unfold latBounds
  rw [wr0_ok (by omega)]
  simp only [Option.bind_eq_bind, Option.bind_some]
  rw [wr0_ok (by omega)]
  simp only [Option.bind_some]
  obtain ⟨b, e, h1, h2⟩ := forM_write (lo := 1) (hi := n) (by omega)
    (a := Function.update (Function.update buf 0 (-halfpi)) n halfpi)
    (f := fun i b => (rd0 n x (i - 1)).bind fun u => (rd0 n x i).bind fun v => wr0 (n + 1) b i (1 / 2 * (u + v)))
    (fun i => i) (fun i => (x (i - 1) + x i) / 2) (by intro i j _ _ _ _ e; exact e)
    (by
      intro j hj1 hj2 b _ _
      simp only [rd0_ok hj2, rd0_ok (show j - 1 < n by omega), wr0_ok (show j < n + 1 by omega), Option.bind_some]
      rw [one_div, inv_mul_eq_div])
  refine ⟨b, e, ?_⟩
  intro i hi
  unfold Spec.latEdge
  by_cases h0 : i = 0
  · subst h0
    rw [if_pos rfl, h2 0 (by intro j h1 _; omega), Function.update_of_ne (by omega)]
    simp
  · rw [if_neg h0]
    by_cases h3 : i = n
    · subst h3
      rw [if_pos rfl, h2 i (by intro j _ h4; omega)]
      simp
    · rw [if_neg h3]
      exact h1 i (by omega) (by omega)

/-- One entry of the latitude overlap matrix. -/
def latEntry (sin : K → K) (t0 t1 s0 s1 : K) : K := if min t1 s1 > max t0 s0 then sin (min t1 s1) - sin (max t0 s0) else 0

theorem latOverlap_spec (sin : K → K) (nsrc ntgt : ℕ) (sb tb w : ℕ → K) :
    ∃ w', latOverlap sin nsrc ntgt sb tb w = some w' ∧ ∀ i j, i < ntgt → j < nsrc →
      w' (i * nsrc + j) = latEntry sin (tb i) (tb (i + 1)) (sb j) (sb (j + 1)) := by
  unfold latOverlap
  obtain ⟨w', e, h, -⟩ := forM2_write (n := ntgt) (m := nsrc) (off := 0) (a := w)
    (f := fun itgt isrc w => do
      let t1 ← rd0 (ntgt + 1) tb (itgt + 1)
      let s1 ← rd0 (nsrc + 1) sb (isrc + 1)
      let t0 ← rd0 (ntgt + 1) tb itgt
      let s0 ← rd0 (nsrc + 1) sb isrc
      let upper := min t1 s1
      let lower := max t0 s0
      let overlap := if upper > lower then sin upper - sin lower else 0
      wr0 (ntgt * nsrc) w (itgt * nsrc + isrc) overlap)
    (fun i j => latEntry sin (tb i) (tb (i + 1)) (sb j) (sb (j + 1)))
    (by
      intro i j hi hj b _
      rw [rd0_ok (show i + 1 < ntgt + 1 by omega), rd0_ok (show j + 1 < nsrc + 1 by omega), rd0_ok (show i < ntgt + 1 by omega),
        rd0_ok (show j < nsrc + 1 by omega)]
      simp only [Option.bind_eq_bind, Option.bind_some, Nat.zero_add]
      rw [wr0_ok (flat_lt hi hj)]
      rfl)
  refine ⟨w', e, fun i j hi hj => ?_⟩
  have := h i j hi hj
  rwa [Nat.zero_add] at this

/-- The weight matrix of `conservative_latitude_weights`. -/
theorem latitudeWeights_spec [IsStrictOrderedRing K] (sin : K → K) (halfpi : K) {nsrc ntgt : ℕ} (hs : 0 < nsrc) (ht : 0 < ntgt) {src tgt : ℕ → K}
    (hsi : Spec.StrictInc nsrc src) (hti : Spec.StrictInc ntgt tgt) :
    ∃ w, latitudeWeights sin halfpi nsrc src ntgt tgt = .ok w ∧ ∀ i j, i < ntgt → j < nsrc → w (i * nsrc + j) =
      normWeight nsrc (fun i j => latEntry sin (Spec.latEdge halfpi ntgt tgt i) (Spec.latEdge halfpi ntgt tgt (i + 1))
        (Spec.latEdge halfpi nsrc src j) (Spec.latEdge halfpi nsrc src (j + 1))) i j := by
  unfold latitudeWeights
  rw [if_neg (by omega), isStrictlyIncreasing_true hsi, isStrictlyIncreasing_true hti]
  obtain ⟨sb, e1, h1⟩ := latBounds_spec halfpi hs src fun _ => 0
  obtain ⟨tb, e2, h2⟩ := latBounds_spec halfpi ht tgt fun _ => 0
  obtain ⟨w, e3, h3⟩ := latOverlap_spec sin nsrc ntgt sb tb fun _ => 0
  rw [e1, e2]
  simp only [run, bind, Except.bind, Bool.and_self, if_true]
  rw [e3]
  obtain ⟨w', e4, h4⟩ := normalizeWeightRows_spec (nrows := ntgt) hs w (fun i j => latEntry sin (tb i) (tb (i + 1)) (sb j) (sb (j + 1))) h3
  refine ⟨w', e4, fun i j hi hj => ?_⟩
  rw [h4 i j hi hj]
  have ec : ∀ k, k < nsrc → latEntry sin (tb i) (tb (i + 1)) (sb k) (sb (k + 1)) = latEntry sin (Spec.latEdge halfpi ntgt tgt i)
      (Spec.latEdge halfpi ntgt tgt (i + 1)) (Spec.latEdge halfpi nsrc src k) (Spec.latEdge halfpi nsrc src (k + 1)) := by
    intro k hk
    rw [h1 k (by omega), h1 (k + 1) (by omega), h2 i (by omega), h2 (i + 1) (by omega)]
  unfold normWeight
  beta_reduce
  rw [ec j hj, Finset.sum_congr rfl fun k hk => ec k (Finset.mem_range.mp hk)]

end
end Skyborn.Regrid
