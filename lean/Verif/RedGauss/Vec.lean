/-
The vector analyses compute the quadrature sums of vorticity and divergence.
-/
import Verif.RedGauss.VecRows

namespace Skyborn.RedGauss

open Skyborn

/-- The pair loop adds the even or the odd term. -/
def GoodPair {V : Type*} [AddCommMonoid V] (pair : ℕ → ℕ → (ℕ → V) → (ℕ → V) → (ℕ → V) → ℕ → V) : Prop :=
  ∀ T m even odd acc, m ≤ T → pair T m even odd acc = addDeg T m (alt T m even odd) acc

/-- What the row loop adds for row `j`, degree `n`. -/
noncomputable def rowTerm (T m : ℕ) (wr wrs : ℕ → ℝ) (basis dbasis : ℕ → ℕ → ℝ) (c : VecC) (j n : ℕ) : ℂ × ℂ :=
  if m = 0 then vecTerm0 (wr j * dbasis j (nmOf T m n)) (c.at j 0)
  else vecTerm ((m : ℝ) * wrs j * basis j (nmOf T m n)) (wr j * dbasis j (nmOf T m n)) (c.at j m) (c.at j m)

variable {V : Type*} [AddCommGroup V]

theorem addDeg_congr {T m : ℕ} {t t' : ℕ → V} (h : ∀ n, m ≤ n → n ≤ T → t n = t' n) (acc : ℕ → V) : addDeg T m t acc = addDeg T m t' acc := by
  funext n
  unfold addDeg
  by_cases hh : m ≤ n ∧ n ≤ T
  · rw [if_pos hh, if_pos hh, h n hh.1 hh.2]
  · rw [if_neg hh, if_neg hh]

theorem addDeg_add {T m : ℕ} (t t' : ℕ → V) (acc : ℕ → V) : addDeg T m t' (addDeg T m t acc) = addDeg T m (fun n => t n + t' n) acc := by
  funext n
  unfold addDeg
  by_cases hh : m ≤ n ∧ n ≤ T
  · rw [if_pos hh, if_pos hh, if_pos hh, add_assoc]
  · rw [if_neg hh, if_neg hh, if_neg hh]

/-- The rows that resolve the wavenumber: first those up to the equator, then their mirror images. -/
theorem vecOrder_eq (φ : ℂ × ℂ →+ V) {pair : ℕ → ℕ → (ℕ → V) → (ℕ → V) → (ℕ → V) → ℕ → V} (hp : GoodPair pair)
    {nlat T : ℕ} {pl : ℕ → ℕ} {sym : Bool} {wr wrs : ℕ → ℝ} {basis dbasis : ℕ → ℕ → ℝ} (c : VecC) {m n : ℕ} (hmn : m ≤ n) (hn : n ≤ T)
    (hsym : sym = true → (∀ j, 1 ≤ j → j ≤ nlat / 2 → pl j = pl (nlat - j + 1)) ∧ widening nlat pl)
    (hwr : ∀ j, 1 ≤ j → j ≤ nlat → wr (nlat - j + 1) = wr j) (hwrs : ∀ j, 1 ≤ j → j ≤ nlat → wrs (nlat - j + 1) = wrs j)
    (hb : ∀ j, 1 ≤ j → j ≤ nlat / 2 → mirror T 1 (basis j) (basis (nlat - j + 1)))
    (hd : ∀ j, 1 ≤ j → j ≤ nlat / 2 → mirror T (-1) (dbasis j) (dbasis (nlat - j + 1))) :
    vecOrder nlat T pl sym wr wrs basis dbasis pair (fun dw D => φ (vecTerm0 dw D)) (fun pw dw P D => φ (vecTerm pw dw P D)) c m n =
      ∑ j ∈ (Finset.Icc 1 nlat).filter (fun j => 2 * m ≤ pl j), φ (rowTerm T m wr wrs basis dbasis c j n) := by
  have hmT : m ≤ T := by omega
  have hmid : ∀ acc : ℕ → V, ∀ j, rowLoop T m (fun nm => φ (if m = 0 then vecTerm0 (wr j * dbasis j nm) (c.at j 0)
      else vecTerm ((m : ℝ) * wrs j * basis j nm) (wr j * dbasis j nm) (c.at j m) (c.at j m))) acc =
      addDeg T m (fun n => φ (rowTerm T m wr wrs basis dbasis c j n)) acc := fun acc j => rowLoop_eq hmT _ acc
  unfold vecOrder
  dsimp only
  by_cases hs : sym = true
  · obtain ⟨hpl, hwid⟩ := hsym hs
    rw [if_pos hs]
    -- a pair of rows
    have hpr : ∀ j, 1 ≤ j → j ≤ nlat / 2 → ∀ acc : ℕ → V,
        (pair T m (fun nm => φ (if m = 0 then vecTerm0 (wr j * dbasis j nm) ((c.at j 0).sub (c.at (nlat - j + 1) 0))
            else vecTerm ((m : ℝ) * wrs j * basis j nm) (wr j * dbasis j nm) ((c.at j m).add (c.at (nlat - j + 1) m)) ((c.at j m).sub (c.at (nlat - j + 1) m))))
          (fun nm => φ (if m = 0 then vecTerm0 (wr j * dbasis j nm) ((c.at j 0).add (c.at (nlat - j + 1) 0))
            else vecTerm ((m : ℝ) * wrs j * basis j nm) (wr j * dbasis j nm) ((c.at j m).sub (c.at (nlat - j + 1) m)) ((c.at j m).add (c.at (nlat - j + 1) m)))) acc) =
        addDeg T m (fun n => φ (rowTerm T m wr wrs basis dbasis c j n) + φ (rowTerm T m wr wrs basis dbasis c (nlat - j + 1) n)) acc := by
      intro j h1 h2 acc
      rw [hp T m _ _ _ hmT]
      refine addDeg_congr (fun n h3 h4 => ?_) acc
      rw [← map_add]
      unfold alt rowTerm
      rw [hwr j h1 (by omega), hwrs j h1 (by omega), hb j h1 h2 m n h3 h4, hd j h1 h2 m n h3 h4]
      beta_reduce
      generalize dbasis j (nmOf T m n) = d
      generalize basis j (nmOf T m n) = b
      by_cases hpar : (n - m) % 2 = 0
      · rw [if_pos hpar, (Nat.even_iff.mpr hpar).neg_one_pow]
        by_cases hm0 : m = 0
        · rw [if_pos hm0, if_pos hm0, if_pos hm0, vecTerm0_even, show wr j * (-1 * 1 * d) = -(wr j * d) by ring]
        · rw [if_neg hm0, if_neg hm0, if_neg hm0, vecTerm_even, show wr j * (-1 * 1 * d) = -(wr j * d) by ring, one_mul, one_mul]
      · rw [if_neg hpar, (Nat.odd_iff.mpr (by omega)).neg_one_pow]
        by_cases hm0 : m = 0
        · rw [if_pos hm0, if_pos hm0, if_pos hm0, vecTerm0_odd, show wr j * (-1 * -1 * d) = wr j * d by ring]
        · rw [if_neg hm0, if_neg hm0, if_neg hm0, vecTerm_odd, show wr j * (-1 * -1 * d) = wr j * d by ring,
            show (m : ℝ) * wrs j * (1 * -1 * b) = -((m : ℝ) * wrs j * b) by ring]
    rw [Finset.sum_filter, sum_pairs]
    by_cases hm0 : m = 0
    · rw [if_pos hm0]
      simp only [if_pos hm0] at hpr hmid
      rw [addDeg_loop (T := T) (m := m) (fun _ => True) (fun j n => φ (rowTerm T m wr wrs basis dbasis c j n) + φ (rowTerm T m wr wrs basis dbasis c (nlat - j + 1) n))
        _ _ (by omega) (fun j h1 h2 a => by rw [if_pos trivial]; exact hpr j h1 h2 a), hmid]
      have e0 : ∀ j, (if 2 * m ≤ pl j then φ (rowTerm T m wr wrs basis dbasis c j n) else 0) = φ (rowTerm T m wr wrs basis dbasis c j n) :=
        fun j => if_pos (by omega)
      simp only [e0, Finset.filter_true]
      by_cases hh : (nlat + 1) / 2 > nlat / 2
      · rw [if_pos hh, if_pos hh, addDeg_add]
        unfold addDeg
        rw [if_pos ⟨hmn, hn⟩, zero_add]
      · rw [if_neg hh, if_neg hh]
        unfold addDeg
        rw [if_pos ⟨hmn, hn⟩, zero_add, add_zero]
    · rw [if_neg hm0]
      simp only [if_neg hm0] at hpr hmid
      obtain ⟨f1, f2, f3, f4⟩ := firstFrom_spec (pairs := nlat / 2) (pl := pl) (twom := 2 * m) 1 (by omega)
      generalize firstFrom (nlat / 2) pl (2 * m) 1 = first at f1 f2 f3 f4 ⊢
      rw [addDeg_loop (T := T) (m := m) (fun _ => True) (fun j n => φ (rowTerm T m wr wrs basis dbasis c j n) + φ (rowTerm T m wr wrs basis dbasis c (nlat - j + 1) n))
        _ _ (by omega) (fun j h1 h2 a => by rw [if_pos trivial]; exact hpr j (by omega) h2 a), hmid]
      have hset : ∑ j ∈ Finset.Icc 1 (nlat / 2), ((if 2 * m ≤ pl j then φ (rowTerm T m wr wrs basis dbasis c j n) else 0) +
            if 2 * m ≤ pl (nlat - j + 1) then φ (rowTerm T m wr wrs basis dbasis c (nlat - j + 1) n) else 0) =
          ∑ j ∈ Finset.Icc first (nlat / 2), (φ (rowTerm T m wr wrs basis dbasis c j n) + φ (rowTerm T m wr wrs basis dbasis c (nlat - j + 1) n)) := by
        symm
        refine Finset.sum_subset_zero_on_sdiff ?_ ?_ ?_
        · intro x; simp only [Finset.mem_Icc]; omega
        · intro x hx
          simp only [Finset.mem_sdiff, Finset.mem_Icc] at hx
          have := f3 x (by omega) (by omega)
          have e := hpl x (by omega) (by omega)
          rw [if_neg (by omega), if_neg (by omega), add_zero]
        · intro x hx
          simp only [Finset.mem_Icc] at hx
          have h1 := f4 (by omega)
          have h2 := hwid first x (by omega) (by omega) (by omega)
          have e := hpl x (by omega) (by omega)
          rw [if_pos (by omega), if_pos (by omega)]
      rw [hset]
      simp only [Finset.filter_true]
      by_cases hh : (nlat + 1) / 2 > nlat / 2
      · rw [if_pos hh]
        by_cases hq : 2 * m ≤ pl ((nlat + 1) / 2)
        · rw [if_pos ⟨hh, hq⟩, if_pos hq, addDeg_add]
          unfold addDeg
          rw [if_pos ⟨hmn, hn⟩, zero_add]
        · rw [if_neg (fun h => hq h.2), if_neg hq]
          unfold addDeg
          rw [if_pos ⟨hmn, hn⟩, zero_add, add_zero]
      · rw [if_neg (fun h => hh h.1), if_neg hh]
        unfold addDeg
        rw [if_pos ⟨hmn, hn⟩, zero_add, add_zero]
  · rw [if_neg hs]
    by_cases hm0 : m = 0
    · rw [if_pos hm0]
      simp only [if_pos hm0] at hmid
      rw [addDeg_loop (T := T) (m := m) (fun _ => True) (fun j n => φ (rowTerm T m wr wrs basis dbasis c j n))
        _ _ (by omega) (fun j h1 h2 a => by rw [if_pos trivial]; exact hmid a j)]
      unfold addDeg
      rw [if_pos ⟨hmn, hn⟩, zero_add, Finset.filter_true_of_mem (by simp), Finset.filter_true_of_mem (by intro x _; omega)]
    · rw [if_neg hm0]
      simp only [if_neg hm0] at hmid
      rw [addDeg_loop (T := T) (m := m) (fun j => 2 * m ≤ pl j) (fun j n => φ (rowTerm T m wr wrs basis dbasis c j n))
        _ _ (by omega) (fun j h1 h2 a => by rw [hmid])]
      unfold addDeg
      rw [if_pos ⟨hmn, hn⟩, zero_add]

/-! ### Copying out -/

theorem putOrder_eq {T k m : ℕ} (hm : m ≤ T) (acc : ℕ → V) (out : ℕ → ℕ → V) :
    (∀ n, m ≤ n → n ≤ T → putOrder T k m acc out (nmOf T m n) k = acc n) ∧
    (∀ p k', ¬ (k' = k ∧ ∃ n, m ≤ n ∧ n ≤ T ∧ p = nmOf T m n) → putOrder T k m acc out p k' = out p k') := by
  have key := doLoop_inv (lo := m) (hi := T) (by omega) (s := (specOff m T, out))
    (f := fun n s => (s.1 + 1, Function.update s.2 (s.1 + 1) (Function.update (s.2 (s.1 + 1)) k (acc n))))
    (fun q s => s.1 = specOff m T + (q - m) ∧ (∀ n, m ≤ n → n < q → s.2 (nmOf T m n) k = acc n) ∧
      ∀ p k', ¬ (k' = k ∧ ∃ n, m ≤ n ∧ n ≤ T ∧ p = nmOf T m n) → s.2 p k' = out p k')
    ⟨by simp, fun n h1 h2 => by omega, fun p k' _ => rfl⟩
    (by
      rintro q ⟨nm, o⟩ h1 h2 ⟨e1, e2, e3⟩
      dsimp only at e1 e2 e3 ⊢
      have hnm : nm + 1 = nmOf T m q := by rw [nmOf_off hm]; omega
      rw [hnm]
      refine ⟨by omega, fun n a1 a2 => ?_, fun p k' h => ?_⟩
      · by_cases e : n = q
        · subst e; rw [Function.update_self, Function.update_self]
        · rw [Function.update_of_ne, e2 n a1 (by omega)]
          intro h
          exact e (nmOf_inj a1 (by omega) h1 h2 h).2
      · by_cases e : p = nmOf T m q
        · subst e
          rw [Function.update_self, Function.update_of_ne fun hk => h ⟨hk, q, h1, h2, rfl⟩]
          exact e3 _ _ h
        · rw [Function.update_of_ne e]; exact e3 _ _ h)
  unfold putOrder
  exact ⟨fun n h1 h2 => key.2.1 n h1 (by omega), key.2.2⟩

/-- All slices. -/
theorem vecSlices_eq {E : Env} (hE : E.ok) (φ : ℂ × ℂ →+ V) {pair : ℕ → ℕ → (ℕ → V) → (ℕ → V) → (ℕ → V) → ℕ → V} (hp : GoodPair pair)
    {plan pl offs : ℕ → ℕ} {nlat T nt : ℕ} {sym : Bool} {wr wrs : ℕ → ℝ} {basis dbasis : ℕ → ℕ → ℝ}
    (hplan : ∀ j, 1 ≤ j → j ≤ nlat → plan j = pl j) (hpl : ∀ j, 1 ≤ j → j ≤ nlat → 1 ≤ pl j)
    (hoffs : ∀ j, 1 ≤ j → j ≤ nlat + 1 → offs j = Spec.rowStart pl j)
    (hsym : sym = true → (∀ j, 1 ≤ j → j ≤ nlat / 2 → pl j = pl (nlat - j + 1)) ∧ widening nlat pl)
    (hwr : ∀ j, 1 ≤ j → j ≤ nlat → wr (nlat - j + 1) = wr j) (hwrs : ∀ j, 1 ≤ j → j ≤ nlat → wrs (nlat - j + 1) = wrs j)
    (hb : ∀ j, 1 ≤ j → j ≤ nlat / 2 → mirror T 1 (basis j) (basis (nlat - j + 1)))
    (hd : ∀ j, 1 ≤ j → j ≤ nlat / 2 → mirror T (-1) (dbasis j) (dbasis (nlat - j + 1)))
    (u v : ℕ → ℕ → ℝ) (s : (ℕ → ℕ → V) × VecC) :
    ∀ k, 1 ≤ k → k ≤ nt → ∀ m n, m ≤ n → n ≤ T →
      (vecSlices E plan pl offs nlat T nt sym wr wrs basis dbasis pair (fun dw D => φ (vecTerm0 dw D)) (fun pw dw P D => φ (vecTerm pw dw P D)) u v s).1 (nmOf T m n) k =
        ∑ j ∈ (Finset.Icc 1 nlat).filter (fun j => 2 * m ≤ pl j), φ (rowDV m (wrs j * basis j (nmOf T m n)) (wr j * dbasis j (nmOf T m n))
          (Spec.circleCoef (pl j) (fun i => u (Spec.rowStart pl j + i) k) m) (Spec.circleCoef (pl j) (fun i => v (Spec.rowStart pl j + i) k) m)) := by
  have key := doLoop_inv (lo := 1) (hi := nt) (by omega) (s := s)
    (f := fun k s => (parLoop E 0 T s.1 fun m out => putOrder T k m (vecOrder nlat T pl sym wr wrs basis dbasis pair (fun dw D => φ (vecTerm0 dw D)) (fun pw dw P D => φ (vecTerm pw dw P D))
        (vecRows E plan pl offs nlat T (fun p => u p k) (fun p => v p k) s.2) m) out,
      vecRows E plan pl offs nlat T (fun p => u p k) (fun p => v p k) s.2))
    (fun q s => ∀ k, 1 ≤ k → k < q → ∀ m n, m ≤ n → n ≤ T → s.1 (nmOf T m n) k =
        ∑ j ∈ (Finset.Icc 1 nlat).filter (fun j => 2 * m ≤ pl j), φ (rowDV m (wrs j * basis j (nmOf T m n)) (wr j * dbasis j (nmOf T m n))
          (Spec.circleCoef (pl j) (fun i => u (Spec.rowStart pl j + i) k) m) (Spec.circleCoef (pl j) (fun i => v (Spec.rowStart pl j + i) k) m)))
    (fun k h1 h2 => by omega)
    (by
      rintro k ⟨out, c⟩ h1 h2 ih
      dsimp only at ih ⊢
      have hrow := fun j m => @vecRows_eq E hE plan pl offs nlat T hplan hpl (fun p => u p k) (fun p => v p k) c j m
      generalize vecRows E plan pl offs nlat T (fun p => u p k) (fun p => v p k) c = d at hrow ⊢
      intro k' hk1 hk2 m n hmn hn
      by_cases ek : k' = k
      · subst ek
        have hval : ∀ out, putOrder T k' m (vecOrder nlat T pl sym wr wrs basis dbasis pair (fun dw D => φ (vecTerm0 dw D)) (fun pw dw P D => φ (vecTerm pw dw P D)) d m) out (nmOf T m n) k' =
            ∑ j ∈ (Finset.Icc 1 nlat).filter (fun j => 2 * m ≤ pl j), φ (rowDV m (wrs j * basis j (nmOf T m n)) (wr j * dbasis j (nmOf T m n))
          (Spec.circleCoef (pl j) (fun i => u (Spec.rowStart pl j + i) k') m) (Spec.circleCoef (pl j) (fun i => v (Spec.rowStart pl j + i) k') m)) := by
          intro out
          rw [(putOrder_eq (by omega) _ _).1 n hmn hn, vecOrder_eq φ hp d hmn hn hsym hwr hwrs hb hd]
          refine Finset.sum_congr rfl fun j hj => ?_
          rw [Finset.mem_filter, Finset.mem_Icc] at hj
          obtain ⟨r1, r2, r3⟩ := hrow j m hj.1.1 hj.1.2 (by omega) hj.2
          rw [hoffs j hj.1.1 (by omega)] at r1 r2 r3
          congr 1
          unfold rowTerm
          by_cases hm0 : m = 0
          · subst hm0
            rw [if_pos rfl]
            exact vecTerm0_eq r1 r2 (circleCoef_zero_im _ _) (circleCoef_zero_im _ _)
          · rw [if_neg hm0, mul_assoc]
            obtain ⟨r3, r4⟩ := r3 (by omega)
            exact vecTerm_eq r1 r2 r3 r4
        refine parLoop_post hE (j := m) (fun o : ℕ → ℕ → V => o (nmOf T m n) k' = _) (by omega) (by omega) hval ?_
        intro m' o _ hm' hne ho
        rw [(putOrder_eq hm' _ _).2 _ _ ?_]
        · exact ho
        · rintro ⟨_, n', a1, a2, a3⟩
          exact hne (nmOf_inj hmn hn a1 a2 a3).1.symm
      · refine parLoop_keep hE (fun o : ℕ → ℕ → V => o (nmOf T m n) k' = _) (ih k' hk1 (by omega) m n hmn hn) ?_
        intro m' o _ hm' ho
        rw [(putOrder_eq hm' _ _).2 _ _ fun h => ek h.1]
        exact ho)
  intro k h1 h2
  exact key k h1 (by omega)

theorem pairTwo_good : GoodPair (V := V) pairTwo := fun _ _ even odd acc h => pairTwo_eq h even odd acc

theorem pairParity_good : GoodPair (V := V) pairParity := fun _ _ even odd acc h => pairParity_eq h even odd acc

/-- The inputs both routines are given by the Python layer: a grid, its weights and tables. -/
structure VecArgs (pl : ℕ → ℕ) (w : ℕ → ℝ) (basis dbasis : ℕ → ℕ → ℝ) (sinTheta : ℕ → ℝ) (nlat T : ℕ) : Prop where
  /-- at least three rows -/ h3 : 3 ≤ nlat
  /-- truncation -/ hT : T ≤ nlat - 1
  /-- every row has a point -/ hpl : ∀ j, 1 ≤ j → j ≤ nlat → 1 ≤ pl j
  /-- off the poles -/ hsin : ∀ j, 1 ≤ j → j ≤ nlat → 0 < sinTheta j
  /-- symmetric rows -/ hss : ∀ j, 1 ≤ j → j ≤ nlat → sinTheta (nlat - j + 1) = sinTheta j
  /-- symmetric weights -/ hw : ∀ j, 1 ≤ j → j ≤ nlat → w (nlat - j + 1) = w j
  /-- parity of the functions -/ hb : ∀ j, 1 ≤ j → j ≤ nlat / 2 → mirror T 1 (basis j) (basis (nlat - j + 1))
  /-- parity of the derivatives -/ hd : ∀ j, 1 ≤ j → j ≤ nlat / 2 → mirror T (-1) (dbasis j) (dbasis (nlat - j + 1))

/-- **Vorticity and divergence.** -/
theorem getvrtdivspec_eq {E : Env} (hE : E.ok) {c : Option FftCache} (hc : CacheGood c) (vc : Option VecCache) (u v : ℕ → ℕ → ℝ) {pl : ℕ → ℕ} {w : ℕ → ℝ}
    {basis dbasis : ℕ → ℕ → ℝ} {sinTheta : ℕ → ℝ} {ngptot nlat T nt : ℕ} {r : ℝ} (ha : VecArgs pl w basis dbasis sinTheta nlat T) (hnt : 1 ≤ nt) (hr : 0 < r)
    (htot : Spec.rowStart pl (nlat + 1) = ngptot) :
    ∃ out c' vc', getvrtdivspec E c vc u v pl w basis dbasis sinTheta ngptot nlat T nt r = .ok (out, c', vc') ∧ CacheGood (some c') ∧
      ((symmetricPl nlat pl = true → widening nlat pl) → ∀ k, 1 ≤ k → k ≤ nt → ∀ m n, m ≤ n → n ≤ T → out (nmOf T m n) k =
        ∑ j ∈ (Finset.Icc 1 nlat).filter (fun j => 2 * m ≤ pl j), rowDV m (w j * (1 / r) / sinTheta j * basis j (nmOf T m n)) (w j * (1 / r) * dbasis j (nmOf T m n))
          (Spec.circleCoef (pl j) (fun i => u (Spec.rowStart pl j + i) k) m) (Spec.circleCoef (pl j) (fun i => v (Spec.rowStart pl j + i) k) m)) := by
  obtain ⟨offs, hs, ho⟩ := scanRows_ok (nlat := nlat) (pl := pl) (good := fun j => decide (¬ sinTheta j ≤ 0))
    fun j h1 h2 => ⟨ha.hpl j h1 h2, by simpa using ha.hsin j h1 h2⟩
  obtain ⟨hplan, hcache⟩ := prepare_plan hc nlat pl
  unfold getvrtdivspec
  rw [if_neg (by have := ha.h3; omega), if_neg (by have := ha.hT; omega), if_neg (by omega), if_neg (by linarith), hs]
  dsimp only
  rw [if_neg (by simpa using htot)]
  refine ⟨_, _, _, rfl, hcache, fun hwid k h1 h2 m n hmn hn => ?_⟩
  refine (vecSlices_eq hE (AddMonoidHom.id (ℂ × ℂ)) pairTwo_good hplan ha.hpl ho ?_ ?_ ?_ ha.hb ha.hd u v _ k h1 h2 m n hmn hn)
  · intro h; exact ⟨symmetricPl_iff.mp h, hwid h⟩
  · intro j a1 a2; rw [ha.hw j a1 a2]
  · intro j a1 a2; rw [ha.hw j a1 a2, ha.hss j a1 a2]

/-- The component the second routine keeps. -/
noncomputable def selHom (component : ℕ) : ℂ × ℂ →+ ℂ := if component = 1 then AddMonoidHom.snd ℂ ℂ else AddMonoidHom.fst ℂ ℂ

theorem selHom_eq (component : ℕ) (x : ℂ × ℂ) : (if component = 1 then x.2 else x.1) = selHom component x := by
  unfold selHom; split_ifs <;> rfl

/-- **One component.** -/
theorem getvecspecComponent_eq {E : Env} (hE : E.ok) {c : Option FftCache} (hc : CacheGood c) (u v : ℕ → ℕ → ℝ) {pl : ℕ → ℕ} {w : ℕ → ℝ}
    {basis dbasis : ℕ → ℕ → ℝ} {sinTheta : ℕ → ℝ} {ngptot nlat T nt component : ℕ} {r : ℝ} (ha : VecArgs pl w basis dbasis sinTheta nlat T) (hnt : 1 ≤ nt) (hr : 0 < r)
    (hcomp : component = 1 ∨ component = 2)
    (htot : Spec.rowStart pl (nlat + 1) = ngptot) :
    ∃ out c', getvecspecComponent E c u v pl w basis dbasis sinTheta ngptot nlat T nt r component = .ok (out, c') ∧ CacheGood (some c') ∧
      ((symmetricPl nlat pl = true → widening nlat pl) → ∀ k, 1 ≤ k → k ≤ nt → ∀ m n, m ≤ n → n ≤ T → out (nmOf T m n) k =
        ∑ j ∈ (Finset.Icc 1 nlat).filter (fun j => 2 * m ≤ pl j), selHom component (rowDV m (w j * (1 / r) / sinTheta j * basis j (nmOf T m n)) (w j * (1 / r) * dbasis j (nmOf T m n))
          (Spec.circleCoef (pl j) (fun i => u (Spec.rowStart pl j + i) k) m) (Spec.circleCoef (pl j) (fun i => v (Spec.rowStart pl j + i) k) m))) := by
  obtain ⟨offs, hs, ho⟩ := scanRows_ok (nlat := nlat) (pl := pl) (good := fun j => decide (¬ sinTheta j ≤ 0))
    fun j h1 h2 => ⟨ha.hpl j h1 h2, by simpa using ha.hsin j h1 h2⟩
  obtain ⟨hplan, hcache⟩ := prepare_plan hc nlat pl
  unfold getvecspecComponent
  rw [if_neg (by have := ha.h3; omega), if_neg (by have := ha.hT; omega), if_neg (by omega), if_neg (by linarith), if_neg (by omega), hs]
  dsimp only
  rw [if_neg (by simpa using htot)]
  refine ⟨_, _, rfl, hcache, fun hwid k h1 h2 m n hmn hn => ?_⟩
  simp only [selHom_eq]
  refine (vecSlices_eq hE (selHom component) pairParity_good hplan ha.hpl ho ?_ ?_ ?_ ha.hb ha.hd u v _ k h1 h2 m n hmn hn)
  · intro h; exact ⟨symmetricPl_iff.mp h, hwid h⟩
  · intro j a1 a2; rw [ha.hw j a1 a2]
  · intro j a1 a2; rw [ha.hw j a1 a2, ha.hss j a1 a2]

end Skyborn.RedGauss
