/-
The gradient and two-field routines as a whole.
-/
import Verif.RedGauss.GradIter

namespace Skyborn.RedGauss

open Skyborn

theorem syn2Pair_eq {E : Env} {plan N offset offsetS T nt : ℕ} (hp : plan = N) (hoff : offset + N ≤ offsetS) (sa sb : ℕ → ℕ → ℂ) {b b' : ℕ → ℝ}
    (hb : mirror T 1 b b') (junk : ℕ → ℕ → ℝ) (g : Grids) {c : ℕ} (hc1 : 1 ≤ c) (hc2 : c ≤ 2) (p k' : ℕ) :
    syn2Pair E plan N offset offsetS T nt sa sb b junk g c p k' =
      if (1 ≤ k' ∧ k' ≤ nt) ∧ offset < p ∧ p ≤ offset + N then
        synVal N T (fun nm => sa nm k') (fun nm => sb nm k') b c (lam N (p - offset))
      else if (1 ≤ k' ∧ k' ≤ nt) ∧ offsetS < p ∧ p ≤ offsetS + N then
        synVal N T (fun nm => sa nm k') (fun nm => sb nm k') b' c (lam N (p - offsetS))
      else g c p k' := by
  unfold syn2Pair
  dsimp only
  generalize hbuf : doLoop 1 nt junk _ = buf
  have hrow : ∀ k, 1 ≤ k → k ≤ nt → ∀ q, 1 ≤ q → q ≤ N → q ≤ 2 * min T (N / 2) + 1 →
      buf (4 * k - 4 + 1) q = fourRow (min T (N / 2)) (cosC T (fun nm => sa nm k) b) (sinC T (fun nm => sa nm k) b) q ∧
      buf (4 * k - 4 + 2) q = fourRow (min T (N / 2)) (cosC T (fun nm => sb nm k) b) (sinC T (fun nm => sb nm k) b) q ∧
      buf (4 * k - 2 + 1) q = fourRow (min T (N / 2)) (cosC T (fun nm => sa nm k) b') (sinC T (fun nm => sa nm k) b') q ∧
      buf (4 * k - 2 + 2) q = fourRow (min T (N / 2)) (cosC T (fun nm => sb nm k) b') (sinC T (fun nm => sb nm k) b') q := by
    intro k hk1 hk2 q q1 q2 q3
    rw [← hbuf]
    refine ⟨?_, ?_, ?_, ?_⟩
    · refine slice_row (fun k => cosC T (fun nm => sa nm k) b) (fun k => sinC T (fun nm => sa nm k) b) _ (F := fun k m buf => _) hk1 hk2 ?_ q1 q2 q3
      intro k'' m buf hm
      obtain ⟨p1, p2, -, -⟩ := pair_sums (show m ≤ T by omega) (fun nm => sa nm k'') (first := true) (b := b) (b' := b') (by simpa [sgn] using hb)
      by_cases e : k'' = k
      · subst e; rw [putModeRow_apply, if_neg (by omega), putModeRow_apply, if_neg (by omega), putModeRow_apply, if_neg (by omega), putModeRow_apply, if_pos (by omega), if_pos rfl, p1, p2]
      · rw [putModeRow_apply, if_neg (by omega), putModeRow_apply, if_neg (by omega), putModeRow_apply, if_neg (by omega), putModeRow_apply, if_neg (by omega), if_neg e]
    · refine slice_row (fun k => cosC T (fun nm => sb nm k) b) (fun k => sinC T (fun nm => sb nm k) b) _ (F := fun k m buf => _) hk1 hk2 ?_ q1 q2 q3
      intro k'' m buf hm
      obtain ⟨p1, p2, -, -⟩ := pair_sums (show m ≤ T by omega) (fun nm => sb nm k'') (first := true) (b := b) (b' := b') (by simpa [sgn] using hb)
      by_cases e : k'' = k
      · subst e; rw [putModeRow_apply, if_neg (by omega), putModeRow_apply, if_neg (by omega), putModeRow_apply, if_pos (by omega), putModeRow_apply, if_neg (by omega), if_pos rfl, p1, p2]
      · rw [putModeRow_apply, if_neg (by omega), putModeRow_apply, if_neg (by omega), putModeRow_apply, if_neg (by omega), putModeRow_apply, if_neg (by omega), if_neg e]
    · refine slice_row (fun k => cosC T (fun nm => sa nm k) b') (fun k => sinC T (fun nm => sa nm k) b') _ (F := fun k m buf => _) hk1 hk2 ?_ q1 q2 q3
      intro k'' m buf hm
      obtain ⟨-, -, p3, p4⟩ := pair_sums (show m ≤ T by omega) (fun nm => sa nm k'') (first := true) (b := b) (b' := b') (by simpa [sgn] using hb)
      by_cases e : k'' = k
      · subst e; rw [putModeRow_apply, if_neg (by omega), putModeRow_apply, if_pos (by omega), putModeRow_apply, if_neg (by omega), putModeRow_apply, if_neg (by omega), if_pos rfl, p3, p4]
      · rw [putModeRow_apply, if_neg (by omega), putModeRow_apply, if_neg (by omega), putModeRow_apply, if_neg (by omega), putModeRow_apply, if_neg (by omega), if_neg e]
    · refine slice_row (fun k => cosC T (fun nm => sb nm k) b') (fun k => sinC T (fun nm => sb nm k) b') _ (F := fun k m buf => _) hk1 hk2 ?_ q1 q2 q3
      intro k'' m buf hm
      obtain ⟨-, -, p3, p4⟩ := pair_sums (show m ≤ T by omega) (fun nm => sb nm k'') (first := true) (b := b) (b' := b') (by simpa [sgn] using hb)
      by_cases e : k'' = k
      · subst e; rw [putModeRow_apply, if_pos (by omega), putModeRow_apply, if_neg (by omega), putModeRow_apply, if_neg (by omega), putModeRow_apply, if_neg (by omega), if_pos rfl, p3, p4]
      · rw [putModeRow_apply, if_neg (by omega), putModeRow_apply, if_neg (by omega), putModeRow_apply, if_neg (by omega), putModeRow_apply, if_neg (by omega), if_neg e]
  refine (slices_loop (R := 2) (σ := Grids) (nt := nt) id
    (fun p => (offset < p ∧ p ≤ offset + N) ∨ (offsetS < p ∧ p ≤ offsetS + N))
    (fun c p k => if offset < p ∧ p ≤ offset + N then synVal N T (fun nm => sa nm k) (fun nm => sb nm k) b c (lam N (p - offset))
      else synVal N T (fun nm => sa nm k) (fun nm => sb nm k) b' c (lam N (p - offsetS))) _ _ ?_ hc1 hc2 p k').trans ?_
  rotate_left
  · dsimp only [id]
    by_cases h1 : offset < p ∧ p ≤ offset + N
    · by_cases hk : 1 ≤ k' ∧ k' ≤ nt
      · rw [if_pos ⟨hk, Or.inl h1⟩, if_pos h1, if_pos ⟨hk, h1⟩]
      · rw [if_neg (by tauto), if_neg (by tauto), if_neg (by tauto)]
    · rw [if_neg (c := (1 ≤ k' ∧ k' ≤ nt) ∧ offset < p ∧ p ≤ offset + N) (by tauto), if_neg h1]
      by_cases h2 : (1 ≤ k' ∧ k' ≤ nt) ∧ offsetS < p ∧ p ≤ offsetS + N
      · rw [if_pos h2, if_pos ⟨h2.1, Or.inr h2.2⟩]
      · rw [if_neg h2, if_neg (by tauto)]
  · intro k st c p k' hk1 hk2 h1 h2
    dsimp only [id]
    rw [putRows_eq _ _ _ _ _ _ _ h1 h2, putRows_eq _ _ _ _ _ _ _ h1 h2]
    have hcc : c = 1 ∨ c = 2 := by omega
    by_cases hs : k' = k ∧ offsetS < p ∧ p ≤ offsetS + N
    · rw [if_pos hs, if_pos ⟨hs.1, Or.inr hs.2⟩, if_neg (by omega)]
      unfold synVal
      rcases hcc with rfl | rfl
      · rw [if_pos rfl]
        exact fftbRow hp (by omega) (by omega) _ _ _ (fun q q1 q2 q3 => (hrow k hk1 hk2 q q1 q2 q3).2.2.1) (by omega) (by omega)
      · rw [if_neg (by omega)]
        exact fftbRow hp (by omega) (by omega) _ _ _ (fun q q1 q2 q3 => (hrow k hk1 hk2 q q1 q2 q3).2.2.2) (by omega) (by omega)
    · rw [if_neg hs]
      by_cases hn : k' = k ∧ offset < p ∧ p ≤ offset + N
      · rw [if_pos hn, if_pos ⟨hn.1, Or.inl hn.2⟩, if_pos hn.2]
        unfold synVal
        rcases hcc with rfl | rfl
        · rw [if_pos rfl]
          exact fftbRow hp (by omega) (by omega) _ _ _ (fun q q1 q2 q3 => (hrow k hk1 hk2 q q1 q2 q3).1) (by omega) (by omega)
        · rw [if_neg (by omega)]
          exact fftbRow hp (by omega) (by omega) _ _ _ (fun q q1 q2 q3 => (hrow k hk1 hk2 q q1 q2 q3).2.1) (by omega) (by omega)
      · rw [if_neg hn, if_neg (by tauto)]

/-- Both ways of visiting the rows, when a pair of rows and a single row write the right values. -/
theorem visit {E : Env} (hE : E.ok) {nlat nt R : ℕ} {pl : ℕ → ℕ} (one two : ℕ → Grids → Grids) (val : ℕ → ℕ → ℕ → ℕ → ℝ) (g : Grids)
    (h1 : ∀ j, 1 ≤ j → j ≤ nlat → ∀ g c p k, 1 ≤ c → c ≤ R → one j g c p k =
      if (1 ≤ k ∧ k ≤ nt) ∧ inRow pl j p then val j (p - Spec.rowStart pl j) k c else g c p k)
    (h2 : symmetricPl nlat pl = true → ∀ j, 1 ≤ j → j ≤ nlat / 2 → ∀ g c p k, 1 ≤ c → c ≤ R → two j g c p k =
      if (1 ≤ k ∧ k ≤ nt) ∧ inRow pl j p then val j (p - Spec.rowStart pl j) k c
      else if (1 ≤ k ∧ k ≤ nt) ∧ inRow pl (nlat - j + 1) p then val (nlat - j + 1) (p - Spec.rowStart pl (nlat - j + 1)) k c
      else g c p k) :
    ∀ j i k c, 1 ≤ j → j ≤ nlat → 1 ≤ i → i ≤ pl j → 1 ≤ k → k ≤ nt → 1 ≤ c → c ≤ R →
      (if symmetricPl nlat pl then parLoop E 1 ((nlat + 1) / 2) g fun j g => if j ≤ nlat / 2 then two j g else one j g
        else parLoop E 1 nlat g one) c (Spec.rowStart pl j + i) k = val j i k c := by
  intro j i k c a1 a2 a3 a4 a5 a6 a7 a8
  by_cases hsym : symmetricPl nlat pl = true
  · rw [if_pos hsym]
    exact rows_half (ι := {c : ℕ // 1 ≤ c ∧ c ≤ R}) hE (fun (s : Grids) p k c => s c.1 p k) (fun j i k c => val j i k c.1) two one g
      (fun j b1 b2 s p k c => h2 hsym j b1 b2 s c.1 p k c.2.1 c.2.2) (fun j b1 b2 s p k c => h1 j b1 b2 s c.1 p k c.2.1 c.2.2)
      j i k ⟨c, a7, a8⟩ a1 a2 a3 a4 a5 a6
  · rw [if_neg hsym]
    exact rows_direct (ι := {c : ℕ // 1 ≤ c ∧ c ≤ R}) hE (fun (s : Grids) p k c => s c.1 p k) (fun j i k c => val j i k c.1) one g
      (fun j b1 b2 s p k c => h1 j b1 b2 s c.1 p k c.2.1 c.2.2)
      j i k ⟨c, a7, a8⟩ a1 a2 a3 a4 a5 a6

/-- **Synthesis of two fields.** -/
theorem spectogrdPair_eq {E : Env} (hE : E.ok) {c : Option FftCache} (hc : CacheGood c) (sa sb : ℕ → ℕ → ℂ) {pl : ℕ → ℕ}
    {basis : ℕ → ℕ → ℝ} {ngptot nlat T nt : ℕ} (h3 : 3 ≤ nlat) (hT : T ≤ nlat - 1) (hnt : 1 ≤ nt)
    (hpl : ∀ j, 1 ≤ j → j ≤ nlat → 1 ≤ pl j) (htot : Spec.rowStart pl (nlat + 1) = ngptot)
    (hpar : ∀ j, 1 ≤ j → j ≤ nlat / 2 → mirror T 1 (basis j) (basis (nlat - j + 1))) :
    ∃ out c', spectogrdPair E c sa sb pl basis (nmDim T) nlat T nt ngptot = .ok (out, c') ∧ CacheGood (some c') ∧
      ∀ j i k c, 1 ≤ j → j ≤ nlat → 1 ≤ i → i ≤ pl j → 1 ≤ k → k ≤ nt → 1 ≤ c → c ≤ 2 → out c (Spec.rowStart pl j + i) k =
        synVal (pl j) T (fun nm => sa nm k) (fun nm => sb nm k) (basis j) c (lam (pl j) i) := by
  obtain ⟨offs, hs, ho⟩ := scanRows_ok (nlat := nlat) (pl := pl) (good := fun _ => true) fun j h1 h2 => ⟨hpl j h1 h2, rfl⟩
  obtain ⟨hplan, hcache⟩ := prepare_plan hc nlat pl
  unfold spectogrdPair
  rw [if_neg (by omega), if_neg (by omega), if_neg (by simp), if_neg (by omega), hs]
  dsimp only
  rw [if_neg (by simpa using htot)]
  refine ⟨_, _, rfl, hcache, ?_⟩
  refine visit hE _ _ (fun j i k c => synVal (pl j) T (fun nm => sa nm k) (fun nm => sb nm k) (basis j) c (lam (pl j) i)) _ ?_ ?_
  · intro j h1 h2 g c p k hc1 hc2
    rw [syn2Row_eq (hplan j h1 h2) _ _ _ _ _ hc1 hc2, ho j h1 (by omega)]; rfl
  · intro hsym j h1 h2 g c p k hc1 hc2
    have e : pl (nlat - j + 1) = pl j := (symmetricPl_iff.mp hsym j h1 h2).symm
    rw [syn2Pair_eq (hplan j h1 (by omega)) (by rw [ho j h1 (by omega), ho _ (by omega) (by omega)]; exact pair_sep h1 h2) _ _ (hpar j h1 h2) _ _ hc1 hc2,
      ho j h1 (by omega), ho _ (by omega) (by omega)]
    have e2 : inRow pl (nlat - j + 1) p ↔ Spec.rowStart pl (nlat - j + 1) < p ∧ p ≤ Spec.rowStart pl (nlat - j + 1) + pl j := by
      unfold inRow; rw [e]
    simp only [e2, e]; rfl

/-- **The gradient.** -/
theorem getgrad_eq {E : Env} (hE : E.ok) {c : Option FftCache} (hc : CacheGood c) (spec : ℕ → ℕ → ℂ) {pl : ℕ → ℕ}
    {basis dbasis : ℕ → ℕ → ℝ} {sinTheta : ℕ → ℝ} {ngptot nlat T nt : ℕ} {r : ℝ} (h3 : 3 ≤ nlat) (hT : T ≤ nlat - 1) (hnt : 1 ≤ nt) (hr : 0 < r)
    (hpl : ∀ j, 1 ≤ j → j ≤ nlat → 1 ≤ pl j) (hsin : ∀ j, 1 ≤ j → j ≤ nlat → 0 < sinTheta j) (htot : Spec.rowStart pl (nlat + 1) = ngptot)
    (hss : ∀ j, 1 ≤ j → j ≤ nlat → sinTheta (nlat - j + 1) = sinTheta j)
    (hpar : ∀ j, 1 ≤ j → j ≤ nlat / 2 → mirror T 1 (basis j) (basis (nlat - j + 1)))
    (hpard : ∀ j, 1 ≤ j → j ≤ nlat / 2 → mirror T (-1) (dbasis j) (dbasis (nlat - j + 1))) :
    ∃ out c', getgrad E c spec pl basis dbasis sinTheta (nmDim T) nlat T nt ngptot r = .ok (out, c') ∧ CacheGood (some c') ∧
      ∀ j i k c, 1 ≤ j → j ≤ nlat → 1 ≤ i → i ≤ pl j → 1 ≤ k → k ≤ nt → 1 ≤ c → c ≤ 2 → out c (Spec.rowStart pl j + i) k =
        gradVal (pl j) T (1 / r) (1 / r / sinTheta j) (fun nm => spec nm k) (basis j) (dbasis j) c (lam (pl j) i) := by
  obtain ⟨offs, hs, ho⟩ := scanRows_ok (nlat := nlat) (pl := pl) (good := fun j => decide (¬ sinTheta j ≤ 0))
    fun j h1 h2 => ⟨hpl j h1 h2, by simpa using hsin j h1 h2⟩
  obtain ⟨hplan, hcache⟩ := prepare_plan hc nlat pl
  unfold getgrad
  rw [if_neg (by omega), if_neg (by omega), if_neg (by simp), if_neg (by omega), if_neg (by linarith), hs]
  dsimp only
  rw [if_neg (by simpa using htot)]
  refine ⟨_, _, rfl, hcache, ?_⟩
  have ek : ∀ j, 2 * (1 / r) / sinTheta j = 2 * (1 / r / sinTheta j) := fun j => by ring
  refine visit hE _ _ (fun j i k c => gradVal (pl j) T (1 / r) (1 / r / sinTheta j) (fun nm => spec nm k) (basis j) (dbasis j) c (lam (pl j) i)) _ ?_ ?_
  · intro j h1 h2 g c p k hc1 hc2
    rw [ek, gradRow_eq (hplan j h1 h2) _ _ _ _ hc1 hc2, ho j h1 (by omega)]; rfl
  · intro hsym j h1 h2 g c p k hc1 hc2
    have e : pl (nlat - j + 1) = pl j := (symmetricPl_iff.mp hsym j h1 h2).symm
    rw [ek, gradPair_eq (hplan j h1 (by omega)) (by rw [ho j h1 (by omega), ho _ (by omega) (by omega)]; exact pair_sep h1 h2) _ (hpar j h1 h2)
      (hpard j h1 h2) _ hc1 hc2, ho j h1 (by omega), ho _ (by omega) (by omega)]
    have e2 : inRow pl (nlat - j + 1) p ↔ Spec.rowStart pl (nlat - j + 1) < p ∧ p ≤ Spec.rowStart pl (nlat - j + 1) + pl j := by
      unfold inRow; rw [e]
    simp only [e2, e, hss j h1 (show j ≤ nlat by omega)]; rfl

/-- **The gradients of two fields.** -/
theorem getgradPair_eq {E : Env} (hE : E.ok) {c : Option FftCache} (hc : CacheGood c) (sa sb : ℕ → ℕ → ℂ) {pl : ℕ → ℕ}
    {basis dbasis : ℕ → ℕ → ℝ} {sinTheta : ℕ → ℝ} {ngptot nlat T nt : ℕ} {r : ℝ} (h3 : 3 ≤ nlat) (hT : T ≤ nlat - 1) (hnt : 1 ≤ nt) (hr : 0 < r)
    (hpl : ∀ j, 1 ≤ j → j ≤ nlat → 1 ≤ pl j) (hsin : ∀ j, 1 ≤ j → j ≤ nlat → 0 < sinTheta j) (htot : Spec.rowStart pl (nlat + 1) = ngptot)
    (hss : ∀ j, 1 ≤ j → j ≤ nlat → sinTheta (nlat - j + 1) = sinTheta j)
    (hpar : ∀ j, 1 ≤ j → j ≤ nlat / 2 → mirror T 1 (basis j) (basis (nlat - j + 1)))
    (hpard : ∀ j, 1 ≤ j → j ≤ nlat / 2 → mirror T (-1) (dbasis j) (dbasis (nlat - j + 1))) :
    ∃ out c', getgradPair E c sa sb pl basis dbasis sinTheta (nmDim T) nlat T nt ngptot r = .ok (out, c') ∧ CacheGood (some c') ∧
      ∀ j i k c, 1 ≤ j → j ≤ nlat → 1 ≤ i → i ≤ pl j → 1 ≤ k → k ≤ nt → 1 ≤ c → c ≤ 4 → out c (Spec.rowStart pl j + i) k =
        grad2Val (pl j) T (1 / r) (1 / r / sinTheta j) (fun nm => sa nm k) (fun nm => sb nm k) (basis j) (dbasis j) c (lam (pl j) i) := by
  obtain ⟨offs, hs, ho⟩ := scanRows_ok (nlat := nlat) (pl := pl) (good := fun j => decide (¬ sinTheta j ≤ 0))
    fun j h1 h2 => ⟨hpl j h1 h2, by simpa using hsin j h1 h2⟩
  obtain ⟨hplan, hcache⟩ := prepare_plan hc nlat pl
  unfold getgradPair
  rw [if_neg (by omega), if_neg (by omega), if_neg (by simp), if_neg (by omega), if_neg (by linarith), hs]
  dsimp only
  rw [if_neg (by simpa using htot)]
  refine ⟨_, _, rfl, hcache, ?_⟩
  have ek : ∀ j, 2 * (1 / r) / sinTheta j = 2 * (1 / r / sinTheta j) := fun j => by ring
  refine visit hE _ _ (fun j i k c => grad2Val (pl j) T (1 / r) (1 / r / sinTheta j) (fun nm => sa nm k) (fun nm => sb nm k) (basis j) (dbasis j) c (lam (pl j) i)) _ ?_ ?_
  · intro j h1 h2 g c p k hc1 hc2
    rw [ek, grad2Row_eq (hplan j h1 h2) _ _ _ _ _ hc1 hc2, ho j h1 (by omega)]; rfl
  · intro hsym j h1 h2 g c p k hc1 hc2
    have e : pl (nlat - j + 1) = pl j := (symmetricPl_iff.mp hsym j h1 h2).symm
    rw [ek, grad2Pair_eq (hplan j h1 (by omega)) ((hplan _ (by omega) (by omega)).trans e)
      (by rw [ho j h1 (by omega), ho _ (by omega) (by omega)]; exact pair_sep h1 h2) _ _ (hpar j h1 h2)
      (hpard j h1 h2) _ hc1 hc2, ho j h1 (by omega), ho _ (by omega) (by omega)]
    have e2 : inRow pl (nlat - j + 1) p ↔ Spec.rowStart pl (nlat - j + 1) < p ∧ p ≤ Spec.rowStart pl (nlat - j + 1) + pl j := by
      unfold inRow; rw [e]
    simp only [e2, e, hss j h1 (show j ≤ nlat by omega)]; rfl

end Skyborn.RedGauss
