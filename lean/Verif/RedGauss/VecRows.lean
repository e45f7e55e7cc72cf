/-
The vector analyses: Fourier sums of the rows, and the contributions of a pair of rows.
-/
import Verif.RedGauss.VecLoops
import Verif.RedGauss.Analysis

namespace Skyborn.RedGauss

open Skyborn

/-- The Fourier sums of row `j` stand for the Fourier coefficients of `u` and `v`. -/
def Four.stands (a : Four) (U V : ℂ) : Prop := a.uc = U.re ∧ a.us = -U.im ∧ a.vc = V.re ∧ a.vs = -V.im

theorem circleCoef_zero_im (N : ℕ) (x : ℕ → ℝ) : (Spec.circleCoef N x 0).im = 0 := by rw [circleCoef_im]; simp

theorem vecRow_eq {E : Env} {j plan N T : ℕ} (hp : plan = N) (hN : 1 ≤ N) (xu xv : ℕ → ℝ) (c : VecC) {m : ℕ} (hm : m ≤ T) (hm2 : 2 * m ≤ N) :
    ((vecRow E j plan N T xu xv c).at j m).uc = (Spec.circleCoef N xu m).re ∧
    ((vecRow E j plan N T xu xv c).at j m).vc = (Spec.circleCoef N xv m).re ∧
    (1 ≤ m → ((vecRow E j plan N T xu xv c).at j m).us = -(Spec.circleCoef N xu m).im ∧
      ((vecRow E j plan N T xu xv c).at j m).vs = -(Spec.circleCoef N xv m).im) := by
  have fc : ∀ (junk x : ℕ → ℝ) (q : ℕ), 2 * q ≤ N → 1 ≤ q →
      hrfftf N (doLoop 1 N junk fun i r => Function.update r i (x i)) (2 * q) * (1 / (N : ℝ)) = (Spec.circleCoef N x q).re := by
    intro junk x q hq h1
    rw [← circleCoef_congr (m := q) fun i h1 h2 => fill_row x junk h1 h2, circleCoef_re]
    conv_lhs => unfold hrfftf
    rw [if_neg (by omega), if_neg (by omega), if_pos (by omega), show 2 * q / 2 = q by omega]
  have fs : ∀ (junk x : ℕ → ℝ) (q : ℕ), 2 * q ≤ N → 1 ≤ q →
      (if 2 * q < N then -(hrfftf N (doLoop 1 N junk fun i r => Function.update r i (x i)) (2 * q + 1)) * (1 / (N : ℝ)) else 0)
        = -(Spec.circleCoef N x q).im := by
    intro junk x q hq h1
    rw [← circleCoef_congr (m := q) fun i h1 h2 => fill_row x junk h1 h2, circleCoef_im]
    by_cases h : 2 * q < N
    · rw [if_pos h]
      conv_lhs => unfold hrfftf
      rw [if_neg (by omega), if_neg (by omega), if_neg (by omega), show (2 * q + 1) / 2 = q by omega]; ring
    · rw [if_neg h, Finset.sum_eq_zero, neg_zero, zero_mul, neg_zero]
      intro i hi
      rw [Finset.mem_Icc] at hi
      rw [sin_nyquist hN (by omega) hi.1, mul_zero]
  have f0 : ∀ (junk x : ℕ → ℝ),
      hrfftf N (doLoop 1 N junk fun i r => Function.update r i (x i)) 1 * (1 / (N : ℝ)) = (Spec.circleCoef N x 0).re := by
    intro junk x
    rw [← circleCoef_congr (m := 0) fun i h1 h2 => fill_row x junk h1 h2, circleCoef_re]
    conv_lhs => unfold hrfftf
    rw [if_neg (by omega), if_pos rfl]
    simp
  unfold vecRow
  dsimp only
  rw [Env.fftf, if_pos hp, Env.fftf, if_pos hp]
  unfold VecC.at
  dsimp only
  generalize hF : hrfftf N (doLoop 1 N (E.junk j 1) fun i r => Function.update r i (xu i)) = F
  generalize hH : hrfftf N (doLoop 1 N (E.junk j 2) fun i r => Function.update r i (xv i)) = H
  have key := doLoop_inv (lo := 1) (hi := min T (N / 2)) (by omega)
    (s := { c with uc := Function.update c.uc j (Function.update (c.uc j) 0 (F 1 * (1 / (N : ℝ)))), vc := Function.update c.vc j (Function.update (c.vc j) 0 (H 1 * (1 / (N : ℝ)))) })
    (f := fun m c => ({
      uc := Function.update c.uc j (Function.update (c.uc j) m (F (2 * m) * (1 / (N : ℝ)))),
      us := Function.update c.us j (Function.update (c.us j) m (if 2 * m < N then -(F (2 * m + 1)) * (1 / (N : ℝ)) else 0)),
      vc := Function.update c.vc j (Function.update (c.vc j) m (H (2 * m) * (1 / (N : ℝ)))),
      vs := Function.update c.vs j (Function.update (c.vs j) m (if 2 * m < N then -(H (2 * m + 1)) * (1 / (N : ℝ)) else 0)) } : VecC))
    (fun q s => ∀ m, m < q → s.uc j m = (Spec.circleCoef N xu m).re ∧ s.vc j m = (Spec.circleCoef N xv m).re ∧
      (1 ≤ m → s.us j m = -(Spec.circleCoef N xu m).im ∧ s.vs j m = -(Spec.circleCoef N xv m).im))
    (by
      intro m hm
      have : m = 0 := by omega
      subst this
      simp only [Function.update_self]
      refine ⟨by rw [← hF]; exact f0 _ _, by rw [← hH]; exact f0 _ _, fun h => by omega⟩)
    (by
      intro q w h1 h2 ih i hi
      by_cases e : i = q
      · subst e; simp only [Function.update_self]
        refine ⟨by rw [← hF]; exact fc _ _ i (by omega) h1, by rw [← hH]; exact fc _ _ i (by omega) h1, fun _ => ⟨?_, ?_⟩⟩
        · rw [← hF]; exact fs _ _ i (by omega) h1
        · rw [← hH]; exact fs _ _ i (by omega) h1
      · simp only [Function.update_self, Function.update_of_ne e]; exact ih i (by omega))
  exact key m (by omega)

/-- Row `j` of the four arrays. -/
def VecC.row (c : VecC) (j : ℕ) : (ℕ → ℝ) × (ℕ → ℝ) × (ℕ → ℝ) × (ℕ → ℝ) := (c.uc j, c.us j, c.vc j, c.vs j)

theorem VecC.at_of_row {c d : VecC} {j : ℕ} (h : c.row j = d.row j) (m : ℕ) : c.at j m = d.at j m := by
  unfold VecC.row at h
  simp only [Prod.mk.injEq] at h
  unfold VecC.at
  rw [h.1, h.2.1, h.2.2.1, h.2.2.2]

/-- Work on row `j` leaves the other rows alone. -/
theorem vecRow_other {E : Env} {j plan N T : ℕ} (xu xv : ℕ → ℝ) (c : VecC) {q : ℕ} (hq : q ≠ j) : (vecRow E j plan N T xu xv c).row q = c.row q := by
  unfold vecRow
  dsimp only
  refine doLoop_inv (lo := 1) (hi := min T (N / 2)) (by omega) (fun _ s => VecC.row s q = c.row q) ?_ ?_
  · unfold VecC.row; simp only [Function.update_of_ne hq]
  · intro p w _ _ ih
    unfold VecC.row at ih ⊢; simp only [Function.update_of_ne hq]; exact ih

/-- What iteration `j` of a parallel loop establishes, and the others keep, holds afterwards. -/
theorem parLoop_post {σ : Type*} {E : Env} (hE : E.ok) {lo hi : ℕ} {s : σ} {f : ℕ → σ → σ} (Q : σ → Prop) {j : ℕ} (h1 : lo ≤ j) (h2 : j ≤ hi)
    (hj : ∀ s, Q (f j s)) (hk : ∀ i s, lo ≤ i → i ≤ hi → i ≠ j → Q s → Q (f i s)) : Q (parLoop E lo hi s f) := by
  unfold parLoop
  have hperm := hE (List.range' lo (hi + 1 - lo))
  have hmem : ∀ i, i ∈ E.order (List.range' lo (hi + 1 - lo)) ↔ lo ≤ i ∧ i ≤ hi := fun i => by
    rw [hperm.mem_iff, List.mem_range'_1]; omega
  have keep : ∀ l : List ℕ, (∀ i ∈ l, lo ≤ i ∧ i ≤ hi) → ∀ s, Q s → Q (l.foldl (fun s i => f i s) s) := by
    intro l
    induction l with
    | nil => intro _ s h; exact h
    | cons x xs ih =>
      intro h s hs
      rw [List.foldl_cons]
      refine ih (fun i hi => h i (by simp [hi])) _ ?_
      by_cases e : x = j
      · rw [e]; exact hj s
      · exact hk x s (h x (by simp)).1 (h x (by simp)).2 e hs
  have main : ∀ l : List ℕ, (∀ i ∈ l, lo ≤ i ∧ i ≤ hi) → j ∈ l → ∀ s, Q (l.foldl (fun s i => f i s) s) := by
    intro l
    induction l with
    | nil => intro _ h; simp at h
    | cons x xs ih =>
      intro h hm s
      rw [List.foldl_cons]
      by_cases e : x = j
      · exact keep xs (fun i hi => h i (by simp [hi])) _ (by rw [e]; exact hj s)
      · exact ih (fun i hi => h i (by simp [hi])) (by rcases List.mem_cons.mp hm with h' | h'; exact absurd h'.symm e; exact h') _
  exact main _ (fun i hi => (hmem i).mp hi) ((hmem j).mpr ⟨h1, h2⟩) s

/-- What every iteration of a parallel loop keeps holds afterwards. -/
theorem parLoop_keep {σ : Type*} {E : Env} (hE : E.ok) {lo hi : ℕ} {s : σ} {f : ℕ → σ → σ} (Q : σ → Prop) (h0 : Q s)
    (hk : ∀ i s, lo ≤ i → i ≤ hi → Q s → Q (f i s)) : Q (parLoop E lo hi s f) := by
  unfold parLoop
  have hperm := hE (List.range' lo (hi + 1 - lo))
  have hmem : ∀ i ∈ E.order (List.range' lo (hi + 1 - lo)), lo ≤ i ∧ i ≤ hi := fun i => by
    rw [hperm.mem_iff, List.mem_range'_1]; omega
  revert hmem s
  generalize E.order (List.range' lo (hi + 1 - lo)) = l
  induction l with
  | nil => intro s h _; exact h
  | cons x xs ih =>
    intro s h0 h
    exact ih (hk x s (h x (by simp)).1 (h x (by simp)).2 h0) (fun i hi => h i (by simp [hi]))

/-- Sums of the analysed rows, for any earlier contents of the arrays. -/
theorem vecRows_eq {E : Env} (hE : E.ok) {plan pl offs : ℕ → ℕ} {nlat T : ℕ} (hplan : ∀ j, 1 ≤ j → j ≤ nlat → plan j = pl j)
    (hpl : ∀ j, 1 ≤ j → j ≤ nlat → 1 ≤ pl j) (u v : ℕ → ℝ) (c : VecC) {j m : ℕ} (h1 : 1 ≤ j) (h2 : j ≤ nlat) (hm : m ≤ T) (hm2 : 2 * m ≤ pl j) :
    let a := (vecRows E plan pl offs nlat T u v c).at j m
    a.uc = (Spec.circleCoef (pl j) (fun i => u (offs j + i)) m).re ∧ a.vc = (Spec.circleCoef (pl j) (fun i => v (offs j + i)) m).re ∧
    (1 ≤ m → a.us = -(Spec.circleCoef (pl j) (fun i => u (offs j + i)) m).im ∧ a.vs = -(Spec.circleCoef (pl j) (fun i => v (offs j + i)) m).im) := by
  unfold vecRows
  refine parLoop_post hE (fun c : VecC => (c.at j m).uc = (Spec.circleCoef (pl j) (fun i => u (offs j + i)) m).re ∧ (c.at j m).vc = (Spec.circleCoef (pl j) (fun i => v (offs j + i)) m).re ∧
    (1 ≤ m → (c.at j m).us = -(Spec.circleCoef (pl j) (fun i => u (offs j + i)) m).im ∧ (c.at j m).vs = -(Spec.circleCoef (pl j) (fun i => v (offs j + i)) m).im)) h1 h2 ?_ ?_
  · intro s
    exact vecRow_eq (hplan j h1 h2) (hpl j h1 h2) _ _ s hm hm2
  · intro i s _ _ hi hs
    rw [VecC.at_of_row (vecRow_other (E := E) (plan := plan i) (N := pl i) (T := T) _ _ s (Ne.symm hi)) m]
    exact hs

/-! ### One wavenumber -/

/-- A sum over rows, by pairs. -/
theorem sum_pairs {V : Type*} [AddCommMonoid V] (nlat : ℕ) (f : ℕ → V) :
    ∑ j ∈ Finset.Icc 1 nlat, f j = ∑ j ∈ Finset.Icc 1 (nlat / 2), (f j + f (nlat - j + 1)) + if (nlat + 1) / 2 > nlat / 2 then f ((nlat + 1) / 2) else 0 := by
  have key : ∀ q, q ≤ nlat / 2 → ∑ j ∈ Finset.Icc 1 nlat, f j =
      ∑ j ∈ Finset.Icc 1 q, (f j + f (nlat - j + 1)) + ∑ j ∈ Finset.Icc (q + 1) (nlat - q), f j := by
    intro q
    induction q with
    | zero => intro _; simp
    | succ q ih =>
      intro hq
      have e : Finset.Icc (q + 1) (nlat - q) = insert (q + 1) (insert (nlat - q) (Finset.Icc (q + 1 + 1) (nlat - (q + 1)))) := by
        ext x; simp only [Finset.mem_Icc, Finset.mem_insert]; omega
      have e' : Finset.Icc 1 (q + 1) = insert (q + 1) (Finset.Icc 1 q) := by
        ext x; simp only [Finset.mem_Icc, Finset.mem_insert]; omega
      rw [ih (by omega), e, e', Finset.sum_insert (by simp only [Finset.mem_insert, Finset.mem_Icc]; omega),
        Finset.sum_insert (by simp only [Finset.mem_Icc]; omega), Finset.sum_insert (by simp only [Finset.mem_Icc]; omega),
        show nlat - (q + 1) + 1 = nlat - q by omega]
      abel
  rw [key (nlat / 2) le_rfl]
  congr 1
  split_ifs with h
  · rw [show Finset.Icc (nlat / 2 + 1) (nlat - nlat / 2) = {(nlat + 1) / 2} by ext x; simp only [Finset.mem_Icc, Finset.mem_singleton]; omega,
      Finset.sum_singleton]
  · rw [Finset.Icc_eq_empty (by omega), Finset.sum_empty]

/-- Rows from the poles to the equator never get shorter. -/
def widening (nlat : ℕ) (pl : ℕ → ℕ) : Prop := ∀ i j, 1 ≤ i → i ≤ j → j ≤ (nlat + 1) / 2 → pl i ≤ pl j

/-- What row `j` contributes to (divergence, vorticity), order `m`. -/
noncomputable def rowDV (m : ℕ) (pw dw : ℝ) (U V : ℂ) : ℂ × ℂ :=
  (Complex.I * (m * pw) * U + dw * V, Complex.I * (m * pw) * V - dw * U)

theorem vecTerm_eq {m : ℕ} {pw dw : ℝ} {a : Four} {U V : ℂ} (h1 : a.uc = U.re) (h2 : a.vc = V.re) (h3 : a.us = -U.im) (h4 : a.vs = -V.im) :
    vecTerm ((m : ℝ) * pw) dw a a = rowDV m pw dw U V := by
  unfold vecTerm rowDV
  rw [h1, h2, h3, h4]
  refine Prod.ext ?_ ?_ <;> apply Complex.ext <;> simp <;> ring

theorem vecTerm0_eq {pw dw : ℝ} {a : Four} {U V : ℂ} (h1 : a.uc = U.re) (h2 : a.vc = V.re) (h3 : U.im = 0) (h4 : V.im = 0) :
    vecTerm0 dw a = rowDV 0 pw dw U V := by
  unfold vecTerm0 rowDV
  rw [h1, h2]
  refine Prod.ext ?_ ?_ <;> apply Complex.ext <;> simp [h3, h4]

theorem vecTerm_even (pw dw : ℝ) (a b : Four) : vecTerm pw dw (a.add b) (a.sub b) = vecTerm pw dw a a + vecTerm pw (-dw) b b := by
  unfold vecTerm Four.add Four.sub
  refine Prod.ext ?_ ?_ <;> apply Complex.ext <;> simp <;> ring

theorem vecTerm_odd (pw dw : ℝ) (a b : Four) : vecTerm pw dw (a.sub b) (a.add b) = vecTerm pw dw a a + vecTerm (-pw) dw b b := by
  unfold vecTerm Four.add Four.sub
  refine Prod.ext ?_ ?_ <;> apply Complex.ext <;> simp <;> ring

theorem vecTerm0_even (dw : ℝ) (a b : Four) : vecTerm0 dw (a.sub b) = vecTerm0 dw a + vecTerm0 (-dw) b := by
  unfold vecTerm0 Four.sub
  refine Prod.ext ?_ ?_ <;> apply Complex.ext <;> simp <;> ring

theorem vecTerm0_odd (dw : ℝ) (a b : Four) : vecTerm0 dw (a.add b) = vecTerm0 dw a + vecTerm0 dw b := by
  unfold vecTerm0 Four.add
  refine Prod.ext ?_ ?_ <;> apply Complex.ext <;> simp <;> ring

end Skyborn.RedGauss
