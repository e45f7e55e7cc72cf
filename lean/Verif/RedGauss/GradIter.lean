/-
One iteration of each loop over rows.
-/
import Verif.RedGauss.GradRows

namespace Skyborn.RedGauss

open Skyborn

variable {E : Env} {j plan N offset offsetS T nt : ℕ} {invR κ : ℝ}

/-- Values written by a gradient iteration: array 1 zonal, array 2 meridional. -/
noncomputable def gradVal (N T : ℕ) (invR κ : ℝ) (spec : ℕ → ℂ) (b db : ℕ → ℝ) (c : ℕ) (l : ℝ) : ℝ :=
  if c = 1 then gradU N T κ spec b l else gradV N T invR spec db l

theorem coefs_row (spec : ℕ → ℕ → ℂ) (b db : ℕ → ℝ) (c0 : GradC) :
    CoefOK T (min T (N / 2)) nt invR κ spec b db (doLoop 1 nt c0 fun k c => doLoop 0 (min T (N / 2)) c fun m c =>
      gradMode invR (2 * invR) (2 * κ) m k (polySum T m (fun nm => spec nm k) b) (polySum T m (fun nm => spec nm k) db) c) := by
  intro m k h1 h2 h3
  refine cells_loop (fun k m c => gradMode invR (2 * invR) (2 * κ) m k (polySum T m (fun nm => spec nm k) b) (polySum T m (fun nm => spec nm k) db) c) c0
    (fun m k c => CellOK invR κ (cosC T (fun nm => spec nm k) b m) (sinC T (fun nm => spec nm k) b m)
      (cosC T (fun nm => spec nm k) db m) (sinC T (fun nm => spec nm k) db m) c m k) ?_ ?_ m k h1 h2 h3
  · intro k m c _ _ hm
    have := gradMode_est invR κ m k (polySum T m (fun nm => spec nm k) b) (polySum T m (fun nm => spec nm k) db) c
    rw [polySum_eq (by omega), polySum_eq (by omega)] at this
    rw [polySum_eq (by omega), polySum_eq (by omega)]
    exact this
  · intro k m c m' k' h hc; exact gradMode_pres h hc

/-- A row of the direct path. -/
theorem gradRow_eq (hp : plan = N) (spec : ℕ → ℕ → ℂ) (b db : ℕ → ℝ) (g : Grids) {c : ℕ} (hc1 : 1 ≤ c) (hc2 : c ≤ 2) (p k' : ℕ) :
    gradRow E j plan N offset T nt invR (2 * invR) (2 * κ) spec b db g c p k' =
      if (1 ≤ k' ∧ k' ≤ nt) ∧ offset < p ∧ p ≤ offset + N then gradVal N T invR κ (fun nm => spec nm k') b db c (lam N (p - offset))
      else g c p k' := by
  unfold gradRow
  dsimp only
  have hco := coefs_row (T := T) (N := N) (nt := nt) (invR := invR) (κ := κ) spec b db (E.gradC 0 j)
  generalize (doLoop 1 nt (E.gradC 0 j) fun k c => doLoop 0 (min T (N / 2)) c fun m c =>
      gradMode invR (2 * invR) (2 * κ) m k (polySum T m (fun nm => spec nm k) b) (polySum T m (fun nm => spec nm k) db) c) = co at hco ⊢
  refine slices_loop (R := 2) (σ := (ℕ → ℕ → ℝ) × Grids) Prod.snd (fun p => offset < p ∧ p ≤ offset + N)
    (fun c p k => gradVal N T invR κ (fun nm => spec nm k) b db c (lam N (p - offset))) _ _ ?_ hc1 hc2 p k'
  intro k st c p k' hk1 hk2 h1 h2
  dsimp only
  rw [putRows_eq _ _ _ _ _ _ _ h1 h2]
  by_cases hw : k' = k ∧ offset < p ∧ p ≤ offset + N
  · rw [if_pos hw, if_pos hw]
    unfold gradVal
    have hcc : c = 1 ∨ c = 2 := by omega
    rcases hcc with rfl | rfl
    · rw [if_pos rfl]
      exact buf_u hp hco hk1 hk2 (by omega) (by omega) (by omega) _ st.1 rfl (by omega) (by omega)
    · rw [if_neg (by omega)]
      exact buf_v (ru := 1) hp hco hk1 hk2 (by omega) (by omega) (by omega) _ st.1 rfl (by omega) (by omega)
  · rw [if_neg hw, if_neg hw]

theorem pair_sums {m : ℕ} (hm : m ≤ T) (spec : ℕ → ℂ) {b b' : ℕ → ℝ} {first : Bool} (hb : mirror T (sgn first) b b') :
    2 * (polyPair T m spec b first).re = cosC T spec b m ∧ 2 * (polyPair T m spec b first).im = sinC T spec b m ∧
    2 * (polyPair T m spec b first).reS = cosC T spec b' m ∧ 2 * (polyPair T m spec b first).imS = sinC T spec b' m := by
  obtain ⟨p1, p2, p3, p4⟩ := polyPair_eq hm spec b first
  rw [p1, p2, p3, p4, cosC_mirror hb, sinC_mirror hb]
  exact ⟨rfl, rfl, rfl, rfl⟩

theorem mode_pair {m k : ℕ} (hm : m ≤ T) (spec : ℕ → ℂ) {b b' db db' : ℕ → ℝ} (hb : mirror T 1 b b') (hd : mirror T (-1) db db') (cN cS : GradC) :
    CellOK invR κ (cosC T spec b m) (sinC T spec b m) (cosC T spec db m) (sinC T spec db m)
      (gradMode invR (2 * invR) (2 * κ) m k ((polyPair T m spec b true).re, (polyPair T m spec b true).im)
        ((polyPair T m spec db false).re, (polyPair T m spec db false).im) cN) m k ∧
    CellOK invR κ (cosC T spec b' m) (sinC T spec b' m) (cosC T spec db' m) (sinC T spec db' m)
      (gradMode invR (2 * invR) (2 * κ) m k ((polyPair T m spec b true).reS, (polyPair T m spec b true).imS)
        ((polyPair T m spec db false).reS, (polyPair T m spec db false).imS) cS) m k := by
  obtain ⟨p1, p2, p3, p4⟩ := pair_sums hm spec (first := true) (b := b) (b' := b') (by simpa [sgn] using hb)
  obtain ⟨d1, d2, d3, d4⟩ := pair_sums hm spec (first := false) (b := db) (b' := db') (by simpa [sgn] using hd)
  rw [← p1, ← p2, ← p3, ← p4, ← d1, ← d2, ← d3, ← d4]
  exact ⟨gradMode_est invR κ m k (_, _) (_, _) cN, gradMode_est invR κ m k (_, _) (_, _) cS⟩

/-- A pair of rows. -/
theorem gradPair_eq (hp : plan = N) (hoff : offset + N ≤ offsetS) (spec : ℕ → ℕ → ℂ) {b b' db db' : ℕ → ℝ} (hb : mirror T 1 b b')
    (hd : mirror T (-1) db db') (g : Grids) {c : ℕ} (hc1 : 1 ≤ c) (hc2 : c ≤ 2) (p k' : ℕ) :
    gradPair E j plan N offset offsetS T nt invR (2 * invR) (2 * κ) spec b db g c p k' =
      if (1 ≤ k' ∧ k' ≤ nt) ∧ offset < p ∧ p ≤ offset + N then gradVal N T invR κ (fun nm => spec nm k') b db c (lam N (p - offset))
      else if (1 ≤ k' ∧ k' ≤ nt) ∧ offsetS < p ∧ p ≤ offsetS + N then gradVal N T invR κ (fun nm => spec nm k') b' db' c (lam N (p - offsetS))
      else g c p k' := by
  unfold gradPair
  dsimp only
  have hco := cells_loop (nt := nt) (ml := min T (N / 2)) (fun k m (c : GradC × GradC) =>
      (gradMode invR (2 * invR) (2 * κ) m k ((polyPair T m (fun nm => spec nm k) b true).re, (polyPair T m (fun nm => spec nm k) b true).im)
        ((polyPair T m (fun nm => spec nm k) db false).re, (polyPair T m (fun nm => spec nm k) db false).im) c.1,
       gradMode invR (2 * invR) (2 * κ) m k ((polyPair T m (fun nm => spec nm k) b true).reS, (polyPair T m (fun nm => spec nm k) b true).imS)
        ((polyPair T m (fun nm => spec nm k) db false).reS, (polyPair T m (fun nm => spec nm k) db false).imS) c.2)) (E.gradC 0 j, E.gradC 1 j)
    (fun m k c => CellOK invR κ (cosC T (fun nm => spec nm k) b m) (sinC T (fun nm => spec nm k) b m)
        (cosC T (fun nm => spec nm k) db m) (sinC T (fun nm => spec nm k) db m) c.1 m k ∧
      CellOK invR κ (cosC T (fun nm => spec nm k) b' m) (sinC T (fun nm => spec nm k) b' m)
        (cosC T (fun nm => spec nm k) db' m) (sinC T (fun nm => spec nm k) db' m) c.2 m k)
    (fun k m c _ _ hm => mode_pair (by omega) _ hb hd c.1 c.2)
    (fun k m c m' k' h hc => ⟨gradMode_pres h hc.1, gradMode_pres h hc.2⟩)
  generalize doLoop 1 nt (E.gradC 0 j, E.gradC 1 j) _ = co at hco ⊢
  have hN : CoefOK T (min T (N / 2)) nt invR κ spec b db co.1 := fun m k a1 a2 a3 => (hco m k a1 a2 a3).1
  have hS : CoefOK T (min T (N / 2)) nt invR κ spec b' db' co.2 := fun m k a1 a2 a3 => (hco m k a1 a2 a3).2
  rw [slices_loop (R := 2) (σ := (ℕ → ℕ → ℝ) × Grids) Prod.snd
    (fun p => (offset < p ∧ p ≤ offset + N) ∨ (offsetS < p ∧ p ≤ offsetS + N))
    (fun c p k => if offset < p ∧ p ≤ offset + N then gradVal N T invR κ (fun nm => spec nm k) b db c (lam N (p - offset))
      else gradVal N T invR κ (fun nm => spec nm k) b' db' c (lam N (p - offsetS))) _ _ ?_ hc1 hc2 p k']
  · by_cases h1 : offset < p ∧ p ≤ offset + N
    · by_cases hk : 1 ≤ k' ∧ k' ≤ nt
      · rw [if_pos ⟨hk, Or.inl h1⟩, if_pos h1, if_pos ⟨hk, h1⟩]
      · rw [if_neg (by tauto), if_neg (by tauto), if_neg (by tauto)]
    · rw [if_neg (c := (1 ≤ k' ∧ k' ≤ nt) ∧ offset < p ∧ p ≤ offset + N) (by tauto), if_neg h1]
      by_cases h2 : (1 ≤ k' ∧ k' ≤ nt) ∧ offsetS < p ∧ p ≤ offsetS + N
      · rw [if_pos h2, if_pos ⟨h2.1, Or.inr h2.2⟩]
      · rw [if_neg h2, if_neg (by tauto)]
  · intro k st c p k' hk1 hk2 h1 h2
    dsimp only
    rw [putRows_eq _ _ _ _ _ _ _ h1 h2, putRows_eq _ _ _ _ _ _ _ h1 h2]
    have hcc : c = 1 ∨ c = 2 := by omega
    by_cases hs : k' = k ∧ offsetS < p ∧ p ≤ offsetS + N
    · rw [if_pos hs, if_pos ⟨hs.1, Or.inr hs.2⟩, if_neg (by omega)]
      unfold gradVal
      rcases hcc with rfl | rfl
      · rw [if_pos rfl]
        exact buf_u hp hS hk1 hk2 (by omega) (by omega) (by omega) _ _ rfl (by omega) (by omega)
      · rw [if_neg (by omega)]
        exact buf_v (ru := 3) hp hS hk1 hk2 (by omega) (by omega) (by omega) _ _ rfl (by omega) (by omega)
    · rw [if_neg hs]
      by_cases hn : k' = k ∧ offset < p ∧ p ≤ offset + N
      · rw [if_pos hn, if_pos ⟨hn.1, Or.inl hn.2⟩, if_pos hn.2]
        unfold gradVal
        rcases hcc with rfl | rfl
        · rw [if_pos rfl]
          exact buf_u hp hN hk1 hk2 (by omega) (by omega) (by omega) _ st.1 (gradFill_other _ _ (by omega) (by omega) _) (by omega) (by omega)
        · rw [if_neg (by omega)]
          exact buf_v (ru := 1) hp hN hk1 hk2 (by omega) (by omega) (by omega) _ st.1 (gradFill_other _ _ (by omega) (by omega) _) (by omega) (by omega)
      · rw [if_neg hn, if_neg (by tauto)]

/-! ### Two fields -/

/-- Arrays 1, 2 belong to the first field, 3, 4 to the second. -/
noncomputable def grad2Val (N T : ℕ) (invR κ : ℝ) (sa sb : ℕ → ℂ) (b db : ℕ → ℝ) (c : ℕ) (l : ℝ) : ℝ :=
  if c ≤ 2 then gradVal N T invR κ sa b db c l else gradVal N T invR κ sb b db (c - 2) l

/-- The four rows of a filled and transformed buffer. -/
theorem buf4 (hp : plan = N) {sa sb : ℕ → ℕ → ℂ} {b db : ℕ → ℝ} {ca cb : GradC} (ha : CoefOK T (min T (N / 2)) nt invR κ sa b db ca)
    (hb : CoefOK T (min T (N / 2)) nt invR κ sb b db cb) {k c i : ℕ} (hk1 : 1 ≤ k) (hk2 : k ≤ nt) (hc1 : 1 ≤ c) (hc2 : c ≤ 4) (buf : ℕ → ℕ → ℝ)
    (hi : 1 ≤ i) (hi2 : i ≤ N) :
    0.5 * fftbRows E plan N 4 (zeroTail 4 (min T (N / 2)) N (gradFill N (min T (N / 2)) cb k 3 4 (gradFill N (min T (N / 2)) ca k 1 2 buf))) (0 + c) i
      = grad2Val N T invR κ (fun nm => sa nm k) (fun nm => sb nm k) b db c (lam N i) := by
  have hcc : c = 1 ∨ c = 2 ∨ c = 3 ∨ c = 4 := by omega
  unfold grad2Val gradVal
  rcases hcc with rfl | rfl | rfl | rfl
  · rw [if_pos (by omega), if_pos rfl]
    exact buf_u hp ha hk1 hk2 (by omega) (by omega) (by omega) _ buf (gradFill_other _ _ (by omega) (by omega) _) hi hi2
  · rw [if_pos (by omega), if_neg (by omega)]
    exact buf_v (ru := 1) hp ha hk1 hk2 (by omega) (by omega) (by omega) _ buf (gradFill_other _ _ (by omega) (by omega) _) hi hi2
  · rw [if_neg (by omega), if_pos rfl]
    exact buf_u hp hb hk1 hk2 (by omega) (by omega) (by omega) _ _ rfl hi hi2
  · rw [if_neg (by omega), if_neg (by omega)]
    exact buf_v (ru := 3) hp hb hk1 hk2 (by omega) (by omega) (by omega) _ _ rfl hi hi2

theorem grad2Row_eq (hp : plan = N) (sa sb : ℕ → ℕ → ℂ) (b db : ℕ → ℝ) (g : Grids) {c : ℕ} (hc1 : 1 ≤ c) (hc2 : c ≤ 4) (p k' : ℕ) :
    grad2Row E j plan N offset T nt invR (2 * invR) (2 * κ) sa sb b db g c p k' =
      if (1 ≤ k' ∧ k' ≤ nt) ∧ offset < p ∧ p ≤ offset + N then
        grad2Val N T invR κ (fun nm => sa nm k') (fun nm => sb nm k') b db c (lam N (p - offset))
      else g c p k' := by
  unfold grad2Row
  dsimp only
  have hco := cells_loop (nt := nt) (ml := min T (N / 2)) (fun k m (c : GradC × GradC) =>
      (gradMode invR (2 * invR) (2 * κ) m k (polySum T m (fun nm => sa nm k) b) (polySum T m (fun nm => sa nm k) db) c.1,
       gradMode invR (2 * invR) (2 * κ) m k (polySum T m (fun nm => sb nm k) b) (polySum T m (fun nm => sb nm k) db) c.2)) (E.gradC 0 j, E.gradC 1 j)
    (fun m k c => CellOK invR κ (cosC T (fun nm => sa nm k) b m) (sinC T (fun nm => sa nm k) b m)
        (cosC T (fun nm => sa nm k) db m) (sinC T (fun nm => sa nm k) db m) c.1 m k ∧
      CellOK invR κ (cosC T (fun nm => sb nm k) b m) (sinC T (fun nm => sb nm k) b m)
        (cosC T (fun nm => sb nm k) db m) (sinC T (fun nm => sb nm k) db m) c.2 m k)
    (by
      intro k m c _ _ hm
      have h1 := gradMode_est invR κ m k (polySum T m (fun nm => sa nm k) b) (polySum T m (fun nm => sa nm k) db) c.1
      have h2 := gradMode_est invR κ m k (polySum T m (fun nm => sb nm k) b) (polySum T m (fun nm => sb nm k) db) c.2
      simp only [polySum_eq (show m ≤ T by omega)] at h1 h2 ⊢
      exact ⟨h1, h2⟩)
    (fun k m c m' k' h hc => ⟨gradMode_pres h hc.1, gradMode_pres h hc.2⟩)
  generalize doLoop 1 nt (E.gradC 0 j, E.gradC 1 j) _ = co at hco ⊢
  refine slices_loop (R := 4) (σ := (ℕ → ℕ → ℝ) × Grids) Prod.snd (fun p => offset < p ∧ p ≤ offset + N)
    (fun c p k => grad2Val N T invR κ (fun nm => sa nm k) (fun nm => sb nm k) b db c (lam N (p - offset))) _ _ ?_ hc1 hc2 p k'
  intro k st c p k' hk1 hk2 h1 h2
  dsimp only
  rw [putRows_eq _ _ _ _ _ _ _ h1 h2]
  by_cases hw : k' = k ∧ offset < p ∧ p ≤ offset + N
  · rw [if_pos hw, if_pos hw]
    exact buf4 hp (fun m k a1 a2 a3 => (hco m k a1 a2 a3).1) (fun m k a1 a2 a3 => (hco m k a1 a2 a3).2) hk1 hk2 h1 h2 st.1 (by omega) (by omega)
  · rw [if_neg hw, if_neg hw]

theorem grad2Pair_eq {planS : ℕ} (hp : plan = N) (hpS : planS = N) (hoff : offset + N ≤ offsetS) (sa sb : ℕ → ℕ → ℂ) {b b' db db' : ℕ → ℝ}
    (hb : mirror T 1 b b') (hd : mirror T (-1) db db') (g : Grids) {c : ℕ} (hc1 : 1 ≤ c) (hc2 : c ≤ 4) (p k' : ℕ) :
    grad2Pair E j plan planS N offset offsetS T nt invR (2 * invR) (2 * κ) sa sb b db g c p k' =
      if (1 ≤ k' ∧ k' ≤ nt) ∧ offset < p ∧ p ≤ offset + N then
        grad2Val N T invR κ (fun nm => sa nm k') (fun nm => sb nm k') b db c (lam N (p - offset))
      else if (1 ≤ k' ∧ k' ≤ nt) ∧ offsetS < p ∧ p ≤ offsetS + N then
        grad2Val N T invR κ (fun nm => sa nm k') (fun nm => sb nm k') b' db' c (lam N (p - offsetS))
      else g c p k' := by
  unfold grad2Pair
  dsimp only
  have hco := cells_loop (nt := nt) (ml := min T (N / 2)) (fun k m (c : (GradC × GradC) × GradC × GradC) =>
      ((gradMode invR (2 * invR) (2 * κ) m k ((polyPair T m (fun nm => sa nm k) b true).re, (polyPair T m (fun nm => sa nm k) b true).im)
        ((polyPair T m (fun nm => sa nm k) db false).re, (polyPair T m (fun nm => sa nm k) db false).im) c.1.1,
       gradMode invR (2 * invR) (2 * κ) m k ((polyPair T m (fun nm => sb nm k) b true).re, (polyPair T m (fun nm => sb nm k) b true).im)
        ((polyPair T m (fun nm => sb nm k) db false).re, (polyPair T m (fun nm => sb nm k) db false).im) c.1.2),
       gradMode invR (2 * invR) (2 * κ) m k ((polyPair T m (fun nm => sa nm k) b true).reS, (polyPair T m (fun nm => sa nm k) b true).imS)
        ((polyPair T m (fun nm => sa nm k) db false).reS, (polyPair T m (fun nm => sa nm k) db false).imS) c.2.1,
       gradMode invR (2 * invR) (2 * κ) m k ((polyPair T m (fun nm => sb nm k) b true).reS, (polyPair T m (fun nm => sb nm k) b true).imS)
        ((polyPair T m (fun nm => sb nm k) db false).reS, (polyPair T m (fun nm => sb nm k) db false).imS) c.2.2))
    ((E.gradC 0 j, E.gradC 1 j), E.gradC 2 j, E.gradC 3 j)
    (fun m k c => (CellOK invR κ (cosC T (fun nm => sa nm k) b m) (sinC T (fun nm => sa nm k) b m)
        (cosC T (fun nm => sa nm k) db m) (sinC T (fun nm => sa nm k) db m) c.1.1 m k ∧
      CellOK invR κ (cosC T (fun nm => sa nm k) b' m) (sinC T (fun nm => sa nm k) b' m)
        (cosC T (fun nm => sa nm k) db' m) (sinC T (fun nm => sa nm k) db' m) c.2.1 m k) ∧
      (CellOK invR κ (cosC T (fun nm => sb nm k) b m) (sinC T (fun nm => sb nm k) b m)
        (cosC T (fun nm => sb nm k) db m) (sinC T (fun nm => sb nm k) db m) c.1.2 m k ∧
      CellOK invR κ (cosC T (fun nm => sb nm k) b' m) (sinC T (fun nm => sb nm k) b' m)
        (cosC T (fun nm => sb nm k) db' m) (sinC T (fun nm => sb nm k) db' m) c.2.2 m k))
    (fun k m c _ _ hm => ⟨mode_pair (by omega) _ hb hd c.1.1 c.2.1, mode_pair (by omega) _ hb hd c.1.2 c.2.2⟩)
    (fun k m c m' k' h hc => ⟨⟨gradMode_pres h hc.1.1, gradMode_pres h hc.1.2⟩, gradMode_pres h hc.2.1, gradMode_pres h hc.2.2⟩)
  generalize doLoop 1 nt ((E.gradC 0 j, E.gradC 1 j), E.gradC 2 j, E.gradC 3 j) _ = co at hco ⊢
  rw [slices_loop (R := 4) (σ := (ℕ → ℕ → ℝ) × Grids) Prod.snd
    (fun p => (offset < p ∧ p ≤ offset + N) ∨ (offsetS < p ∧ p ≤ offsetS + N))
    (fun c p k => if offset < p ∧ p ≤ offset + N then grad2Val N T invR κ (fun nm => sa nm k) (fun nm => sb nm k) b db c (lam N (p - offset))
      else grad2Val N T invR κ (fun nm => sa nm k) (fun nm => sb nm k) b' db' c (lam N (p - offsetS))) _ _ ?_ hc1 hc2 p k']
  · by_cases h1 : offset < p ∧ p ≤ offset + N
    · by_cases hk : 1 ≤ k' ∧ k' ≤ nt
      · rw [if_pos ⟨hk, Or.inl h1⟩, if_pos h1, if_pos ⟨hk, h1⟩]
      · rw [if_neg (by tauto), if_neg (by tauto), if_neg (by tauto)]
    · rw [if_neg (c := (1 ≤ k' ∧ k' ≤ nt) ∧ offset < p ∧ p ≤ offset + N) (by tauto), if_neg h1]
      by_cases h2 : (1 ≤ k' ∧ k' ≤ nt) ∧ offsetS < p ∧ p ≤ offsetS + N
      · rw [if_pos h2, if_pos ⟨h2.1, Or.inr h2.2⟩]
      · rw [if_neg h2, if_neg (by tauto)]
  · intro k st c p k' hk1 hk2 h1 h2
    dsimp only
    rw [putRows_eq _ _ _ _ _ _ _ h1 h2, putRows_eq _ _ _ _ _ _ _ h1 h2]
    by_cases hs : k' = k ∧ offsetS < p ∧ p ≤ offsetS + N
    · rw [if_pos hs, if_pos ⟨hs.1, Or.inr hs.2⟩, if_neg (by omega)]
      exact buf4 hpS (fun m k a1 a2 a3 => (hco m k a1 a2 a3).1.2) (fun m k a1 a2 a3 => (hco m k a1 a2 a3).2.2) hk1 hk2 h1 h2 _ (by omega) (by omega)
    · rw [if_neg hs]
      by_cases hn : k' = k ∧ offset < p ∧ p ≤ offset + N
      · rw [if_pos hn, if_pos ⟨hn.1, Or.inl hn.2⟩, if_pos hn.2]
        exact buf4 hp (fun m k a1 a2 a3 => (hco m k a1 a2 a3).1.1) (fun m k a1 a2 a3 => (hco m k a1 a2 a3).2.1) hk1 hk2 h1 h2 _ (by omega) (by omega)
      · rw [if_neg hn, if_neg (by tauto)]

/-! ### Synthesis of two fields -/

/-- Values of array 1 (first field) or 2 (second field). -/
noncomputable def synVal (N T : ℕ) (sa sb : ℕ → ℂ) (b : ℕ → ℝ) (c : ℕ) (l : ℝ) : ℝ :=
  if c = 1 then fourSeries N T (cosC T sa b) (sinC T sa b) l else fourSeries N T (cosC T sb b) (sinC T sb b) l

theorem putModeRow_apply (N m r : ℕ) (x y : ℝ) (buf : ℕ → ℕ → ℝ) (q : ℕ) :
    putModeRow N m r x y buf q = if q = r then putMode N m x y (buf q) else buf q := upRow_apply _ _ _ _

/-- The row of a slice in a buffer filled slice by slice. -/
theorem slice_row {R : ℕ} (c s : ℕ → ℕ → ℝ) (buf0 : ℕ → ℕ → ℝ) (F : ℕ → ℕ → (ℕ → ℕ → ℝ) → ℕ → ℕ → ℝ) {k' r : ℕ} (hk1 : 1 ≤ k') (hk2 : k' ≤ nt)
    (hF : ∀ k m buf, m ≤ R → F k m buf r = if k = k' then putMode N m (c k' m) (s k' m) (buf r) else buf r) {q : ℕ} (hq1 : 1 ≤ q) (hq2 : q ≤ N)
    (hq3 : q ≤ 2 * R + 1) :
    doLoop 1 nt buf0 (fun k buf => doLoop 0 R buf fun m buf => F k m buf) r q = fourRow R (c k') (s k') q := by
  rw [loop_rows 1 nt buf0 _ (fun k row => if k = k' then doLoop 0 R row (fun m r => putMode N m (c k' m) (s k' m) r) else row) r ?_,
    loop_single hk1 hk2]
  · exact putModes _ _ _ 0 (by omega) (by omega) hq1 hq2 hq3 (fun _ => rfl)
  · intro k _ _ buf
    by_cases e : k = k'
    · rw [if_pos e, loop_rows 0 R buf _ (fun m r => putMode N m (c k' m) (s k' m) r)]
      intro m _ hm buf
      rw [hF k m buf hm, if_pos e]
    · rw [if_neg e, loop_rows 0 R buf _ (fun _ r => r), loop_none _ _ fun _ _ _ _ => rfl]
      intro m _ hm buf
      rw [hF k m buf hm, if_neg e]

theorem slice_tail {R : ℕ} (buf0 : ℕ → ℕ → ℝ) (F : ℕ → ℕ → (ℕ → ℕ → ℝ) → ℕ → ℕ → ℝ) {r q : ℕ}
    (hF : ∀ k m (buf : ℕ → ℕ → ℝ), m ≤ R → F k m buf r q = buf r q) :
    doLoop 1 nt buf0 (fun k buf => doLoop 0 R buf fun m buf => F k m buf) r q = buf0 r q := by
  refine doLoop_inv (lo := 1) (hi := nt) (by omega) (fun _ (buf : ℕ → ℕ → ℝ) => buf r q = buf0 r q) rfl ?_
  intro k buf _ _ h
  refine doLoop_inv (lo := 0) (hi := R) (by omega) (fun _ (buf : ℕ → ℕ → ℝ) => buf r q = buf0 r q) h ?_
  intro m buf _ hm h
  rw [hF k m buf hm]; exact h

theorem syn2Row_eq (hp : plan = N) (sa sb : ℕ → ℕ → ℂ) (b : ℕ → ℝ) (junk : ℕ → ℕ → ℝ) (g : Grids) {c : ℕ} (hc1 : 1 ≤ c) (hc2 : c ≤ 2) (p k' : ℕ) :
    syn2Row E plan N offset T nt sa sb b junk g c p k' =
      if (1 ≤ k' ∧ k' ≤ nt) ∧ offset < p ∧ p ≤ offset + N then
        synVal N T (fun nm => sa nm k') (fun nm => sb nm k') b c (lam N (p - offset))
      else g c p k' := by
  unfold syn2Row
  dsimp only
  refine slices_loop (R := 2) (σ := Grids) id (fun p => offset < p ∧ p ≤ offset + N)
    (fun c p k => synVal N T (fun nm => sa nm k) (fun nm => sb nm k) b c (lam N (p - offset))) _ _ ?_ hc1 hc2 p k'
  intro k st c p k' hk1 hk2 h1 h2
  dsimp only [id]
  rw [putRows_eq _ _ _ _ _ _ _ h1 h2]
  by_cases hw : k' = k ∧ offset < p ∧ p ≤ offset + N
  swap
  · rw [if_neg hw, if_neg hw]
  rw [if_pos hw, if_pos hw]
  unfold fftbRows
  rw [if_pos (by omega), Env.fftb, if_pos hp]
  have hz : ∀ r q, 1 ≤ r → r ≤ 4 * nt → 2 * min T (N / 2) + 2 ≤ q → q ≤ N → zeroRows (4 * nt) N junk r q = 0 := fun r q a1 a2 a3 a4 => by
    unfold zeroRows; rw [if_pos (by omega)]
  have hput : ∀ (m r q : ℕ) (x y : ℝ) (buf : ℕ → ℕ → ℝ) (t : ℕ), m ≤ min T (N / 2) → 2 * min T (N / 2) + 2 ≤ q →
      putModeRow N m r x y buf t q = buf t q := fun m r q x y buf t hm hq => by
    rw [putModeRow_apply]
    by_cases e : t = r
    · rw [if_pos e, putMode_other (by omega) (by omega)]
    · rw [if_neg e]
  have hcc : c = 1 ∨ c = 2 := by omega
  unfold synVal
  rcases hcc with rfl | rfl
  · rw [if_pos rfl]
    refine hrfftb_four (by omega) (by omega) _ _ _ fun q q1 q2 => ?_
    by_cases hq : q ≤ 2 * min T (N / 2) + 1
    · rw [slice_row (fun k => cosC T (fun nm => sa nm k) b) (fun k => sinC T (fun nm => sa nm k) b) _ (F := fun k m buf =>
        putModeRow N m (4 * k - 2) (2 * (polySum T m (fun nm => sb nm k) b).1) (2 * (polySum T m (fun nm => sb nm k) b).2)
          (putModeRow N m (4 * k - 3) (2 * (polySum T m (fun nm => sa nm k) b).1) (2 * (polySum T m (fun nm => sa nm k) b).2) buf)) hk1 hk2 ?_ q1 q2 hq]
      intro k'' m buf hm
      rw [putModeRow_apply, if_neg (by omega), putModeRow_apply]
      by_cases e : k'' = k
      · subst e; rw [if_pos (by omega), if_pos rfl, polySum_eq (by omega)]; rfl
      · rw [if_neg e, if_neg (by omega)]
    · rw [fourRow_tail _ _ (by omega), slice_tail (F := fun k m buf =>
        putModeRow N m (4 * k - 2) (2 * (polySum T m (fun nm => sb nm k) b).1) (2 * (polySum T m (fun nm => sb nm k) b).2)
          (putModeRow N m (4 * k - 3) (2 * (polySum T m (fun nm => sa nm k) b).1) (2 * (polySum T m (fun nm => sa nm k) b).2) buf)),
        hz _ _ (by omega) (by omega) (by omega) q2]
      intro k'' m buf hm
      rw [hput _ _ _ _ _ _ _ hm (by omega), hput _ _ _ _ _ _ _ hm (by omega)]
  · rw [if_neg (by omega)]
    refine hrfftb_four (by omega) (by omega) _ _ _ fun q q1 q2 => ?_
    by_cases hq : q ≤ 2 * min T (N / 2) + 1
    · rw [slice_row (fun k => cosC T (fun nm => sb nm k) b) (fun k => sinC T (fun nm => sb nm k) b) _ (F := fun k m buf =>
        putModeRow N m (4 * k - 2) (2 * (polySum T m (fun nm => sb nm k) b).1) (2 * (polySum T m (fun nm => sb nm k) b).2)
          (putModeRow N m (4 * k - 3) (2 * (polySum T m (fun nm => sa nm k) b).1) (2 * (polySum T m (fun nm => sa nm k) b).2) buf)) hk1 hk2 ?_ q1 q2 hq]
      intro k'' m buf hm
      rw [putModeRow_apply]
      by_cases e : k'' = k
      · subst e; rw [if_pos (by omega), if_pos rfl, putModeRow_apply, if_neg (by omega), polySum_eq (by omega)]; rfl
      · rw [if_neg e]
        by_cases e2 : k'' = 0
        · subst e2
          rw [if_neg (by omega), putModeRow_apply, if_neg (by omega)]
        · rw [if_neg (by omega), putModeRow_apply, if_neg (by omega)]
    · rw [fourRow_tail _ _ (by omega), slice_tail (F := fun k m buf =>
        putModeRow N m (4 * k - 2) (2 * (polySum T m (fun nm => sb nm k) b).1) (2 * (polySum T m (fun nm => sb nm k) b).2)
          (putModeRow N m (4 * k - 3) (2 * (polySum T m (fun nm => sa nm k) b).1) (2 * (polySum T m (fun nm => sa nm k) b).2) buf)),
        hz _ _ (by omega) (by omega) (by omega) q2]
      intro k'' m buf hm
      rw [hput _ _ _ _ _ _ _ hm (by omega), hput _ _ _ _ _ _ _ hm (by omega)]

end Skyborn.RedGauss
