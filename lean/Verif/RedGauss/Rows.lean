/-
Closed forms: packed rows, saved workspaces, parallel loops, one analysed row, one synthesised row.
-/
import Verif.RedGauss.Lemmas
import Verif.RedGauss.Spec

namespace Skyborn.RedGauss

open Skyborn

theorem nmOf_pos : nmOf = Spec.pos := rfl

theorem lam_lon : lam = Spec.lon := rfl

/-! ### Packed rows -/

theorem rowStart_succ (pl : ℕ → ℕ) {j : ℕ} (h : 1 ≤ j) : Spec.rowStart pl (j + 1) = Spec.rowStart pl j + pl j := by
  unfold Spec.rowStart; rw [Finset.sum_Ico_succ_top h]

theorem rowStart_mono (pl : ℕ → ℕ) {j j' : ℕ} (h : j ≤ j') : Spec.rowStart pl j ≤ Spec.rowStart pl j' :=
  Finset.sum_le_sum_of_subset (Finset.Ico_subset_Ico_right h)

/-- Rows do not overlap. -/
theorem row_unique (pl : ℕ → ℕ) {j j' i i' : ℕ} (hj : 1 ≤ j) (hj' : 1 ≤ j') (hi : 1 ≤ i) (hi' : 1 ≤ i') (h : i ≤ pl j) (h' : i' ≤ pl j')
    (e : Spec.rowStart pl j + i = Spec.rowStart pl j' + i') : j = j' ∧ i = i' := by
  have key : ∀ a b x, 1 ≤ a → a < b → x ≤ pl a → Spec.rowStart pl a + x ≤ Spec.rowStart pl b := fun a b x ha hab hx => by
    have := rowStart_mono pl (show a + 1 ≤ b from hab)
    rw [rowStart_succ pl ha] at this; omega
  rcases Nat.lt_trichotomy j j' with hm | hm | hm
  · have := key j j' i hj hm h; omega
  · subst hm; omega
  · have := key j' j i' hj' hm h'; omega

theorem scanRows_ok {nlat : ℕ} {pl : ℕ → ℕ} {good : ℕ → Bool} (h : ∀ j, 1 ≤ j → j ≤ nlat → 1 ≤ pl j ∧ good j = true) :
    ∃ offs, scanRows nlat pl good = some (Spec.rowStart pl (nlat + 1), offs) ∧
      ∀ j, 1 ≤ j → j ≤ nlat + 1 → offs j = Spec.rowStart pl j := by
  have key := doLoopM_inv (lo := 1) (hi := nlat) (by omega) (s := ((0 : ℕ), Function.update (fun _ => 0) 1 0))
    (f := fun j s => if pl j < 1 then none else if good j then some (s.1 + pl j, Function.update s.2 (j + 1) (s.1 + pl j)) else none)
    (fun j s => s.1 = Spec.rowStart pl j ∧ ∀ q, 1 ≤ q → q ≤ j → s.2 q = Spec.rowStart pl q)
    ⟨by simp [Spec.rowStart], fun q h1 h2 => by
      have : q = 1 := by omega
      subst this; simp [Spec.rowStart]⟩
    (by
      rintro j ⟨t, o⟩ h1 h2 ⟨e1, e2⟩
      obtain ⟨hp, hg⟩ := h j h1 h2
      refine ⟨_, by rw [if_neg (by omega), if_pos hg], ?_, ?_⟩
      · rw [rowStart_succ pl h1, ← e1]
      · intro q hq1 hq2
        dsimp only at e1 e2 ⊢
        by_cases e : q = j + 1
        · subst e; rw [Function.update_self, rowStart_succ pl h1, e1]
        · rw [Function.update_of_ne e]; exact e2 q hq1 (by omega))
  obtain ⟨⟨t, o⟩, hs, e1, e2⟩ := key
  refine ⟨o, ?_, e2⟩
  unfold scanRows; rw [hs, ← e1]

/-- A row without points, or one the routine refuses, stops it. -/
theorem scanRows_none {nlat : ℕ} {pl : ℕ → ℕ} {good : ℕ → Bool} {j : ℕ} (h1 : 1 ≤ j) (h2 : j ≤ nlat)
    (h : pl j < 1 ∨ good j = false) : scanRows nlat pl good = none := by
  unfold scanRows doLoopM
  have hm : j ∈ List.range' 1 (nlat + 1 - 1) := by rw [List.mem_range'_1]; omega
  generalize List.range' 1 (nlat + 1 - 1) = l at hm
  generalize ((0 : ℕ), Function.update (fun _ => 0) 1 0) = s
  induction l generalizing s with
  | nil => simp at hm
  | cons x xs ih =>
    rw [List.foldlM_cons]
    beta_reduce at ih ⊢
    by_cases e : x = j
    · subst e
      have : (if pl x < 1 then none else if good x then some (s.1 + pl x, Function.update s.2 (x + 1) (s.1 + pl x)) else none) = none := by
        rcases h with h | h
        · rw [if_pos h]
        · simp [h]
      rw [this]; rfl
    · have hm' : j ∈ xs := by simpa [Ne.symm e] using hm
      by_cases hx : pl x < 1
      · rw [if_pos hx]; rfl
      · rw [if_neg hx]
        by_cases hg : good x
        · rw [if_pos hg]; exact ih hm' _
        · rw [if_neg hg]; rfl

theorem symmetricPl_iff {nlat : ℕ} {pl : ℕ → ℕ} :
    symmetricPl nlat pl = true ↔ ∀ j, 1 ≤ j → j ≤ nlat / 2 → pl j = pl (nlat - j + 1) := by
  have key := doLoop_inv (lo := 1) (hi := nlat / 2) (by omega) (s := true)
    (f := fun j s => if pl j ≠ pl (nlat - j + 1) then false else s)
    (fun q s => s = true ↔ ∀ j, 1 ≤ j → j < q → pl j = pl (nlat - j + 1))
    ⟨fun _ j h1 h2 => by omega, fun _ => rfl⟩
    (by
      intro q s h1 h2 ih
      by_cases e : pl q = pl (nlat - q + 1)
      · rw [if_neg (by simpa using e), ih]
        constructor
        · intro h j hj1 hj2
          by_cases ej : j = q
          · subst ej; exact e
          · exact h j hj1 (by omega)
        · intro h j hj1 hj2; exact h j hj1 (by omega)
      · rw [if_pos e]
        constructor
        · intro h; simp at h
        · intro h; exact absurd (h q h1 (by omega)) e)
  unfold symmetricPl
  rw [key]
  constructor
  · intro h j h1 h2; exact h j h1 (by omega)
  · intro h j h1 h2; exact h j h1 (by omega)

/-! ### Saved workspaces -/

/-- The saved workspaces were made for the rows they are filed under. -/
def FftCache.good (e : FftCache) : Prop := ∀ j, 1 ≤ j → j ≤ e.nlat → e.plan j = e.pl j

/-- The state of the saved workspaces in a process: none yet, or good ones. -/
def CacheGood (c : Option FftCache) : Prop := ∀ e, c = some e → e.good

theorem cacheGood_none : CacheGood none := fun _ h => by simp at h

theorem samePl_iff {nlat : ℕ} {a b : ℕ → ℕ} : samePl nlat a b = true ↔ ∀ j, 1 ≤ j → j ≤ nlat → a j = b j := by
  unfold samePl
  simp only [List.all_eq_true, List.mem_range'_1, beq_iff_eq]
  exact ⟨fun h j h1 h2 => h j (by omega), fun h j hj => h j (by omega) (by omega)⟩

theorem prepare_plan {c : Option FftCache} (hc : CacheGood c) (nlat : ℕ) (pl : ℕ → ℕ) :
    (∀ j, 1 ≤ j → j ≤ nlat → (prepare c nlat pl).plan j = pl j) ∧ CacheGood (some (prepare c nlat pl)) := by
  have hre : ∀ j, 1 ≤ j → j ≤ nlat → doLoop 1 nlat (fun _ => 0) (fun j w => Function.update w j (pl j)) j = pl j := by
    have key := doLoop_inv (lo := 1) (hi := nlat) (by omega) (s := fun _ => 0) (f := fun j w => Function.update w j (pl j))
      (fun q w => ∀ j, 1 ≤ j → j < q → w j = pl j) (fun j h1 h2 => by omega)
      (by
        intro q w h1 h2 ih j hj1 hj2
        by_cases e : j = q
        · subst e; rw [Function.update_self]
        · rw [Function.update_of_ne e]; exact ih j hj1 (by omega))
    exact fun j h1 h2 => key j h1 (by omega)
  unfold prepare
  cases c with
  | none =>
    refine ⟨hre, fun e he => ?_⟩
    simp only [Option.some.injEq] at he
    subst he
    exact hre
  | some e =>
    dsimp only
    split_ifs with h
    · refine ⟨fun j h1 h2 => ?_, hc⟩
      rw [hc e rfl j h1 (by rw [h.1.1]; exact h2)]
      exact samePl_iff.mp h.2 j h1 h2
    · refine ⟨hre, fun e' he => ?_⟩
      simp only [Option.some.injEq] at he
      subst he
      exact hre

/-! ### Parallel loops -/

/-- Iterations that touch disjoint places give the same result in every order. -/
theorem parLoop_own {σ P V : Type*} {E : Env} (hE : E.ok) {lo hi : ℕ} {s : σ} {f : ℕ → σ → σ} (get : σ → P → V)
    (own : ℕ → P → Prop) (upd : ℕ → P → V → V)
    (hf : ∀ j, lo ≤ j → j ≤ hi → ∀ s p, (own j p → get (f j s) p = upd j p (get s p)) ∧ (¬ own j p → get (f j s) p = get s p))
    (hd : ∀ j j' p, lo ≤ j → j ≤ hi → lo ≤ j' → j' ≤ hi → own j p → own j' p → j = j') :
    (∀ j p, lo ≤ j → j ≤ hi → own j p → get (parLoop E lo hi s f) p = upd j p (get s p)) ∧
    (∀ p, (∀ j, lo ≤ j → j ≤ hi → ¬ own j p) → get (parLoop E lo hi s f) p = get s p) := by
  unfold parLoop
  have hperm := hE (List.range' lo (hi + 1 - lo))
  have hnd : (E.order (List.range' lo (hi + 1 - lo))).Nodup := hperm.nodup_iff.mpr (List.nodup_range' ..)
  have hmem : ∀ j, j ∈ E.order (List.range' lo (hi + 1 - lo)) ↔ lo ≤ j ∧ j ≤ hi := fun j => by
    rw [hperm.mem_iff, List.mem_range'_1]; omega
  have hin : ∀ j ∈ E.order (List.range' lo (hi + 1 - lo)), lo ≤ j ∧ j ≤ hi := fun j => (hmem j).mp
  suffices H : ∀ l : List ℕ, l.Nodup → (∀ j ∈ l, lo ≤ j ∧ j ≤ hi) → ∀ s p,
      (∀ j ∈ l, own j p → get (l.foldl (fun s i => f i s) s) p = upd j p (get s p)) ∧
      ((∀ j ∈ l, ¬ own j p) → get (l.foldl (fun s i => f i s) s) p = get s p) by
    refine ⟨fun j p h1 h2 ho => (H _ hnd hin s p).1 j ((hmem j).mpr ⟨h1, h2⟩) ho, fun p h => (H _ hnd hin s p).2 fun j hj => ?_⟩
    exact h j (hin j hj).1 (hin j hj).2
  intro l
  induction l with
  | nil => intros; simp
  | cons x xs ih =>
    intro hnd hin s p
    have hx := hin x (by simp)
    have hxs : ∀ j ∈ xs, lo ≤ j ∧ j ≤ hi := fun j hj => hin j (by simp [hj])
    rw [List.nodup_cons] at hnd
    obtain ⟨ih1, ih2⟩ := ih hnd.2 hxs (f x s) p
    rw [List.foldl_cons]
    constructor
    · intro j hj ho
      rcases List.mem_cons.mp hj with e | hj'
      · subst e
        rw [ih2 fun j' hj' ho' => ?_, (hf j hx.1 hx.2 s p).1 ho]
        have := hd j j' p hx.1 hx.2 (hxs j' hj').1 (hxs j' hj').2 ho ho'
        subst this; exact hnd.1 hj'
      · rw [ih1 j hj' ho, (hf x hx.1 hx.2 s p).2]
        intro ho'
        have := hd x j p hx.1 hx.2 (hxs j hj').1 (hxs j hj').2 ho' ho
        subst this; exact hnd.1 hj'
    · intro h
      rw [ih2 fun j hj => h j (by simp [hj]), (hf x hx.1 hx.2 s p).2 (h x (by simp))]

/-! ### Analysed rows -/

theorem circleCoef_re (N : ℕ) (x : ℕ → ℝ) (m : ℕ) :
    (Spec.circleCoef N x m).re = (∑ i ∈ Finset.Icc 1 N, x i * Real.cos (m * lam N i)) * (1 / (N : ℝ)) := by
  unfold Spec.circleCoef
  rw [show (1 / (N : ℂ)) = ((1 / (N : ℝ) : ℝ) : ℂ) by push_cast; rfl, Complex.re_ofReal_mul, Complex.re_sum, mul_comm]
  congr 1
  refine Finset.sum_congr rfl fun i _ => ?_
  rw [show -(Complex.I * (m * (Spec.lon N i : ℂ))) = ((-(m * lam N i) : ℝ) : ℂ) * Complex.I by rw [lam_lon]; push_cast; ring,
    Complex.re_ofReal_mul, Complex.exp_ofReal_mul_I_re, Real.cos_neg]

theorem circleCoef_im (N : ℕ) (x : ℕ → ℝ) (m : ℕ) :
    (Spec.circleCoef N x m).im = (-∑ i ∈ Finset.Icc 1 N, x i * Real.sin (m * lam N i)) * (1 / (N : ℝ)) := by
  unfold Spec.circleCoef
  rw [show (1 / (N : ℂ)) = ((1 / (N : ℝ) : ℝ) : ℂ) by push_cast; rfl, Complex.im_ofReal_mul, Complex.im_sum, mul_comm,
    ← Finset.sum_neg_distrib]
  congr 1
  refine Finset.sum_congr rfl fun i _ => ?_
  rw [show -(Complex.I * (m * (Spec.lon N i : ℂ))) = ((-(m * lam N i) : ℝ) : ℂ) * Complex.I by rw [lam_lon]; push_cast; ring,
    Complex.im_ofReal_mul, Complex.exp_ofReal_mul_I_im, Real.sin_neg, mul_neg]

/-- At the highest wavenumber of an even row the sines vanish at the points. -/
theorem sin_nyquist {N m i : ℕ} (hN : 1 ≤ N) (h : 2 * m = N) (hi : 1 ≤ i) : Real.sin (m * lam N i) = 0 := by
  have hN' : (N : ℝ) ≠ 0 := by positivity
  obtain ⟨q, rfl⟩ : ∃ q, i = q + 1 := ⟨i - 1, by omega⟩
  have : (m : ℝ) * lam N (q + 1) = (q : ℕ) * Real.pi := by
    unfold lam
    have h' : (2 : ℝ) * m = N := by exact_mod_cast h
    push_cast
    rw [add_sub_cancel_right]
    field_simp
    rw [← h']; ring
  rw [this, Real.sin_nat_mul_pi]

theorem circleCoef_congr {N m : ℕ} {x y : ℕ → ℝ} (h : ∀ i, 1 ≤ i → i ≤ N → x i = y i) : Spec.circleCoef N x m = Spec.circleCoef N y m := by
  unfold Spec.circleCoef
  congr 1
  refine Finset.sum_congr rfl fun i hi => ?_
  rw [Finset.mem_Icc] at hi
  rw [h i hi.1 hi.2]

theorem fill_row {N : ℕ} (x junk : ℕ → ℝ) {i : ℕ} (h1 : 1 ≤ i) (h2 : i ≤ N) :
    doLoop 1 N junk (fun i r => Function.update r i (x i)) i = x i := by
  have key := doLoop_inv (lo := 1) (hi := N) (by omega) (s := junk) (f := fun i r => Function.update r i (x i))
    (fun q r => ∀ i, 1 ≤ i → i < q → r i = x i) (fun i h1 h2 => by omega)
    (by
      intro q w h1 h2 ih j hj1 hj2
      by_cases e : j = q
      · subst e; rw [Function.update_self]
      · rw [Function.update_of_ne e]; exact ih j hj1 (by omega))
  exact key i h1 (by omega)

theorem anaRow_eq {E : Env} {plan N T : ℕ} (hp : plan = N) (hN : 1 ≤ N) (x : ℕ → ℝ) (s : (ℕ → ℝ) × (ℕ → ℝ)) (junk : ℕ → ℝ) {m : ℕ}
    (hm : m ≤ T) (hm2 : 2 * m ≤ N) :
    (anaRow E plan N T x s junk).1 m = (Spec.circleCoef N x m).re ∧ (anaRow E plan N T x s junk).2 m = (Spec.circleCoef N x m).im := by
  unfold anaRow
  dsimp only
  rw [Env.fftf, if_pos hp]
  generalize hrow : doLoop 1 N junk (fun i r => Function.update r i (x i)) = row
  have hr : ∀ i, 1 ≤ i → i ≤ N → row i = x i := fun i h1 h2 => by rw [← hrow]; exact fill_row x junk h1 h2
  have hc : ∀ q, 2 * q ≤ N → 1 ≤ q → hrfftf N row (2 * q) * (1 / (N : ℝ)) = (Spec.circleCoef N x q).re := fun q hq h1 => by
    rw [← circleCoef_congr (m := q) hr, circleCoef_re]
    unfold hrfftf
    rw [if_neg (by omega), if_neg (by omega), if_pos (by omega), show 2 * q / 2 = q by omega]
  have hs : ∀ q, 2 * q ≤ N → 1 ≤ q → (if 2 * q < N then hrfftf N row (2 * q + 1) * (1 / (N : ℝ)) else 0) = (Spec.circleCoef N x q).im := fun q hq h1 => by
    rw [← circleCoef_congr (m := q) hr, circleCoef_im]
    by_cases h : 2 * q < N
    · rw [if_pos h]
      unfold hrfftf
      rw [if_neg (by omega), if_neg (by omega), if_neg (by omega), show (2 * q + 1) / 2 = q by omega]
    · rw [if_neg h, Finset.sum_eq_zero, neg_zero, zero_mul]
      intro i hi
      rw [Finset.mem_Icc] at hi
      rw [sin_nyquist hN (by omega) hi.1, mul_zero]
  have h0c : hrfftf N row 1 * (1 / (N : ℝ)) = (Spec.circleCoef N x 0).re := by
    rw [← circleCoef_congr (m := 0) hr, circleCoef_re]
    unfold hrfftf
    rw [if_neg (by omega), if_pos rfl]
    simp
  have h0s : (0 : ℝ) = (Spec.circleCoef N x 0).im := by rw [circleCoef_im]; simp
  have key := doLoop_inv (lo := 1) (hi := min T (N / 2)) (by omega)
    (s := (Function.update s.1 0 (hrfftf N row 1 * (1 / (N : ℝ))), Function.update s.2 0 0))
    (f := fun m s => (Function.update s.1 m (hrfftf N row (2 * m) * (1 / (N : ℝ))),
      Function.update s.2 m (if 2 * m < N then hrfftf N row (2 * m + 1) * (1 / (N : ℝ)) else 0)))
    (fun q s => ∀ m, m < q → s.1 m = (Spec.circleCoef N x m).re ∧ s.2 m = (Spec.circleCoef N x m).im)
    (by
      intro m hm
      have : m = 0 := by omega
      subst this
      simp only [Function.update_self]
      exact ⟨h0c, h0s⟩)
    (by
      intro q w h1 h2 ih j hj2
      by_cases e : j = q
      · subst e; simp only [Function.update_self]
        exact ⟨hc j (by omega) h1, hs j (by omega) h1⟩
      · simp only [Function.update_of_ne e]; exact ih j (by omega))
  exact key m (by omega)

end Skyborn.RedGauss
