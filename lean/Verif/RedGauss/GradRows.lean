/-
What one iteration of the gradient and two-field loops writes.
-/
import Verif.RedGauss.GradModel
import Verif.RedGauss.Paths

namespace Skyborn.RedGauss

open Skyborn

/-! ### Loops -/

/-- Two nested loops that establish a fact about every cell and disturb no other cell. -/
theorem cells_loop {σ : Type*} {nt ml : ℕ} (f : ℕ → ℕ → σ → σ) (s : σ) (P : ℕ → ℕ → σ → Prop)
    (est : ∀ k m st, 1 ≤ k → k ≤ nt → m ≤ ml → P m k (f k m st))
    (pres : ∀ k m st m' k', ¬ (m' = m ∧ k' = k) → P m' k' st → P m' k' (f k m st)) :
    ∀ m k, m ≤ ml → 1 ≤ k → k ≤ nt → P m k (doLoop 1 nt s fun k s => doLoop 0 ml s fun m s => f k m s) := by
  have key := doLoop_inv (lo := 1) (hi := nt) (by omega) (s := s) (f := fun k s => doLoop 0 ml s fun m s => f k m s)
    (fun q st => ∀ m k, m ≤ ml → 1 ≤ k → k < q → P m k st) (fun m k _ h1 h2 => by omega)
    (by
      intro q st hq1 hq2 ih
      have inner := doLoop_inv (lo := 0) (hi := ml) (by omega) (s := st) (f := fun m s => f q m s)
        (fun r t => (∀ m, m < r → P m q t) ∧ ∀ m k, m ≤ ml → 1 ≤ k → k < q → P m k t)
        ⟨fun m h => by omega, ih⟩
        (by
          rintro r t _ hr ⟨h1, h2⟩
          refine ⟨fun m hm => ?_, fun m k a b c => pres q r t m k (by omega) (h2 m k a b c)⟩
          by_cases e : m = r
          · subst e; exact est q m t hq1 hq2 hr
          · exact pres q r t m q (by omega) (h1 m (by omega)))
      intro m k h1 h2 h3
      by_cases e : k = q
      · subst e; exact inner.1 m (by omega)
      · exact inner.2 m k h1 h2 (by omega))
  exact fun m k h1 h2 h3 => key m k h1 h2 (by omega)

/-- A loop over the slices that writes each slice of the points of `W` once. -/
theorem slices_loop {σ : Type*} {R nt : ℕ} (proj : σ → Grids) (W : ℕ → Prop) [DecidablePred W] (V : ℕ → ℕ → ℕ → ℝ) (F : ℕ → σ → σ) (s : σ)
    (hF : ∀ k st c p k', 1 ≤ k → k ≤ nt → 1 ≤ c → c ≤ R →
      proj (F k st) c p k' = if k' = k ∧ W p then V c p k else proj st c p k') {c : ℕ} (hc1 : 1 ≤ c) (hc2 : c ≤ R) (p k' : ℕ) :
    proj (doLoop 1 nt s F) c p k' = if (1 ≤ k' ∧ k' ≤ nt) ∧ W p then V c p k' else proj s c p k' := by
  have key := doLoop_inv (lo := 1) (hi := nt) (by omega) (s := s) (f := F)
    (fun q st => ∀ p k', proj st c p k' = if (1 ≤ k' ∧ k' < q) ∧ W p then V c p k' else proj s c p k')
    (fun p k' => by rw [if_neg (by omega)])
    (by
      intro q st h1 h2 ih p k'
      rw [hF q st c p k' h1 h2 hc1 hc2, ih]
      by_cases e : k' = q
      · subst e
        by_cases hw : W p
        · rw [if_pos ⟨rfl, hw⟩, if_pos ⟨by omega, hw⟩]
        · rw [if_neg (by tauto), if_neg (by tauto), if_neg (by tauto)]
      · rw [if_neg (by tauto)]
        have : k' < q ↔ k' < q + 1 := by omega
        simp only [this])
  rw [key p k']
  simp only [Nat.lt_succ_iff]

/-- The single loop over pairs and centre row. -/
theorem rows_half {σ ι : Type*} {E : Env} (hE : E.ok) {nlat nt : ℕ} {pl : ℕ → ℕ} (get : σ → ℕ → ℕ → ι → ℝ) (val : ℕ → ℕ → ℕ → ι → ℝ)
    (f g : ℕ → σ → σ) (s : σ)
    (hf : ∀ j, 1 ≤ j → j ≤ nlat / 2 → ∀ s p k c, get (f j s) p k c =
      if (1 ≤ k ∧ k ≤ nt) ∧ inRow pl j p then val j (p - Spec.rowStart pl j) k c
      else if (1 ≤ k ∧ k ≤ nt) ∧ inRow pl (nlat - j + 1) p then val (nlat - j + 1) (p - Spec.rowStart pl (nlat - j + 1)) k c
      else get s p k c)
    (hg : ∀ j, 1 ≤ j → j ≤ nlat → ∀ s p k c, get (g j s) p k c =
      if (1 ≤ k ∧ k ≤ nt) ∧ inRow pl j p then val j (p - Spec.rowStart pl j) k c else get s p k c) :
    ∀ j i k c, 1 ≤ j → j ≤ nlat → 1 ≤ i → i ≤ pl j → 1 ≤ k → k ≤ nt →
      get (parLoop E 1 ((nlat + 1) / 2) s fun j s => if j ≤ nlat / 2 then f j s else g j s) (Spec.rowStart pl j + i) k c = val j i k c := by
  intro j i k c h1 h2 h3 h4 h5 h6
  have key := (parLoop_own hE (lo := 1) (hi := (nlat + 1) / 2) (s := s) (f := fun j s => if j ≤ nlat / 2 then f j s else g j s)
    (P := ℕ × ℕ × ι) (V := ℝ)
    (get := fun s p => get s p.1 p.2.1 p.2.2)
    (own := fun j p => (1 ≤ p.2.1 ∧ p.2.1 ≤ nt) ∧ (inRow pl j p.1 ∨ inRow pl (nlat - j + 1) p.1))
    (upd := fun j p _ => if inRow pl j p.1 then val j (p.1 - Spec.rowStart pl j) p.2.1 p.2.2
      else val (nlat - j + 1) (p.1 - Spec.rowStart pl (nlat - j + 1)) p.2.1 p.2.2)
    (by
      intro j hj1 hj2 s p
      have hone : get (if j ≤ nlat / 2 then f j s else g j s) p.1 p.2.1 p.2.2 =
          if (1 ≤ p.2.1 ∧ p.2.1 ≤ nt) ∧ inRow pl j p.1 then val j (p.1 - Spec.rowStart pl j) p.2.1 p.2.2
          else if (1 ≤ p.2.1 ∧ p.2.1 ≤ nt) ∧ inRow pl (nlat - j + 1) p.1 then
            val (nlat - j + 1) (p.1 - Spec.rowStart pl (nlat - j + 1)) p.2.1 p.2.2
          else get s p.1 p.2.1 p.2.2 := by
        by_cases hp : j ≤ nlat / 2
        · rw [if_pos hp, hf j hj1 hp]
        · rw [if_neg hp, hg j hj1 (by omega)]
          have e : nlat - j + 1 = j := by omega
          rw [e]
          by_cases hh : (1 ≤ p.2.1 ∧ p.2.1 ≤ nt) ∧ inRow pl j p.1
          · rw [if_pos hh, if_pos hh]
          · rw [if_neg hh, if_neg hh]
      refine ⟨fun h => ?_, fun h => ?_⟩
      · rw [hone]
        by_cases hn : inRow pl j p.1
        · rw [if_pos ⟨h.1, hn⟩, if_pos hn]
        · have hs := h.2.resolve_left hn
          rw [if_neg (fun e => hn e.2), if_neg hn, if_pos ⟨h.1, hs⟩]
      · rw [hone, if_neg (fun e => h ⟨e.1, Or.inl e.2⟩), if_neg (fun e => h ⟨e.1, Or.inr e.2⟩)])
    (by
      intro j j' p a1 b1 a2 b2 h h'
      rcases h.2 with h | h <;> rcases h'.2 with h' | h'
      · exact inRow_unique a1 a2 h h'
      · have := inRow_unique a1 (by omega) h h'; omega
      · have := inRow_unique (by omega) a2 h h'; omega
      · have := inRow_unique (by omega) (by omega) h h'; omega)).1
  have hin : inRow pl j (Spec.rowStart pl j + i) := by unfold inRow; omega
  by_cases hj : j ≤ (nlat + 1) / 2
  · have k1 := key j (Spec.rowStart pl j + i, k, c) h1 hj ⟨⟨h5, h6⟩, Or.inl hin⟩
    dsimp only at k1
    rw [k1, if_pos hin]; congr 1; omega
  · have e : nlat - (nlat - j + 1) + 1 = j := by omega
    have hj1 : 1 ≤ nlat - j + 1 := by omega
    have hj2 : nlat - j + 1 ≤ (nlat + 1) / 2 := by omega
    have k1 := key (nlat - j + 1) (Spec.rowStart pl j + i, k, c) hj1 hj2 ⟨⟨h5, h6⟩, Or.inr (by rw [e]; exact hin)⟩
    dsimp only at k1
    rw [e] at k1
    rw [k1, if_neg fun h => by have := inRow_unique hj1 h1 h hin; omega]; congr 1; omega

theorem putRows_eq (R sh N off k : ℕ) (buf : ℕ → ℕ → ℝ) (g : Grids) {c : ℕ} (h1 : 1 ≤ c) (h2 : c ≤ R) (p k' : ℕ) :
    putRows R sh N off k buf g c p k' = if k' = k ∧ off < p ∧ p ≤ off + N then 0.5 * buf (sh + c) (p - off) else g c p k' := by
  unfold putRows
  rw [if_pos ⟨h1, h2⟩, putRow_eq]

theorem fourRow_congr {ml p : ℕ} {c c' s s' : ℕ → ℝ} (hc : ∀ m, m ≤ ml → c m = c' m) (hs : ∀ m, 1 ≤ m → m ≤ ml → s m = s' m) (hp : 1 ≤ p) :
    fourRow ml c s p = fourRow ml c' s' p := by
  unfold fourRow
  by_cases e : p = 1
  · rw [if_pos e, if_pos e, hc 0 (by omega)]
  · rw [if_neg e, if_neg e]
    by_cases h : p / 2 ≤ ml
    · rw [if_pos h, if_pos h, hc _ h, hs _ (by omega) h]
    · rw [if_neg h, if_neg h]

/-! ### Coefficients -/

/-- What the arrays must hold for wavenumber `m`, slice `k`. -/
def CellOK (invR κ C S dC dS : ℝ) (c : GradC) (m k : ℕ) : Prop :=
  (m ≠ 0 → c.uc m k = -((m : ℝ) * κ) * S ∧ -(c.us m k) = ((m : ℝ) * κ) * C ∧ c.vc m k = -invR * dC ∧ -(c.vs m k) = -invR * dS) ∧
  (m = 0 → 2 * c.vc m k = -invR * dC)

theorem set2_same (a : ℕ → ℕ → ℝ) (m k : ℕ) (x : ℝ) : set2 a m k x m k = x := by unfold set2; simp

theorem set2_other (a : ℕ → ℕ → ℝ) {m k m' k' : ℕ} (x : ℝ) (h : ¬ (m' = m ∧ k' = k)) : set2 a m k x m' k' = a m' k' := by
  unfold set2
  by_cases e : m' = m
  · subst e; rw [Function.update_self, Function.update_of_ne (by tauto)]
  · rw [Function.update_of_ne e]

theorem gradMode_est (invR κ : ℝ) (m k : ℕ) (p d : ℝ × ℝ) (c : GradC) :
    CellOK invR κ (2 * p.1) (2 * p.2) (2 * d.1) (2 * d.2) (gradMode invR (2 * invR) (2 * κ) m k p d c) m k := by
  unfold gradMode CellOK
  by_cases h : m = 0
  · rw [if_pos h]
    refine ⟨fun h' => absurd h h', fun _ => ?_⟩
    dsimp only
    rw [set2_same]; ring
  · rw [if_neg h]
    refine ⟨fun _ => ?_, fun h' => absurd h' h⟩
    dsimp only
    rw [set2_same, set2_same, set2_same, set2_same]
    refine ⟨by ring, by ring, by ring, by ring⟩

theorem gradMode_pres {invR κ C S dC dS x y z : ℝ} {m k m' k' : ℕ} {p d : ℝ × ℝ} {c : GradC} (h : ¬ (m' = m ∧ k' = k))
    (hc : CellOK invR κ C S dC dS c m' k') : CellOK invR κ C S dC dS (gradMode x y z m k p d c) m' k' := by
  unfold gradMode CellOK at *
  by_cases h0 : m = 0
  · rw [if_pos h0]; dsimp only; rw [set2_other _ _ h]; exact hc
  · rw [if_neg h0]; dsimp only; rw [set2_other _ _ h, set2_other _ _ h, set2_other _ _ h, set2_other _ _ h]; exact hc

/-- The zonal component of the gradient on a row of `N` points. -/
noncomputable def gradU (N T : ℕ) (κ : ℝ) (spec : ℕ → ℂ) (b : ℕ → ℝ) (l : ℝ) : ℝ :=
  fourSeries N T (fun m => -((m : ℝ) * κ) * sinC T spec b m) (fun m => ((m : ℝ) * κ) * cosC T spec b m) l

/-- The meridional component. -/
noncomputable def gradV (N T : ℕ) (invR : ℝ) (spec : ℕ → ℂ) (db : ℕ → ℝ) (l : ℝ) : ℝ :=
  fourSeries N T (fun m => -invR * cosC T spec db m) (fun m => -invR * sinC T spec db m) l

/-! ### Buffer rows -/

theorem gradFill_other {N ml : ℕ} (c : GradC) (k : ℕ) {ru rv r : ℕ} (h1 : r ≠ ru) (h2 : r ≠ rv) (buf : ℕ → ℕ → ℝ) :
    gradFill N ml c k ru rv buf r = buf r := by
  unfold gradFill
  rw [loop_rows 1 ml _ _ (fun _ r => r) r, loop_none _ _ fun _ _ _ _ => rfl]
  · rw [upRow_apply, if_neg h2, upRow_apply, if_neg h1]
  · intro m _ _ buf
    unfold putModeRow
    rw [upRow_apply, if_neg h2, upRow_apply, if_neg h1]

theorem mode_row {N ml : ℕ} (x0 : ℝ) (c s : ℕ → ℝ) (row : ℕ → ℝ) {q : ℕ} (h1 : 1 ≤ q) (h2 : q ≤ N) (h3 : q ≤ 2 * ml + 1) :
    doLoop 1 ml (Function.update row 1 x0) (fun m r => putMode N m (c m) (s m) r) q = fourRow ml (fun m => if m = 0 then x0 else c m) s q := by
  by_cases e : q = 1
  · subst e
    have := doLoop_inv (lo := 1) (hi := ml) (by omega) (s := Function.update row 1 x0) (f := fun m r => putMode N m (c m) (s m) r)
      (fun _ r => r 1 = x0) (by rw [Function.update_self])
      (by
        intro m r hm1 _ hr
        rw [putMode_other (by omega) (by omega)]; exact hr)
    rw [this]; unfold fourRow; simp
  · rw [putModes c s _ 1 le_rfl (by omega) h1 h2 h3 (fun h => absurd h e)]
    unfold fourRow
    rw [if_neg e, if_neg e]
    have : q / 2 ≠ 0 := by omega
    simp only [if_neg this]

theorem gradFill_u {N ml : ℕ} (c : GradC) (k : ℕ) {ru rv : ℕ} (h : ru ≠ rv) (buf : ℕ → ℕ → ℝ) {q : ℕ} (h1 : 1 ≤ q) (h2 : q ≤ N)
    (h3 : q ≤ 2 * ml + 1) :
    gradFill N ml c k ru rv buf ru q = fourRow ml (fun m => if m = 0 then 0 else c.uc m k) (fun m => -(c.us m k)) q := by
  unfold gradFill
  rw [loop_rows 1 ml _ _ (fun m r => putMode N m (c.uc m k) (-(c.us m k)) r) ru, upRow_apply, if_neg h, upRow_apply, if_pos rfl]
  · exact mode_row 0 _ _ _ h1 h2 h3
  · intro m _ _ buf
    unfold putModeRow
    rw [upRow_apply, if_neg h, upRow_apply, if_pos rfl]

theorem gradFill_v {N ml : ℕ} (c : GradC) (k : ℕ) {ru rv : ℕ} (h : ru ≠ rv) (buf : ℕ → ℕ → ℝ) {q : ℕ} (h1 : 1 ≤ q) (h2 : q ≤ N)
    (h3 : q ≤ 2 * ml + 1) :
    gradFill N ml c k ru rv buf rv q = fourRow ml (fun m => if m = 0 then 2 * c.vc 0 k else c.vc m k) (fun m => -(c.vs m k)) q := by
  unfold gradFill
  rw [loop_rows 1 ml _ _ (fun m r => putMode N m (c.vc m k) (-(c.vs m k)) r) rv, upRow_apply, if_pos rfl]
  · exact mode_row _ _ _ _ h1 h2 h3
  · intro m _ _ buf
    unfold putModeRow
    rw [upRow_apply, if_pos rfl, upRow_apply, if_neg (Ne.symm h)]

/-- Arrays filled for a field: `b`, `db` rows of the tables. -/
def CoefOK (T ml nt : ℕ) (invR κ : ℝ) (spec : ℕ → ℕ → ℂ) (b db : ℕ → ℝ) (c : GradC) : Prop :=
  ∀ m k, m ≤ ml → 1 ≤ k → k ≤ nt → CellOK invR κ (cosC T (fun nm => spec nm k) b m) (sinC T (fun nm => spec nm k) b m)
    (cosC T (fun nm => spec nm k) db m) (sinC T (fun nm => spec nm k) db m) c m k

/-- A transformed row of a filled buffer: zonal. -/
theorem buf_u {E : Env} {plan N T nt R ru rv k i : ℕ} (hp : plan = N) {invR κ : ℝ} {spec : ℕ → ℕ → ℂ} {b db : ℕ → ℝ} {c : GradC}
    (hc : CoefOK T (min T (N / 2)) nt invR κ spec b db c) (hk1 : 1 ≤ k) (hk2 : k ≤ nt) (hr1 : 1 ≤ ru) (hr2 : ru ≤ R) (hne : ru ≠ rv)
    (buf buf0 : ℕ → ℕ → ℝ) (hb : buf ru = gradFill N (min T (N / 2)) c k ru rv buf0 ru) (hi : 1 ≤ i) (hi2 : i ≤ N) :
    0.5 * fftbRows E plan N R (zeroTail R (min T (N / 2)) N buf) ru i = gradU N T κ (fun nm => spec nm k) b (lam N i) := by
  refine fftbRow hp hr1 hr2 _ _ _ (fun q h1 h2 h3 => ?_) hi hi2
  rw [hb, gradFill_u c k hne buf0 h1 h2 h3]
  refine fourRow_congr (fun m hm => ?_) (fun m h hm => ?_) h1
  · by_cases e : m = 0
    · subst e; simp
    · rw [if_neg e]; exact ((hc m k hm hk1 hk2).1 e).1
  · exact ((hc m k hm hk1 hk2).1 (by omega)).2.1

/-- Meridional. -/
theorem buf_v {E : Env} {plan N T nt R ru rv k i : ℕ} (hp : plan = N) {invR κ : ℝ} {spec : ℕ → ℕ → ℂ} {b db : ℕ → ℝ} {c : GradC}
    (hc : CoefOK T (min T (N / 2)) nt invR κ spec b db c) (hk1 : 1 ≤ k) (hk2 : k ≤ nt) (hr1 : 1 ≤ rv) (hr2 : rv ≤ R) (hne : ru ≠ rv)
    (buf buf0 : ℕ → ℕ → ℝ) (hb : buf rv = gradFill N (min T (N / 2)) c k ru rv buf0 rv) (hi : 1 ≤ i) (hi2 : i ≤ N) :
    0.5 * fftbRows E plan N R (zeroTail R (min T (N / 2)) N buf) rv i = gradV N T invR (fun nm => spec nm k) db (lam N i) := by
  refine fftbRow hp hr1 hr2 _ _ _ (fun q h1 h2 h3 => ?_) hi hi2
  rw [hb, gradFill_v c k hne buf0 h1 h2 h3]
  refine fourRow_congr (fun m hm => ?_) (fun m h hm => ?_) h1
  · by_cases e : m = 0
    · subst e; rw [if_pos rfl]; exact (hc 0 k hm hk1 hk2).2 rfl
    · rw [if_neg e]; exact ((hc m k hm hk1 hk2).1 e).2.2.1
  · exact ((hc m k hm hk1 hk2).1 (by omega)).2.2.2

end Skyborn.RedGauss
