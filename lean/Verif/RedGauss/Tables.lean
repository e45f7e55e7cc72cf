/-
The tables of Legendre functions and of their derivatives.
-/
import Verif.RedGauss.Legendre

namespace Skyborn.RedGauss

open Skyborn Skyborn.Sphere

/-- Value the table gets at row `j`. -/
noncomputable def tabVal (nlat : ℕ) (leg : ℕ → ℕ → ℕ → ℝ) (m n j : ℕ) : ℝ :=
  if j ≤ (nlat + 1) / 2 then leg m n j else (-1) ^ (n - m) * leg m n (nlat - j + 1)

theorem basis_rows {nlat m n nm : ℕ} (par : ℝ) (hpar : par = (-1) ^ (n - m)) (leg : ℕ → ℕ → ℕ → ℝ) (b : ℕ → ℕ → ℝ) (j p : ℕ) :
    (doLoop 1 ((nlat + 1) / 2) b fun i b =>
      let value := leg m n i
      let b := upRow b i fun r => Function.update r nm value
      let js := nlat - i + 1
      if js ≠ i then upRow b js fun r => Function.update r nm (par * value) else b) j p
      = if (1 ≤ j ∧ j ≤ nlat) ∧ p = nm then tabVal nlat leg m n j else b j p := by
  have key := doLoop_inv (lo := 1) (hi := (nlat + 1) / 2) (by omega) (s := b)
    (f := fun i b =>
      let value := leg m n i
      let b := upRow b i fun r => Function.update r nm value
      let js := nlat - i + 1
      if js ≠ i then upRow b js fun r => Function.update r nm (par * value) else b)
    (fun q t => ∀ j p, t j p = if ((1 ≤ j ∧ j < q) ∨ (nlat + 1 < j + q ∧ j ≤ nlat)) ∧ p = nm then tabVal nlat leg m n j else b j p)
    (fun j p => by rw [if_neg (by omega)])
    (by
      intro q t h1 h2 ih j p
      dsimp only
      by_cases hq : nlat - q + 1 ≠ q
      · rw [if_pos hq, upRow_apply]
        by_cases e : j = nlat - q + 1
        · rw [if_pos e]
          by_cases ep : p = nm
          · subst ep
            rw [Function.update_self, if_pos ⟨Or.inr (by omega), rfl⟩]
            unfold tabVal
            rw [if_neg (by omega), hpar, e, show nlat - (nlat - q + 1) + 1 = q by omega]
          · rw [Function.update_of_ne ep, upRow_apply, if_neg (by omega), ih, if_neg (by tauto), if_neg (by tauto)]
        · rw [if_neg e, upRow_apply]
          by_cases e' : j = q
          · rw [if_pos e']
            by_cases ep : p = nm
            · subst ep; rw [Function.update_self, if_pos ⟨Or.inl (by omega), rfl⟩]; unfold tabVal; rw [if_pos (by omega), e']
            · rw [Function.update_of_ne ep, ih, if_neg (by tauto), if_neg (by tauto)]
          · rw [if_neg e', ih]
            have : ((1 ≤ j ∧ j < q) ∨ (nlat + 1 < j + q ∧ j ≤ nlat)) ↔ ((1 ≤ j ∧ j < q + 1) ∨ (nlat + 1 < j + (q + 1) ∧ j ≤ nlat)) := by omega
            simp only [this]
      · rw [if_neg hq, upRow_apply]
        by_cases e' : j = q
        · rw [if_pos e']
          by_cases ep : p = nm
          · subst ep; rw [Function.update_self, if_pos ⟨Or.inl (by omega), rfl⟩]; unfold tabVal; rw [if_pos (by omega), e']
          · rw [Function.update_of_ne ep, ih, if_neg (by tauto), if_neg (by tauto)]
        · rw [if_neg e', ih]
          have : ((1 ≤ j ∧ j < q) ∨ (nlat + 1 < j + q ∧ j ≤ nlat)) ↔ ((1 ≤ j ∧ j < q + 1) ∨ (nlat + 1 < j + (q + 1) ∧ j ≤ nlat)) := by omega
          simp only [this])
  rw [key j p]
  have : ((1 ≤ j ∧ j < (nlat + 1) / 2 + 1) ∨ (nlat + 1 < j + ((nlat + 1) / 2 + 1) ∧ j ≤ nlat)) ↔ (1 ≤ j ∧ j ≤ nlat) := by omega
  simp only [this]

/-- **The table of functions**: what `legin` computes for the northern rows, reflected. -/
theorem legendreBasis_eq {nlat T : ℕ} (h3 : 3 ≤ nlat) (hT : T ≤ nlat - 1) (leg : ℕ → ℕ → ℕ → ℝ) :
    ∃ b, legendreBasis nlat T leg = .ok b ∧ ∀ j m n, 1 ≤ j → j ≤ nlat → m ≤ n → n ≤ T → b j (Spec.pos T m n) = tabVal nlat leg m n j := by
  unfold legendreBasis
  rw [if_neg (by omega), if_neg (by omega)]
  refine ⟨_, rfl, ?_⟩
  dsimp only
  have key := doLoop_inv (lo := 0) (hi := T) (by omega) (s := (fun _ _ => 0 : ℕ → ℕ → ℝ))
    (f := fun m b =>
      (doLoop m T (b, (1 : ℝ)) fun n s =>
        (doLoop 1 ((nlat + 1) / 2) s.1 fun i b =>
          let value := leg m n i
          let b := upRow b i fun r => Function.update r (m * (2 * T + 3 - m) / 2 + n - m + 1) value
          let js := nlat - i + 1
          if js ≠ i then upRow b js fun r => Function.update r (m * (2 * T + 3 - m) / 2 + n - m + 1) (s.2 * value) else b,
         -s.2)).1)
    (fun q b => ∀ j m n, 1 ≤ j → j ≤ nlat → m ≤ n → n ≤ T → m < q → b j (nmOf T m n) = tabVal nlat leg m n j)
    (fun j m n _ _ _ _ h => by omega)
    (by
      intro m b _ hm ih
      have inner := doLoop_inv (lo := m) (hi := T) (by omega) (s := (b, (1 : ℝ)))
        (f := fun n s =>
          (doLoop 1 ((nlat + 1) / 2) s.1 fun i b =>
            let value := leg m n i
            let b := upRow b i fun r => Function.update r (m * (2 * T + 3 - m) / 2 + n - m + 1) value
            let js := nlat - i + 1
            if js ≠ i then upRow b js fun r => Function.update r (m * (2 * T + 3 - m) / 2 + n - m + 1) (s.2 * value) else b,
           -s.2))
        (fun q s => s.2 = (-1) ^ (q - m) ∧ ∀ j m' n, 1 ≤ j → j ≤ nlat → m' ≤ n → n ≤ T → (m' < m ∨ m' = m ∧ n < q) →
          s.1 j (nmOf T m' n) = tabVal nlat leg m' n j)
        ⟨by simp, fun j m' n a1 a2 a3 a4 h => ih j m' n a1 a2 a3 a4 (by omega)⟩
        (by
          rintro n s hn1 hn2 ⟨e, ih2⟩
          have enm : m * (2 * T + 3 - m) / 2 + n - m + 1 = nmOf T m n := by
            rw [nmOf_off hm]; unfold specOff; omega
          refine ⟨?_, fun j m' n' a1 a2 a3 a4 h => ?_⟩
          · dsimp only; rw [e, show n + 1 - m = (n - m) + 1 by omega, pow_succ]; ring
          · dsimp only
            rw [basis_rows s.2 e leg, enm]
            by_cases hh : nmOf T m' n' = nmOf T m n
            · obtain ⟨e1, e2⟩ := nmOf_inj a3 a4 hn1 hn2 hh
              subst e1; subst e2
              rw [if_pos ⟨⟨a1, a2⟩, rfl⟩]
            · rw [if_neg (by tauto)]
              refine ih2 j m' n' a1 a2 a3 a4 ?_
              rcases h with h | ⟨h, h'⟩
              · exact Or.inl h
              · refine Or.inr ⟨h, ?_⟩
                rcases Nat.lt_succ_iff_lt_or_eq.mp h' with h' | h'
                · exact h'
                · exact absurd (by rw [h, h']) hh)
      exact fun j m' n a1 a2 a3 a4 h => inner.2 j m' n a1 a2 a3 a4 (by omega))
  exact fun j m n a1 a2 a3 a4 => key j m n a1 a2 a3 a4 (by omega)

/-- With the northern rows right, the table is right. -/
theorem legendreBasis_isBasis {nlat T : ℕ} (h3 : 3 ≤ nlat) (hT : T ≤ nlat - 1) {θ w : ℕ → ℝ} (hr : Spec.Rows nlat θ w)
    {leg : ℕ → ℕ → ℕ → ℝ} (hl : ∀ m n i, m ≤ n → n ≤ T → 1 ≤ i → i ≤ (nlat + 1) / 2 → leg m n i = pbar m n (θ i)) :
    ∃ b, legendreBasis nlat T leg = .ok b ∧ Spec.IsBasis nlat T θ b := by
  obtain ⟨b, hb, h⟩ := legendreBasis_eq h3 hT leg
  refine ⟨b, hb, fun j m n a1 a2 a3 a4 => ?_⟩
  rw [h j m n a1 a2 a3 a4]
  unfold tabVal
  by_cases hj : j ≤ (nlat + 1) / 2
  · rw [if_pos hj, hl m n j a3 a4 a1 hj]
  · rw [if_neg hj, hl m n _ a3 a4 (by omega) (by omega), hr.mirror j a1 a2, pbar_mirror a3, ← mul_assoc, ← pow_add, ← two_mul, pow_mul]
    simp

theorem deriv_rows {nlat nm prev : ℕ} (A B : ℕ → ℝ) (co : ℝ) (basis : ℕ → ℕ → ℝ) (d : ℕ → ℕ → ℝ) (j p : ℕ) :
    (doLoop 1 nlat d fun j d =>
      let deriv := A j * basis j nm
      let deriv := if prev > 0 then deriv - co * basis j prev else deriv
      upRow d j fun r => Function.update r nm (deriv / B j)) j p
      = if (1 ≤ j ∧ j ≤ nlat) ∧ p = nm then (A j * basis j nm - if prev > 0 then co * basis j prev else 0) / B j else d j p := by
  have key := doLoop_inv (lo := 1) (hi := nlat) (by omega) (s := d)
    (f := fun j d =>
      let deriv := A j * basis j nm
      let deriv := if prev > 0 then deriv - co * basis j prev else deriv
      upRow d j fun r => Function.update r nm (deriv / B j))
    (fun q t => ∀ j p, t j p = if (1 ≤ j ∧ j < q) ∧ p = nm then (A j * basis j nm - if prev > 0 then co * basis j prev else 0) / B j else d j p)
    (fun j p => by rw [if_neg (by omega)])
    (by
      intro q t h1 h2 ih j p
      dsimp only
      rw [upRow_apply]
      by_cases e : j = q
      · rw [if_pos e]
        by_cases ep : p = nm
        · subst ep
          have hc : (1 ≤ j ∧ j < q + 1) ∧ p = p := ⟨by omega, rfl⟩
          rw [Function.update_self, if_pos hc, ← e]
          by_cases hp : prev > 0
          · simp only [if_pos hp]
          · simp only [if_neg hp, sub_zero]
        · rw [Function.update_of_ne ep, ih, if_neg (by tauto), if_neg (by tauto)]
      · rw [if_neg e, ih]
        have : (1 ≤ j ∧ j < q) ↔ (1 ≤ j ∧ j < q + 1) := by omega
        simp only [this])
  rw [key j p]
  have : (1 ≤ j ∧ j < nlat + 1) ↔ (1 ≤ j ∧ j ≤ nlat) := by omega
  simp only [this]

/-- **The table of derivatives.** -/
theorem legendreDeriv_isDeriv {nlat T : ℕ} (h3 : 3 ≤ nlat) (hT : T ≤ nlat - 1) {θ w : ℕ → ℝ} (hr : Spec.Rows nlat θ w)
    {b : ℕ → ℕ → ℝ} (hb : Spec.IsBasis nlat T θ b) {E : Env} (hE : E.ok) :
    ∃ d, legendreDeriv nlat T θ b E = .ok d ∧ Spec.IsDeriv nlat T θ d := by
  unfold legendreDeriv
  rw [if_neg (by omega), if_neg (by omega)]
  refine ⟨_, rfl, fun j m n a1 a2 a3 a4 => ?_⟩
  have hs : Real.sin (θ j) ≠ 0 := (Real.sin_pos_of_pos_of_lt_pi (hr.inside j a1 a2).1 (hr.inside j a1 a2).2).ne'
  refine (hasDerivAt_pbar m n (θ j)).congr_deriv ?_
  -- one order
  have horder : ∀ m, m ≤ T → ∀ (t : ℕ → ℕ → ℝ) (j p : ℕ),
      ((∃ n, (1 ≤ j ∧ j ≤ nlat) ∧ max 1 m ≤ n ∧ n ≤ T ∧ p = nmOf T m n) →
        (doLoop (max 1 m) T t fun n d =>
          doLoop 1 nlat d fun j d =>
            let deriv := (n : ℝ) * Real.cos (θ j) * b j (m * (2 * T + 3 - m) / 2 + n - m + 1)
            let deriv := if (if n > m then m * (2 * T + 3 - m) / 2 + (n - 1) - m + 1 else 0) > 0 then deriv - (if n > m then Real.sqrt ((((2 * n + 1) * (n * n - m * m) : ℕ) : ℝ) / ((2 * n - 1 : ℕ) : ℝ)) else 0) * b j (if n > m then m * (2 * T + 3 - m) / 2 + (n - 1) - m + 1 else 0) else deriv
            upRow d j fun r => Function.update r (m * (2 * T + 3 - m) / 2 + n - m + 1) (deriv / Real.sin (θ j))) j p
          = (fun j p => dpbar m (p + m - 1 - specOff m T) (θ j)) j p) ∧
      ((¬ ∃ n, (1 ≤ j ∧ j ≤ nlat) ∧ max 1 m ≤ n ∧ n ≤ T ∧ p = nmOf T m n) →
        (doLoop (max 1 m) T t fun n d =>
          doLoop 1 nlat d fun j d =>
            let deriv := (n : ℝ) * Real.cos (θ j) * b j (m * (2 * T + 3 - m) / 2 + n - m + 1)
            let deriv := if (if n > m then m * (2 * T + 3 - m) / 2 + (n - 1) - m + 1 else 0) > 0 then deriv - (if n > m then Real.sqrt ((((2 * n + 1) * (n * n - m * m) : ℕ) : ℝ) / ((2 * n - 1 : ℕ) : ℝ)) else 0) * b j (if n > m then m * (2 * T + 3 - m) / 2 + (n - 1) - m + 1 else 0) else deriv
            upRow d j fun r => Function.update r (m * (2 * T + 3 - m) / 2 + n - m + 1) (deriv / Real.sin (θ j))) j p
          = t j p) := by
    intro m hm t j p
    by_cases hle : max 1 m ≤ T + 1
    swap
    · exfalso; omega
    have inner := doLoop_inv (lo := max 1 m) (hi := T) hle (s := t)
      (f := fun n d =>
          doLoop 1 nlat d fun j d =>
            let deriv := (n : ℝ) * Real.cos (θ j) * b j (m * (2 * T + 3 - m) / 2 + n - m + 1)
            let deriv := if (if n > m then m * (2 * T + 3 - m) / 2 + (n - 1) - m + 1 else 0) > 0 then deriv - (if n > m then Real.sqrt ((((2 * n + 1) * (n * n - m * m) : ℕ) : ℝ) / ((2 * n - 1 : ℕ) : ℝ)) else 0) * b j (if n > m then m * (2 * T + 3 - m) / 2 + (n - 1) - m + 1 else 0) else deriv
            upRow d j fun r => Function.update r (m * (2 * T + 3 - m) / 2 + n - m + 1) (deriv / Real.sin (θ j)))
      (fun q d => ∀ j p,
        ((∃ n, (1 ≤ j ∧ j ≤ nlat) ∧ max 1 m ≤ n ∧ n < q ∧ p = nmOf T m n) → d j p = dpbar m (p + m - 1 - specOff m T) (θ j)) ∧
        ((¬ ∃ n, (1 ≤ j ∧ j ≤ nlat) ∧ max 1 m ≤ n ∧ n < q ∧ p = nmOf T m n) → d j p = t j p))
      (fun j p => ⟨fun ⟨n, _, h1, h2, _⟩ => by omega, fun _ => rfl⟩)
      (by
        intro n d hn1 hn2 ih j p
        have enm : m * (2 * T + 3 - m) / 2 + n - m + 1 = nmOf T m n := by
          rw [nmOf_off hm]; unfold specOff; omega
        rw [deriv_rows (fun j => (n : ℝ) * Real.cos (θ j)) (fun j => Real.sin (θ j)), enm]
        by_cases hp : (1 ≤ j ∧ j ≤ nlat) ∧ p = nmOf T m n
        · have hs : Real.sin (θ j) ≠ 0 := (Real.sin_pos_of_pos_of_lt_pi (hr.inside j hp.1.1 hp.1.2).1 (hr.inside j hp.1.1 hp.1.2).2).ne'
          rw [if_pos hp]
          refine ⟨fun _ => ?_, fun h => absurd ⟨n, hp.1, hn1, by omega, hp.2⟩ h⟩
          have en : p + m - 1 - specOff m T = n := by rw [hp.2, nmOf_off hm]; omega
          rw [en, div_eq_iff hs, mul_comm (dpbar _ _ _)]
          have hbn : b j (nmOf T m n) = pbar m n (θ j) := hb j m n hp.1.1 hp.1.2 (by omega) hn2
          rw [hbn]
          by_cases hnm : n > m
          · have epv : m * (2 * T + 3 - m) / 2 + (n - 1) - m + 1 = nmOf T m (n - 1) := by
              rw [nmOf_off hm]; unfold specOff; omega
            have hbp : b j (nmOf T m (n - 1)) = pbar m (n - 1) (θ j) := hb j m (n - 1) hp.1.1 hp.1.2 (by omega) (by omega)
            rw [if_pos hnm, if_pos hnm, if_pos (by omega), epv, hbp]
            obtain ⟨n', rfl⟩ : ∃ n', n = n' + 1 := ⟨n - 1, by omega⟩
            rw [dpbar_rec (m := m) (n := n') (by omega) (θ j)]
            rfl
          · have : n = m := by omega
            subst this
            rw [if_neg hnm, if_neg (by omega), sub_zero, dpbar_diag]
        · rw [if_neg hp]
          refine ⟨fun ⟨n', h1, h2, h4, h5⟩ => (ih j p).1 ⟨n', h1, h2, ?_, h5⟩, fun h => (ih j p).2 fun ⟨n', h1, h2, h4, h5⟩ => h ⟨n', h1, h2, by omega, h5⟩⟩
          rcases Nat.lt_succ_iff_lt_or_eq.mp h4 with h | h
          · exact h
          · exact absurd ⟨h1, by rw [h5, h]⟩ hp)
    have := inner j p
    have ee : (∃ n, (1 ≤ j ∧ j ≤ nlat) ∧ max 1 m ≤ n ∧ n < T + 1 ∧ p = nmOf T m n) ↔ (∃ n, (1 ≤ j ∧ j ≤ nlat) ∧ max 1 m ≤ n ∧ n ≤ T ∧ p = nmOf T m n) := by
      simp only [Nat.lt_succ_iff]
    rw [ee] at this
    exact this
  have key := parLoop_own hE (lo := 0) (hi := T) (s := (fun _ _ => 0 : ℕ → ℕ → ℝ)) (P := ℕ × ℕ) (V := ℝ)
    (f := fun m d =>
      doLoop (max 1 m) T d fun n d =>
          doLoop 1 nlat d fun j d =>
            let deriv := (n : ℝ) * Real.cos (θ j) * b j (m * (2 * T + 3 - m) / 2 + n - m + 1)
            let deriv := if (if n > m then m * (2 * T + 3 - m) / 2 + (n - 1) - m + 1 else 0) > 0 then deriv - (if n > m then Real.sqrt ((((2 * n + 1) * (n * n - m * m) : ℕ) : ℝ) / ((2 * n - 1 : ℕ) : ℝ)) else 0) * b j (if n > m then m * (2 * T + 3 - m) / 2 + (n - 1) - m + 1 else 0) else deriv
            upRow d j fun r => Function.update r (m * (2 * T + 3 - m) / 2 + n - m + 1) (deriv / Real.sin (θ j)))
    (get := fun s p => s p.1 p.2)
    (own := fun m p => ∃ n, (1 ≤ p.1 ∧ p.1 ≤ nlat) ∧ max 1 m ≤ n ∧ n ≤ T ∧ p.2 = nmOf T m n)
    (upd := fun m p _ => dpbar m (p.2 + m - 1 - specOff m T) (θ p.1))
    (fun m _ hm s p => horder m hm s p.1 p.2)
    (by
      rintro m m' p _ hm _ hm' ⟨n, _, h1, h2, h4⟩ ⟨n', _, h1', h2', h4'⟩
      exact (nmOf_inj (by omega) h2 (by omega) h2' (h4.symm.trans h4')).1)
  by_cases h0 : n = 0
  · have hm0 : m = 0 := by omega
    subst h0; subst hm0
    have := key.2 (j, nmOf T 0 0) (by
      rintro m' _ hm' ⟨n', _, h1, h2, h4⟩
      have := nmOf_inj (le_refl 0) a4 (by omega) h2 h4
      omega)
    have hz := dpbar_diag 0 (θ j)
    simp only [Nat.cast_zero, zero_mul] at hz
    rw [show dpbar 0 0 (θ j) = 0 by rcases mul_eq_zero.mp hz with h | h; exact absurd h hs; exact h]
    exact this.symm
  · have := key.1 m (j, nmOf T m n) (by omega) (by omega) ⟨n, ⟨a1, a2⟩, by omega, a4, rfl⟩
    dsimp only at this
    rw [show nmOf T m n + m - 1 - specOff m T = n by rw [nmOf_off (by omega)]; omega] at this
    exact this.symm

/-- Rows of the tables in the two hemispheres. -/
theorem basis_mirror {nlat T : ℕ} {θ w : ℕ → ℝ} (hr : Spec.Rows nlat θ w) {b : ℕ → ℕ → ℝ} (hb : Spec.IsBasis nlat T θ b) {j : ℕ}
    (h1 : 1 ≤ j) (h2 : j ≤ nlat) : mirror T 1 (b j) (b (nlat - j + 1)) := by
  intro m n h3 h4
  have e1 : b (nlat - j + 1) (nmOf T m n) = _ := hb (nlat - j + 1) m n (by omega) (by omega) h3 h4
  have e2 : b j (nmOf T m n) = _ := hb j m n h1 h2 h3 h4
  rw [e1, e2, hr.mirror j h1 h2, pbar_mirror h3]; ring

theorem deriv_val {nlat T : ℕ} {θ : ℕ → ℝ} {d : ℕ → ℕ → ℝ} (hd : Spec.IsDeriv nlat T θ d) {j m n : ℕ} (h1 : 1 ≤ j) (h2 : j ≤ nlat)
    (h3 : m ≤ n) (h4 : n ≤ T) : d j (nmOf T m n) = dpbar m n (θ j) :=
  (hd j m n h1 h2 h3 h4).unique (hasDerivAt_pbar m n (θ j))

theorem deriv_mirror {nlat T : ℕ} {θ w : ℕ → ℝ} (hr : Spec.Rows nlat θ w) {d : ℕ → ℕ → ℝ} (hd : Spec.IsDeriv nlat T θ d) {j : ℕ}
    (h1 : 1 ≤ j) (h2 : j ≤ nlat) : mirror T (-1) (d j) (d (nlat - j + 1)) := by
  intro m n h3 h4
  rw [deriv_val hd (by omega) (by omega) h3 h4, deriv_val hd h1 h2 h3 h4, hr.mirror j h1 h2, dpbar_mirror h3]; ring

end Skyborn.RedGauss
