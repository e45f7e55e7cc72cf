/-
The scalar analysis computes the quadrature sums.
-/
import Verif.RedGauss.Rows

namespace Skyborn.RedGauss

open Skyborn

/-- One row's contribution to the coefficients of one order. -/
theorem addRow_eq {T m : ℕ} (hm : m ≤ T) (k : ℕ) (v : ℕ → ℂ) (out : ℕ → ℕ → ℂ) (p k' : ℕ) :
    let r := (doLoop m T (specOff m T, out) fun _ q =>
      (q.1 + 1, Function.update q.2 (q.1 + 1) (Function.update (q.2 (q.1 + 1)) k (q.2 (q.1 + 1) k + v (q.1 + 1))))).2
    (k' = k → (∃ n, m ≤ n ∧ n ≤ T ∧ p = nmOf T m n) → r p k' = out p k' + v p) ∧
    (¬ (k' = k ∧ ∃ n, m ≤ n ∧ n ≤ T ∧ p = nmOf T m n) → r p k' = out p k') := by
  have key := doLoop_inv (lo := m) (hi := T) (by omega) (s := (specOff m T, out))
    (f := fun _ q => (q.1 + 1, Function.update q.2 (q.1 + 1) (Function.update (q.2 (q.1 + 1)) k (q.2 (q.1 + 1) k + v (q.1 + 1)))))
    (fun n s => s.1 = specOff m T + (n - m) ∧ ∀ p k',
      s.2 p k' = if k' = k ∧ specOff m T < p ∧ p ≤ specOff m T + (n - m) then out p k' + v p else out p k')
    ⟨by simp, fun p k' => by rw [if_neg (by omega)]⟩
    (by
      rintro n ⟨nm, o⟩ h1 h2 ⟨e1, e2⟩
      dsimp only at e1 e2 ⊢
      refine ⟨by omega, fun p k' => ?_⟩
      by_cases ep : p = nm + 1
      · rw [ep, Function.update_self]
        by_cases ek : k' = k
        · rw [ek, Function.update_self, e2, if_neg (by omega), if_pos (by omega)]
        · rw [Function.update_of_ne ek, e2, if_neg (by tauto), if_neg (by tauto)]
      · rw [Function.update_of_ne ep, e2]
        by_cases hc : k' = k ∧ specOff m T < p ∧ p ≤ specOff m T + (n - m)
        · rw [if_pos hc, if_pos (by omega)]
        · rw [if_neg hc, if_neg (by omega)])
  intro r
  have hr := key.2 p k'
  have hrr : r p k' = _ := hr
  have hiff : (∃ n, m ≤ n ∧ n ≤ T ∧ p = nmOf T m n) ↔ specOff m T < p ∧ p ≤ specOff m T + (T + 1 - m) := by
    constructor
    · rintro ⟨n, h1, h2, rfl⟩; rw [nmOf_off hm]; omega
    · rintro ⟨h1, h2⟩
      exact ⟨m + (p - specOff m T - 1), by omega, by omega, by rw [nmOf_off hm]; omega⟩
  refine ⟨fun hk hn => ?_, fun h => ?_⟩
  · rw [hrr, if_pos ⟨hk, hiff.mp hn⟩]
  · rw [hrr, if_neg]
    rw [hiff] at h; exact h

/-- All rows' contributions to the coefficients of one order. -/
theorem addRows_eq {T m nlat : ℕ} (hm : m ≤ T) (k : ℕ) (act : ℕ → Prop) [DecidablePred act] (v : ℕ → ℕ → ℂ) (out : ℕ → ℕ → ℂ) (p k' : ℕ) :
    let r := doLoop 1 nlat out fun j out =>
      if act j then (doLoop m T (specOff m T, out) fun _ q =>
        (q.1 + 1, Function.update q.2 (q.1 + 1) (Function.update (q.2 (q.1 + 1)) k (q.2 (q.1 + 1) k + v j (q.1 + 1))))).2 else out
    (k' = k → (∃ n, m ≤ n ∧ n ≤ T ∧ p = nmOf T m n) → r p k' = out p k' + ∑ j ∈ (Finset.Icc 1 nlat).filter act, v j p) ∧
    (¬ (k' = k ∧ ∃ n, m ≤ n ∧ n ≤ T ∧ p = nmOf T m n) → r p k' = out p k') := by
  have key := doLoop_inv (lo := 1) (hi := nlat) (by omega) (s := out)
    (f := fun j out => if act j then (doLoop m T (specOff m T, out) fun _ q =>
        (q.1 + 1, Function.update q.2 (q.1 + 1) (Function.update (q.2 (q.1 + 1)) k (q.2 (q.1 + 1) k + v j (q.1 + 1))))).2 else out)
    (fun q r => (k' = k → (∃ n, m ≤ n ∧ n ≤ T ∧ p = nmOf T m n) → r p k' = out p k' + ∑ j ∈ (Finset.Ico 1 q).filter act, v j p) ∧
      (¬ (k' = k ∧ ∃ n, m ≤ n ∧ n ≤ T ∧ p = nmOf T m n) → r p k' = out p k'))
    ⟨fun _ _ => by simp, fun _ => rfl⟩
    (by
      intro q r h1 h2 ⟨i1, i2⟩
      have hq : Finset.Ico 1 (q + 1) = insert q (Finset.Ico 1 q) := by
        ext x; simp only [Finset.mem_Ico, Finset.mem_insert]; omega
      rw [hq, Finset.filter_insert]
      by_cases ha : act q
      · rw [if_pos ha, if_pos ha]
        obtain ⟨a1, a2⟩ := addRow_eq hm k (v q) r p k'
        refine ⟨fun hk hn => ?_, fun h => ?_⟩
        · rw [a1 hk hn, i1 hk hn, Finset.sum_insert (by simp), add_assoc, add_comm (v q p)]
        · rw [a2 h, i2 h]
      · rw [if_neg ha, if_neg ha]; exact ⟨i1, i2⟩)
  intro r
  have hset : Finset.Ico 1 (nlat + 1) = Finset.Icc 1 nlat := by
    ext x; simp only [Finset.mem_Ico, Finset.mem_Icc]; omega
  rw [hset] at key
  exact key

/-- **The analysis.** For any grid of rows, any order of the parallel iterations, any contents of fresh memory and any
earlier calls (`c`), coefficient `(m, n)` of slice `k` is the weighted sum over the rows that resolve wavenumber `m`. -/
theorem grdtospec_eq {E : Env} (hE : E.ok) {c : Option FftCache} (hc : CacheGood c) (x : ℕ → ℕ → ℝ) {pl : ℕ → ℕ} (w : ℕ → ℝ)
    (basis : ℕ → ℕ → ℝ) {ngptot nlat T nt : ℕ} (h3 : 3 ≤ nlat) (hT : T ≤ nlat - 1) (hnt : 1 ≤ nt)
    (hpl : ∀ j, 1 ≤ j → j ≤ nlat → 1 ≤ pl j) (htot : Spec.rowStart pl (nlat + 1) = ngptot) :
    ∃ out c', grdtospec E c x pl w basis ngptot nlat T nt = .ok (out, c') ∧ CacheGood (some c') ∧
      ∀ k, 1 ≤ k → k ≤ nt → ∀ m n, m ≤ n → n ≤ T → out (Spec.pos T m n) k =
        ∑ j ∈ (Finset.Icc 1 nlat).filter (fun j => 2 * m ≤ pl j),
          ((w j * basis j (Spec.pos T m n) : ℝ) : ℂ) * Spec.circleCoef (pl j) (fun i => x (Spec.rowStart pl j + i) k) m := by
  obtain ⟨offs, hs, ho⟩ := scanRows_ok (nlat := nlat) (pl := pl) (good := fun _ => true) fun j h1 h2 => ⟨hpl j h1 h2, rfl⟩
  obtain ⟨hplan, hcache⟩ := prepare_plan hc nlat pl
  unfold grdtospec
  rw [if_neg (by omega), if_neg (by omega), if_neg (by omega), hs]
  dsimp only
  rw [if_neg (by simpa using htot)]
  refine ⟨_, _, rfl, hcache, ?_⟩
  generalize hcc : prepare c nlat pl = cache at hplan ⊢
  -- the loop over the slices
  have key := doLoop_inv (lo := 1) (hi := nt) (by omega) (s := ((fun _ _ => 0 : ℕ → ℕ → ℂ), E.fresh, E.fresh))
    (f := fun k s =>
        let cs := parLoop E 1 nlat s.2 fun j cs =>
          let r := anaRow E (cache.plan j) (pl j) T (fun i => x (offs j + i) k) (cs.1 j, cs.2 j) (E.junk j 1)
          (Function.update cs.1 j r.1, Function.update cs.2 j r.2)
        let out := parLoop E 0 T s.1 fun m out =>
          doLoop 1 nlat out fun j out =>
            if 2 * m ≤ pl j then
              (doLoop m T (specOff m T, out) fun _ q =>
                let nm := q.1 + 1
                let wb := w j * basis j nm
                (nm, Function.update q.2 nm (Function.update (q.2 nm) k (q.2 nm k + ⟨cs.1 j m * wb, cs.2 j m * wb⟩)))).2
            else out
        (out, cs))
    (fun q s => (∀ p k, q ≤ k → s.1 p k = 0) ∧ ∀ k, 1 ≤ k → k < q → ∀ m n, m ≤ n → n ≤ T → s.1 (nmOf T m n) k =
        ∑ j ∈ (Finset.Icc 1 nlat).filter (fun j => 2 * m ≤ pl j),
          ((w j * basis j (nmOf T m n) : ℝ) : ℂ) * Spec.circleCoef (pl j) (fun i => x (Spec.rowStart pl j + i) k) m)
    ⟨fun _ _ _ => rfl, fun k h1 h2 => by omega⟩
    (by
      intro k s h1 h2 ⟨hz, ih⟩
      dsimp only
      generalize hcs : (parLoop E 1 nlat s.2 fun j cs =>
          (Function.update cs.1 j (anaRow E (cache.plan j) (pl j) T (fun i => x (offs j + i) k) (cs.1 j, cs.2 j) (E.junk j 1)).1,
           Function.update cs.2 j (anaRow E (cache.plan j) (pl j) T (fun i => x (offs j + i) k) (cs.1 j, cs.2 j) (E.junk j 1)).2)) = cs
      have hcs' : ∀ j, 1 ≤ j → j ≤ nlat → ∀ m, m ≤ T → 2 * m ≤ pl j →
          cs.1 j m = (Spec.circleCoef (pl j) (fun i => x (Spec.rowStart pl j + i) k) m).re ∧
          cs.2 j m = (Spec.circleCoef (pl j) (fun i => x (Spec.rowStart pl j + i) k) m).im := by
        intro j hj1 hj2 m hm hm2
        have := (parLoop_own hE (lo := 1) (hi := nlat) (s := s.2) (P := ℕ) (V := (ℕ → ℝ) × (ℕ → ℝ))
          (f := fun j cs => (Function.update cs.1 j (anaRow E (cache.plan j) (pl j) T (fun i => x (offs j + i) k) (cs.1 j, cs.2 j) (E.junk j 1)).1,
           Function.update cs.2 j (anaRow E (cache.plan j) (pl j) T (fun i => x (offs j + i) k) (cs.1 j, cs.2 j) (E.junk j 1)).2))
          (get := fun s j => (s.1 j, s.2 j)) (own := fun j p => p = j)
          (upd := fun j _ v => anaRow E (cache.plan j) (pl j) T (fun i => x (offs j + i) k) v (E.junk j 1))
          (by
            intro j _ _ s p
            refine ⟨?_, ?_⟩
            · rintro rfl; simp only [Function.update_self]
            · intro h; simp only [Function.update_of_ne h])
          (by intro j j' p _ _ _ _ h h'; omega)).1 j j hj1 hj2 rfl
        rw [hcs] at this
        have h' := anaRow_eq (E := E) (T := T) (hplan j hj1 hj2) (hpl j hj1 hj2) (fun i => x (offs j + i) k) (s.2.1 j, s.2.2 j) (E.junk j 1) hm hm2
        rw [← this, ho j hj1 (by omega)] at h'
        exact h'
      -- the coefficients
      have hout := parLoop_own hE (lo := 0) (hi := T) (s := s.1) (P := ℕ × ℕ) (V := ℂ)
        (f := fun m out => doLoop 1 nlat out fun j out =>
            if 2 * m ≤ pl j then
              (doLoop m T (specOff m T, out) fun _ q =>
                (q.1 + 1, Function.update q.2 (q.1 + 1) (Function.update (q.2 (q.1 + 1)) k
                  (q.2 (q.1 + 1) k + ⟨cs.1 j m * (w j * basis j (q.1 + 1)), cs.2 j m * (w j * basis j (q.1 + 1))⟩)))).2
            else out)
        (get := fun s p => s p.1 p.2) (own := fun m p => p.2 = k ∧ ∃ n, m ≤ n ∧ n ≤ T ∧ p.1 = nmOf T m n)
        (upd := fun m p v => v + ∑ j ∈ (Finset.Icc 1 nlat).filter (fun j => 2 * m ≤ pl j),
          (⟨cs.1 j m * (w j * basis j p.1), cs.2 j m * (w j * basis j p.1)⟩ : ℂ))
        (by
          intro m _ hm s p
          obtain ⟨a1, a2⟩ := addRows_eq (nlat := nlat) hm k (fun j => 2 * m ≤ pl j)
            (fun j p => (⟨cs.1 j m * (w j * basis j p), cs.2 j m * (w j * basis j p)⟩ : ℂ)) s p.1 p.2
          exact ⟨fun h => a1 h.1 h.2, a2⟩)
        (by
          rintro m m' ⟨p, k'⟩ _ _ _ _ ⟨_, n, e1, e2, e3⟩ ⟨_, n', e1', e2', e3'⟩
          dsimp only at e3 e3'
          exact (nmOf_inj e1 e2 e1' e2' (e3.symm.trans e3')).1)
      refine ⟨fun p k' hk' => ?_, fun k' hk1 hk2 m n hmn hnT => ?_⟩
      · have := hout.2 (p, k') fun m _ _ h => by have := h.1; dsimp only at this; omega
        dsimp only at this
        rw [this]; exact hz p k' (by omega)
      · by_cases e : k' = k
        · subst e
          have := hout.1 m (nmOf T m n, k') (by omega) (by omega) ⟨rfl, n, hmn, hnT, rfl⟩
          dsimp only at this
          rw [this, hz _ _ le_rfl, zero_add]
          refine Finset.sum_congr rfl fun j hj => ?_
          rw [Finset.mem_filter, Finset.mem_Icc] at hj
          obtain ⟨c1, c2⟩ := hcs' j hj.1.1 hj.1.2 m (by omega) hj.2
          rw [c1, c2]
          apply Complex.ext
          · rw [Complex.re_ofReal_mul]; ring
          · rw [Complex.im_ofReal_mul]; ring
        · have := hout.2 (nmOf T m n, k') fun m' _ _ h => e h.1
          dsimp only at this
          rw [this]; exact ih k' hk1 (by omega) m n hmn hnT)
  intro k hk1 hk2 m n hmn hnT
  rw [← nmOf_pos]
  exact key.2 k hk1 (by omega) m n hmn hnT

end Skyborn.RedGauss
