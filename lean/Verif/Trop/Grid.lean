import Verif.Trop.Profile

namespace Skyborn.Trop

open Spec

/-! #### The result does not depend on the scratch arrays -/

theorem avgLoop_indep {n : ℕ} {p t : ℕ → ℝ} {w w' : Work} (hw : Filled n p t w) (hw' : Filled n p t w') (q : ℝ) :
    ∀ (l : ℕ), l + 1 ≤ n → ∀ (sum avg : ℝ) (kount : ℕ),
      ∃ a, avgLoop (n + 1) w q l sum avg kount = some a ∧ avgLoop (n + 1) w' q l sum avg kount = some a := by
  intro l
  induction l with
  | zero => intro _ sum avg k; exact ⟨avg, rfl, rfl⟩
  | succ l ih =>
    intro hl sum avg kount
    obtain ⟨hg, hp⟩ := hw l (by omega)
    obtain ⟨hg', hp'⟩ := hw' l (by omega)
    unfold avgLoop
    rw [rd_ok (a := w.phalf) (by omega) (by omega), rd_ok (a := w'.phalf) (by omega) (by omega)]
    simp only [Option.bind_eq_bind, Option.bind_some]
    rw [hp, hp']
    by_cases hc : mid p l < q
    · exact ⟨avg, by rw [if_pos hc], by rw [if_pos hc]⟩
    · rw [if_neg hc, if_neg hc, rd_ok (a := w.lapse) (by omega) (by omega), rd_ok (a := w'.lapse) (by omega) (by omega), Option.bind_some, Option.bind_some, hg, hg']
      exact ih (by omega) _ _ _

theorem findLoop_indep {n : ℕ} {P P' T T' : ℕ → ℝ} {p t : ℕ → ℝ} {w w' : Work} (hw : Filled n p t w) (hw' : Filled n p t w')
    (hP : ∀ k, k < n → P (k + 1) = P' (k + 1)) (hT : ∀ k, k < n → T (k + 1) = T' (k + 1)) (tmsg c : ℝ) :
    ∀ (i : ℕ), i + 2 ≤ n ∨ i = 0 → ∀ s : Find,
      ∃ s', findLoop n (n + 1) P T w tmsg c i s = some s' ∧ findLoop n (n + 1) P' T' w' tmsg c i s = some s' ∧
        (s.itrop + 1 ≤ n ∧ -999 ≤ s.itrop → s'.itrop + 1 ≤ n ∧ -999 ≤ s'.itrop) := by
  intro i
  induction i with
  | zero => intro _ s; exact ⟨s, rfl, rfl, fun h => h⟩
  | succ i ih =>
    intro hi s
    have hi : i + 3 ≤ n := by omega
    unfold findLoop
    rw [rd_ok (a := w.lapse) (by omega) (by omega), rd_ok (a := w'.lapse) (by omega) (by omega), rd_ok (a := P) (by omega) (by omega), rd_ok (a := P') (by omega) (by omega)]
    simp only [Option.bind_eq_bind, Option.bind_some, (hw i (by omega)).1, (hw' i (by omega)).1, hP i (by omega)]
    by_cases h1 : gamma p t i < c ∧ P' (i + 1) < 450
    · rw [if_pos h1, if_pos h1]
      by_cases hf : s.found = true
      · rw [if_pos hf, if_pos hf]
        exact ih (by omega) s
      · rw [if_neg hf, if_neg hf, crossing_spec hw c hi, crossing_spec hw' c hi, rd_ok (a := T) (by omega) (by omega),
          rd_ok (a := T') (by omega) (by omega)]
        simp only [Option.bind_some, hT i (by omega)]
        obtain ⟨a, e, e'⟩ := avgLoop_indep hw hw' (Real.exp (Real.log (cross p t c i) - 2 * const / T' (i + 1))) (i + 1) (by omega) 0 (10 ^ 9) 0
        rw [e, e']
        simp only [Option.bind_some]
        by_cases ha : a < c
        · rw [if_pos ha]
          simp only [Option.bind_some]
          obtain ⟨s', e1, e2, h⟩ := ih (by omega) ⟨max (cross p t c i) 85, ((i + 1 : ℕ) : ℤ), true⟩
          exact ⟨s', e1, e2, fun _ => h (by dsimp only; omega)⟩
        · rw [if_neg ha]
          simp only [Option.bind_some]
          obtain ⟨s', e1, e2, h⟩ := ih (by omega) ⟨tmsg, s.itrop, false⟩
          exact ⟨s', e1, e2, h⟩
    · rw [if_neg h1, if_neg h1]
      exact ih (by omega) s

theorem stattropx_indep {n : ℕ} {P T T' : ℕ → ℝ} (hT : ∀ k, k < n → T (k + 1) = T' (k + 1)) (tmsg c : ℝ) (punit : ℕ) (w w' : Work) :
    ∃ pt it v v', stattropx n (n + 1) P T tmsg c punit w = some (pt, it, v) ∧
      stattropx n (n + 1) P T' tmsg c punit w' = some (pt, it, v') ∧ it + 2 ≤ max (n : ℤ) 1 ∧ 
      (∀ k, k + 1 < n → v.lapse (k + 1) = v'.lapse (k + 1)) := by
  obtain ⟨b, e, hb⟩ := pmb_spec n P punit w.pmb
  obtain ⟨b', e', hb'⟩ := pmb_spec n P punit w'.pmb
  obtain ⟨v, f, hv⟩ := lapseLoop_spec n b T { w with pmb := b }
  obtain ⟨v', f', hv'⟩ := lapseLoop_spec n b' T' { w' with pmb := b' }
  have hbb : ∀ k, k < n → b (k + 1) = b' (k + 1) := fun k hk => by rw [hb k hk, hb' k hk]
  have hv'' : Filled n (fun k => b (k + 1)) (fun k => T (k + 1)) v' := fun k hk => by
    rw [(hv' k hk).1, (hv' k hk).2]
    exact ⟨gamma_congr (fun k hk => (hbb k hk).symm) (fun k hk => (hT k hk).symm) hk, mid_congr (fun k hk => (hbb k hk).symm) hk⟩
  obtain ⟨s, g, g', hs⟩ := findLoop_indep hv hv'' hbb hT tmsg c (n - 2) (by omega) ⟨tmsg, -999, false⟩
  refine ⟨if punit ≠ 0 then s.ptrop * 100 else s.ptrop, s.itrop - 1, v, v', ?_, ?_, ?_, fun k hk => ?_⟩
  · rw [stattropx, e, Option.bind_eq_bind, Option.bind_some, dstattrop, f]
    simp only [Option.bind_eq_bind, Option.bind_some, g]
  · rw [stattropx, e', Option.bind_eq_bind, Option.bind_some, dstattrop, f']
    simp only [Option.bind_eq_bind, Option.bind_some, g']
  · have := hs ⟨by dsimp only; omega, by dsimp only; omega⟩
    omega
  · rw [(hv k hk).1, (hv'' k hk).1]

theorem dstdatmp_total (p : ℝ) : ∃ h, dstdatmp p = some h := by
  unfold dstdatmp
  split
  · have key : ∀ left i, 1 ≤ i → i + left ≤ 9 → ∃ j, findLayer p left i = some j ∧ 1 ≤ j ∧ j ≤ 9 := by
      intro left
      induction left with
      | zero => intro i h1 h2; exact ⟨i, rfl, h1, by omega⟩
      | succ left ih =>
        intro i h1 h2
        unfold findLayer
        rw [rd_ok (by omega) (by omega), Option.bind_eq_bind, Option.bind_some]
        split
        · exact ⟨i, rfl, h1, by omega⟩
        · exact ih (i + 1) (by omega) (by omega)
    obtain ⟨j, e, h1, h2⟩ := key 8 1 le_rfl le_rfl
    unfold stdp2z
    rw [e]
    simp only [Option.bind_eq_bind, Option.bind_some]
    rw [rd_ok h1 (by omega), rd_ok h1 (by omega), rd_ok h1 (by omega), rd_ok h1 (by omega)]
    simp only [Option.bind_some]
    split <;> exact ⟨_, rfl⟩
  · exact ⟨_, rfl⟩

theorem finish_indep {n : ℕ} {v v' : Work} (hv : ∀ k, k + 1 < n → v.lapse (k + 1) = v'.lapse (k + 1)) (tmsg : ℝ) (punit : ℕ) (pt : ℝ) (it : ℤ)
    (c : Cell) : ∃ r, finish n (n + 1) tmsg punit pt it v c = some r ∧ finish n (n + 1) tmsg punit pt it v' c = some r := by
  unfold finish
  split
  · dsimp only
    obtain ⟨h, e⟩ := dstdatmp_total (if punit = 0 then pt else pt * 0.01)
    rw [e]
    simp only [Option.bind_eq_bind, Option.bind_some]
    split
    · next hi =>
      rw [rd_ok (a := v.lapse) (by omega) (by omega), rd_ok (a := v'.lapse) (by omega) (by omega)]
      have := hv it.toNat (by omega)
      rw [show (it + 1).toNat = it.toNat + 1 by omega, this]
      exact ⟨_, rfl, rfl⟩
    · exact ⟨_, rfl, rfl⟩
  · exact ⟨c, rfl, rfl⟩

/-- A grid column and the single-profile routine give the same outputs, whatever is in the scratch arrays. -/
theorem gridCell_profile (n : ℕ) (P T : ℕ → ℝ) (tmsg c : ℝ) (punit : ℕ) (s : Scratch) (w : Work) :
    ∃ cell s', gridCell n (n + 1) P T tmsg c punit (missingCell tmsg) s = some (cell, s') ∧
      profile1d n (n + 1) P T tmsg c punit w = some cell := by
  obtain ⟨pr, b, e1, h1, h1'⟩ := copyColumn_spec n T tmsg s.prof
  obtain ⟨b2, e2, h2⟩ := validPressure_spec n P tmsg
  obtain ⟨b3, e3, h3⟩ := validBoth_spec n P T tmsg
  unfold gridCell profile1d
  rw [e1, e3]
  simp only [Option.bind_eq_bind, Option.bind_some]
  cases b with
  | false =>
    have : b3 = false := by
      cases b3 with
      | false => rfl
      | true => exact absurd (h1.mpr fun k hk => (h3.mp rfl k hk).2) (by simp)
    subst this
    exact ⟨_, _, rfl, rfl⟩
  | true =>
    rw [if_pos rfl, e2]
    simp only [Option.bind_some]
    cases b2 with
    | false =>
      have : b3 = false := by
        cases b3 with
        | false => rfl
        | true => exact absurd (h2.mpr fun k hk => (h3.mp rfl k hk).1) (by simp)
      subst this
      exact ⟨_, _, rfl, rfl⟩
    | true =>
      have : b3 = true := h3.mpr fun k hk => ⟨h2.mp rfl k hk, h1.mp rfl k hk⟩
      subst this
      rw [if_pos rfl, if_pos rfl]
      obtain ⟨pt, it, v, v', e, e', -, hv⟩ := stattropx_indep (P := P) (h1' rfl) tmsg c punit s.work w
      obtain ⟨r, f, f'⟩ := finish_indep hv tmsg punit pt it (missingCell tmsg)
      rw [e, e']
      simp only [Option.bind_some, f, f']
      exact ⟨_, _, rfl, rfl⟩

/-- The outputs of `tropopause_profile_1d` as a function (it never fails and does not depend on the scratch). -/
noncomputable def colCell (n : ℕ) (P T : ℕ → ℝ) (tmsg c : ℝ) (punit : ℕ) : Cell :=
  ((profile1d n (n + 1) P T tmsg c punit ⟨fun _ => 0, fun _ => 0, fun _ => 0⟩).getD (missingCell tmsg))

theorem gridCell_col (n : ℕ) (P T : ℕ → ℝ) (tmsg c : ℝ) (punit : ℕ) (s : Scratch) :
    ∃ s', gridCell n (n + 1) P T tmsg c punit (missingCell tmsg) s = some (colCell n P T tmsg c punit, s') := by
  obtain ⟨cell, s', e, e'⟩ := gridCell_profile n P T tmsg c punit s ⟨fun _ => 0, fun _ => 0, fun _ => 0⟩
  exact ⟨s', by rw [e, colCell, e']; rfl⟩

theorem profile1d_col (n : ℕ) (P T : ℕ → ℝ) (tmsg c : ℝ) (punit : ℕ) (w : Work) :
    profile1d n (n + 1) P T tmsg c punit w = some (colCell n P T tmsg c punit) := by
  obtain ⟨cell, s', e, e'⟩ := gridCell_profile n P T tmsg c punit ⟨fun _ => 0, w⟩ w
  obtain ⟨s'', f⟩ := gridCell_col n P T tmsg c punit ⟨fun _ => 0, w⟩
  rw [e', ← (Prod.mk.inj (Option.some.inj (e.symm.trans f))).1]

/-! #### The grid kernels -/

theorem grid2d_spec (nsp n : ℕ) (P : ℕ → ℝ) (T : ℕ → ℕ → ℝ) (tmsg c : ℝ) (punit : ℕ) (s : Scratch) :
    ∃ r, grid2d nsp n (n + 1) P T tmsg c punit s = some r ∧ ∀ i, 1 ≤ i → i ≤ nsp → r.1 i = colCell n P (T i) tmsg c punit := by
  have key := doLoopM_inv (lo := 1) (hi := nsp) (by omega) (s := (fun _ => missingCell tmsg, s))
    (f := fun i st => do
      let cc ← rd nsp st.1 i
      let r ← gridCell n (n + 1) P (T i) tmsg c punit cc st.2
      let out ← wr nsp st.1 i r.1
      some (out, r.2))
    (P := fun i st => (∀ j, 1 ≤ j → j < i → st.1 j = colCell n P (T j) tmsg c punit) ∧ ∀ j, i ≤ j → st.1 j = missingCell tmsg)
    ⟨by intro j; omega, fun _ _ => rfl⟩
    (by
      rintro i ⟨o, s⟩ h1 h2 ⟨ih1, ih2⟩
      beta_reduce
      rw [rd_ok h1 h2]
      simp only [Option.bind_eq_bind, Option.bind_some]
      dsimp only at ih1 ih2
      rw [ih2 i le_rfl]
      obtain ⟨s', e⟩ := gridCell_col n P (T i) tmsg c punit s
      rw [e]
      simp only [Option.bind_some]
      rw [wr_ok h1 h2]
      refine ⟨_, rfl, fun j hj1 hj2 => ?_, fun j hj => ?_⟩
      · by_cases hji : j = i
        · subst hji; simp
        · simp only [Function.update_of_ne (show j ≠ i from hji)]; exact ih1 j hj1 (by omega)
      · simp only [Function.update_of_ne (show j ≠ i by omega)]; exact ih2 j (by omega))
  obtain ⟨r, e, h, -⟩ := key
  exact ⟨r, e, fun i h1 h2 => h i h1 (by omega)⟩

theorem rdm_ok {α : Type} {n m : ℕ} {a : ℕ → ℕ → α} {i j : ℕ} (h1 : 1 ≤ i) (h2 : i ≤ n) (h3 : 1 ≤ j) (h4 : j ≤ m) :
    rdm n m a i j = some (a i j) := by simp [rdm, h1, h2, h3, h4]

theorem wrm_ok {α : Type} {n m : ℕ} {a : ℕ → ℕ → α} {i j : ℕ} {v : α} (h1 : 1 ≤ i) (h2 : i ≤ n) (h3 : 1 ≤ j) (h4 : j ≤ m) :
    wrm n m a i j v = some (Function.update a i (Function.update (a i) j v)) := by simp [wrm, h1, h2, h3, h4]

theorem update2 {α : Type} (a : ℕ → ℕ → α) (i j : ℕ) (v : α) (x y : ℕ) :
    Function.update a i (Function.update (a i) j v) x y = if x = i ∧ y = j then v else a x y := by
  by_cases hx : x = i
  · subst hx
    by_cases hy : y = j
    · subst hy; simp
    · simp [hy]
  · simp [hx]

theorem grid3d_spec (nlat nlon n : ℕ) (P : ℕ → ℝ) (T : ℕ → ℕ → ℕ → ℝ) (tmsg c : ℝ) (punit : ℕ) (s : Scratch) :
    ∃ r, grid3d nlat nlon n (n + 1) P T tmsg c punit s = some r ∧
      ∀ i j, 1 ≤ i → i ≤ nlat → 1 ≤ j → j ≤ nlon → r.1 i j = colCell n P (T i j) tmsg c punit := by
  have key := doLoopM_inv (lo := 1) (hi := nlon) (by omega) (s := ((fun _ _ => missingCell tmsg : ℕ → ℕ → Cell), s))
    (f := fun j st => doLoopM 1 nlat st fun i st => do
      let cc ← rdm nlat nlon st.1 i j
      let r ← gridCell n (n + 1) P (T i j) tmsg c punit cc st.2
      let out ← wrm nlat nlon st.1 i j r.1
      some (out, r.2))
    (P := fun j st => (∀ i k, 1 ≤ i → i ≤ nlat → 1 ≤ k → k < j → st.1 i k = colCell n P (T i k) tmsg c punit) ∧
      ∀ i k, j ≤ k → st.1 i k = missingCell tmsg)
    ⟨by intro i k; omega, fun _ _ _ => rfl⟩
    (by
      rintro j st h1 h2 ⟨ih1, ih2⟩
      beta_reduce
      have key2 := doLoopM_inv (lo := 1) (hi := nlat) (by omega) (s := st)
        (f := fun i st => do
          let cc ← rdm nlat nlon st.1 i j
          let r ← gridCell n (n + 1) P (T i j) tmsg c punit cc st.2
          let out ← wrm nlat nlon st.1 i j r.1
          some (out, r.2))
        (P := fun i st' => (∀ i' k, k ≠ j → st'.1 i' k = st.1 i' k) ∧
          (∀ i', 1 ≤ i' → i' < i → st'.1 i' j = colCell n P (T i' j) tmsg c punit) ∧ ∀ i', i ≤ i' → st'.1 i' j = missingCell tmsg)
        ⟨fun _ _ _ => rfl, by intro i'; omega, fun i' _ => ih2 i' j le_rfl⟩
        (by
          rintro i ⟨o, s⟩ g1 g2 ⟨q1, q2, q3⟩
          beta_reduce
          rw [rdm_ok g1 g2 h1 h2]
          simp only [Option.bind_eq_bind, Option.bind_some]
          dsimp only at q1 q2 q3
          rw [q3 i le_rfl]
          obtain ⟨s', e⟩ := gridCell_col n P (T i j) tmsg c punit s
          rw [e]
          simp only [Option.bind_some]
          rw [wrm_ok g1 g2 h1 h2]
          refine ⟨_, rfl, fun i' k hk => ?_, fun i' g3 g4 => ?_, fun i' g3 => ?_⟩
          · simp only [update2]; rw [if_neg (by tauto)]; exact q1 i' k hk
          · simp only [update2]
            by_cases hii : i' = i
            · subst hii; simp
            · rw [if_neg (by tauto)]; exact q2 i' g3 (by omega)
          · simp only [update2]; rw [if_neg (by omega)]; exact q3 i' (by omega))
      obtain ⟨r, e, q1, q2, -⟩ := key2
      refine ⟨r, e, fun i k g1 g2 g3 g4 => ?_, fun i k g => ?_⟩
      · by_cases hkj : k = j
        · subst hkj; exact q2 i g1 (by omega)
        · rw [q1 i k hkj]; exact ih1 i k g1 g2 g3 (by omega)
      · rw [q1 i k (by omega)]; exact ih2 i k (by omega))
  obtain ⟨r, e, h, -⟩ := key
  exact ⟨r, e, fun i j h1 h2 h3 h4 => h i j h1 h2 h3 (by omega)⟩

theorem grid4d_spec (nlat nlon n ntime : ℕ) (P : ℕ → ℝ) (T : ℕ → ℕ → ℕ → ℕ → ℝ) (tmsg c : ℝ) (punit : ℕ) (s : Scratch)
    (out : ℕ → ℕ → ℕ → Cell) : ∃ r, grid4d nlat nlon n ntime (n + 1) P T tmsg c punit s out = some r ∧
      ∀ i j k, 1 ≤ i → i ≤ nlat → 1 ≤ j → j ≤ nlon → 1 ≤ k → k ≤ ntime →
        r i j k = colCell n P (fun l => T i j l k) tmsg c punit := by
  have key := doLoopM_inv (lo := 1) (hi := ntime) (by omega) (s := out)
    (f := fun tt out => do
      let r ← grid3d nlat nlon n (n + 1) P (fun i j k => T i j k tt) tmsg c punit s
      if 1 ≤ tt ∧ tt ≤ ntime then some (fun i j k => if k = tt then r.1 i j else out i j k) else none)
    (P := fun tt out => ∀ i j k, 1 ≤ i → i ≤ nlat → 1 ≤ j → j ≤ nlon → 1 ≤ k → k < tt →
        out i j k = colCell n P (fun l => T i j l k) tmsg c punit)
    (by intro i j k; omega)
    (by
      intro tt o h1 h2 ih
      beta_reduce
      obtain ⟨r, e, h⟩ := grid3d_spec nlat nlon n P (fun i j k => T i j k tt) tmsg c punit s
      rw [e]
      simp only [Option.bind_eq_bind, Option.bind_some]
      rw [if_pos ⟨h1, h2⟩]
      refine ⟨_, rfl, fun i j k a1 a2 a3 a4 a5 a6 => ?_⟩
      by_cases hk : k = tt
      · subst hk; simp only [if_true]; exact h i j a1 a2 a3 a4
      · simp only [if_neg hk]; exact ih i j k a1 a2 a3 a4 a5 (by omega))
  obtain ⟨r, e, h⟩ := key
  exact ⟨r, e, fun i j k a1 a2 a3 a4 a5 a6 => h i j k a1 a2 a3 a4 a5 (by omega)⟩

end Skyborn.Trop
