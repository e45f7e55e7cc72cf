import Verif.Spectral.Lemmas

/-! Closed forms of the packing routines: what each routine leaves in its output arrays. -/

namespace Skyborn.Spectral

open Skyborn

variable {nlat N nt : ℕ}

theorem onedtotwod_closed (hN : waves N ≤ nlat) (x : ℕ × ℕ → ℂ) :
    ∃ a b, onedtotwod nlat N nt x = some (a, b) ∧
      Filled adG (fun t => 2 * (x (adS (waves N) t)).re) (fun _ => 0) (Tri nt (waves N)) a ∧
      Filled adG (fun t => 2 * (x (adS (waves N) t)).im) (fun _ => 0) (Tri nt (waves N)) b := by
  obtain ⟨⟨a, b⟩, e, h1, h2⟩ := triScan_inv (nt := nt) (T1 := waves N)
    (s := ((fun _ => (0 : ℝ)), fun _ => (0 : ℝ)))
    (body := fun i m n nm (s : (ℕ × ℕ × ℕ → ℝ) × (ℕ × ℕ × ℕ → ℝ)) => do
      let v ← rdA (inSpec N nt) x (nm, i)
      let val := v * ((2 : ℝ) : ℂ)
      let a ← wrA (inGrid nlat nt) s.1 (m, n, i) val.re
      let b ← wrA (inGrid nlat nt) s.2 (m, n, i) val.im
      return (a, b))
    (fun S s => Filled adG (fun t => 2 * (x (adS (waves N) t)).re) (fun _ => 0) S s.1 ∧
      Filled adG (fun t => 2 * (x (adS (waves N) t)).im) (fun _ => 0) S s.2)
    ⟨Filled.empty, Filled.empty⟩
    (by
      rintro S ⟨a, b⟩ i m n hS ht hn ⟨ha, hb⟩
      simp only [rdA_ok (inSpec_adS ht (waves_le N)), wrA_ok (inGrid_adG ht hN), Option.bind_eq_bind, Option.bind_some]
      refine ⟨_, rfl, ?_, ?_⟩
      · have := ha.insert hS (adG_inj nt _) ht hn
        simpa [adG, adS, mul_comm] using this
      · have := hb.insert hS (adG_inj nt _) ht hn
        simpa [adG, adS, mul_comm] using this)
  exact ⟨a, b, e, h1, h2⟩

theorem twodtooned_closed {T : ℕ} (hN : T + 1 ≤ nlat) (a b : ℕ × ℕ × ℕ → ℝ) :
    ∃ y, twodtooned nlat T nt a b = some y ∧
      Filled (adS (T + 1)) (fun t => ((0.5 : ℝ) : ℂ) * (⟨a (adG t), b (adG t)⟩ : ℂ)) (fun _ => 0) (Tri nt (T + 1)) y := by
  exact triScan_inv (nt := nt) (T1 := T + 1)
    (fun S s => Filled (adS (T + 1)) (fun t => ((0.5 : ℝ) : ℂ) * (⟨a (adG t), b (adG t)⟩ : ℂ)) (fun _ => 0) S s)
    Filled.empty
    (by
      intro S s i m n hS ht hn h
      simp only [rdA_ok (inGrid_adG ht hN), wrA_ok (inSpec_adS ht (le_refl (specLen T))), Option.bind_eq_bind, Option.bind_some]
      exact ⟨_, rfl, h.insert hS (adS_inj nt _) ht hn⟩)

theorem lap_closed (r : ℝ) (x init : ℕ × ℕ → ℂ) :
    ∃ y, lap N nt r x init = some y ∧
      Filled (adS (waves N)) (fun t => ((-(t.2.2 : ℝ) * ((t.2.2 : ℝ) - 1) * (1 / (r * r)) : ℝ) : ℂ) * x (adS (waves N) t)) init
        (Tri nt (waves N)) y := by
  exact triScan_inv (nt := nt) (T1 := waves N)
    (fun S s => Filled (adS (waves N)) (fun t => ((-(t.2.2 : ℝ) * ((t.2.2 : ℝ) - 1) * (1 / (r * r)) : ℝ) : ℂ) *
      x (adS (waves N) t)) init S s)
    Filled.empty
    (by
      intro S s i m n hS ht hn h
      simp only [rdA_ok (inSpec_adS ht (waves_le N)), wrA_ok (inSpec_adS ht (waves_le N)), Option.bind_eq_bind, Option.bind_some]
      exact ⟨_, rfl, h.insert hS (adS_inj nt _) ht hn⟩)

theorem multsmoothfact_closed (hN : waves N ≤ nlat) (x : ℕ × ℕ → ℂ) (smooth : ℕ → ℝ) (init : ℕ × ℕ → ℂ) :
    ∃ y, multsmoothfact nlat N nt x smooth init = some y ∧
      Filled (adS (waves N)) (fun t => x (adS (waves N) t) * ((smooth t.2.2 : ℝ) : ℂ)) init (Tri nt (waves N)) y := by
  exact triScan_inv (nt := nt) (T1 := waves N)
    (fun S s => Filled (adS (waves N)) (fun t => x (adS (waves N) t) * ((smooth t.2.2 : ℝ) : ℂ)) init S s)
    Filled.empty
    (by
      intro S s i m n hS ht hn h
      have hn' := mem_Tri.mp ht
      simp only [rd_ok (n := nlat) (show 1 ≤ n by omega) (by omega), rdA_ok (inSpec_adS ht (waves_le N)),
        wrA_ok (inSpec_adS ht (waves_le N)), Option.bind_eq_bind, Option.bind_some]
      exact ⟨_, rfl, h.insert hS (adS_inj nt _) ht hn⟩)

/-- the inverse Laplacian: all degrees but the first, and zero at position 1 -/
theorem invlap_closed (hN : 1 ≤ N) (r : ℝ) (x init : ℕ × ℕ → ℂ) :
    ∃ y, invlap N nt r x init = some y ∧
      ∀ i m n, (i, m, n) ∈ Tri nt (waves N) →
        y (pos (waves N) m n, i) = if m = 1 ∧ n = 1 then 0
          else ((-(r * r) / ((n : ℝ) * ((n : ℝ) - 1)) : ℝ) : ℂ) * x (pos (waves N) m n, i) := by
  set T1 := waves N with hT
  have hT1 : 1 ≤ T1 := by
    obtain ⟨k, h1, h2⟩ := exists_waves N
    rw [hT, waves_eq h1 h2]
    by_contra h
    have : k = 0 := by omega
    subst this; simp at h2; omega
  set g : ℕ → ℕ → ℕ → ℂ := fun i m n => if m = 1 ∧ n = 1 then 0
          else ((-(r * r) / ((n : ℝ) * ((n : ℝ) - 1)) : ℝ) : ℂ) * x (pos T1 m n, i) with hg
  obtain ⟨y, e, h⟩ := doLoopM_inv (lo := 1) (hi := nt) (by omega) (s := init)
    (f := fun i s => do
      let r ← doLoopM 1 T1 (s, 0) fun m (st : (ℕ × ℕ → ℂ) × ℕ) => do
        let n1 := if m = 1 then 2 else m
        let s' ← doLoopM n1 T1 st.1 fun n s => do
          let v ← rdA (inSpec N nt) x (st.2 + n - m + 1, i)
          wrA (inSpec N nt) s (st.2 + n - m + 1, i)
            (((-(r * r) / ((n : ℝ) * ((n : ℝ) - 1)) : ℝ) : ℂ) * v)
        return (s', st.2 + T1 - m + 1)
      wrA (inSpec N nt) r.1 (1, i) 0)
    (fun i s => ∀ i' m n, i' < i → (i', m, n) ∈ Tri nt T1 → s (pos T1 m n, i') = g i' m n)
    (by intro i' m n h ht; rw [mem_Tri] at ht; omega)
    (by
      intro i s hi1 hi2 hs
      obtain ⟨q, e, hq⟩ := doLoopM_inv (lo := 1) (hi := T1) (by omega) (s := (s, 0))
        (f := fun m (st : (ℕ × ℕ → ℂ) × ℕ) => do
          let n1 := if m = 1 then 2 else m
          let s' ← doLoopM n1 T1 st.1 fun n s => do
            let v ← rdA (inSpec N nt) x (st.2 + n - m + 1, i)
            wrA (inSpec N nt) s (st.2 + n - m + 1, i)
              (((-(r * r) / ((n : ℝ) * ((n : ℝ) - 1)) : ℝ) : ℂ) * v)
          return (s', st.2 + T1 - m + 1))
        (fun m st => st.2 = start T1 m ∧ (∀ i' m n, i' < i → (i', m, n) ∈ Tri nt T1 → st.1 (pos T1 m n, i') = g i' m n) ∧
          ∀ m' n, m' < m → (i, m', n) ∈ Tri nt T1 → ¬ (m' = 1 ∧ n = 1) → st.1 (pos T1 m' n, i) = g i m' n)
        ⟨(start_one T1).symm, hs, by intro m' n h ht; rw [mem_Tri] at ht; omega⟩
        (by
          rintro m ⟨s, st⟩ hm1 hm2 ⟨hst, ho, hm⟩
          simp only at hst ho hm
          subst hst
          obtain ⟨s', e, h1, h2, h3⟩ := doLoopM_inv (lo := if m = 1 then 2 else m) (hi := T1) (by split_ifs <;> omega) (s := s)
            (f := fun n s => do
              let v ← rdA (inSpec N nt) x (start T1 m + n - m + 1, i)
              wrA (inSpec N nt) s (start T1 m + n - m + 1, i)
                (((-(r * r) / ((n : ℝ) * ((n : ℝ) - 1)) : ℝ) : ℂ) * v))
            (fun n s => (∀ i' m n, i' < i → (i', m, n) ∈ Tri nt T1 → s (pos T1 m n, i') = g i' m n) ∧
              (∀ m' n, m' < m → (i, m', n) ∈ Tri nt T1 → ¬ (m' = 1 ∧ n = 1) → s (pos T1 m' n, i) = g i m' n) ∧
              ∀ n', n' < n → (i, m, n') ∈ Tri nt T1 → ¬ (m = 1 ∧ n' = 1) → s (pos T1 m n', i) = g i m n')
            ⟨ho, hm, by
              intro n' hn' ht hne
              rw [mem_Tri] at ht
              split_ifs at hn' with hm1
              · exact absurd ⟨hm1, by omega⟩ hne
              · omega⟩
            (by
              intro n s hn1 hn2 ⟨h1, h2, h3⟩
              have hmn : m ≤ n ∧ ¬ (m = 1 ∧ n = 1) := by
                split_ifs at hn1 <;> omega
              have ht : (i, m, n) ∈ Tri nt T1 := mem_Tri.mpr ⟨⟨hi1, hi2⟩, hm1, hmn.1, hn2⟩
              have hin : inSpec N nt (start T1 m + n - m + 1, i) := inSpec_adS ht (waves_le N)
              simp only [rdA_ok hin, wrA_ok hin, Option.bind_eq_bind, Option.bind_some]
              refine ⟨_, rfl, ?_, ?_, ?_⟩
              · intro i' m' n' hi' ht'
                rw [Function.update_of_ne (by intro h; simp only [Prod.mk.injEq] at h; omega)]
                exact h1 i' m' n' hi' ht'
              · intro m' n' hm' ht' hne
                rw [Function.update_of_ne]
                · exact h2 m' n' hm' ht' hne
                · intro h
                  have := adS_inj nt T1 ht' ht (by simpa [adS, pos] using h)
                  simp only [Prod.mk.injEq] at this; omega
              · intro n' hn' ht' hne
                by_cases hnn : n' = n
                · subst hnn
                  rw [show (pos T1 m n', i) = (start T1 m + n' - m + 1, i) from rfl, Function.update_self, hg]
                  simp only [if_neg hne]; rfl
                · rw [Function.update_of_ne]
                  · exact h3 n' (by omega) ht' hne
                  · intro h
                    have := adS_inj nt T1 ht' ht (by simpa [adS, pos] using h)
                    simp only [Prod.mk.injEq] at this; omega)
          refine ⟨(s', start T1 m + T1 - m + 1), ?_, (start_succ hm1 hm2).symm, h1, ?_⟩
          · simp only [Option.bind_eq_bind] at e ⊢
            simp only [e, Option.bind_some]; rfl
          · intro m' n hm' ht hne
            by_cases hmm : m' = m
            · subst hmm; exact h3 n (by rw [mem_Tri] at ht; omega) ht hne
            · exact h2 m' n (by omega) ht hne)
      obtain ⟨-, h1, h2⟩ := hq
      have hin : inSpec N nt (1, i) := ⟨le_rfl, hN, hi1, hi2⟩
      refine ⟨Function.update q.1 (1, i) 0, ?_, ?_⟩
      · beta_reduce; rw [e]; simp only [Option.bind_eq_bind, Option.bind_some]; rw [wrA_ok hin]
      · intro i' m n hi' ht
        have hp1 : pos T1 1 1 = 1 := by simp [pos, start]
        have ht1 : (i, 1, 1) ∈ Tri nt T1 := mem_Tri.mpr ⟨⟨hi1, hi2⟩, le_rfl, le_rfl, hT1⟩
        by_cases hi'' : i' = i
        · subst hi''
          by_cases hmn : m = 1 ∧ n = 1
          · obtain ⟨rfl, rfl⟩ := hmn
            rw [hp1, Function.update_self, hg]; simp
          · rw [Function.update_of_ne]
            · exact h2 m n (by rw [mem_Tri] at ht; omega) ht hmn
            · intro h
              have := adS_inj nt T1 ht ht1 (by simp only [adS, hp1]; exact h)
              simp only [Prod.mk.injEq] at this; omega
        · rw [Function.update_of_ne (by intro h; simp only [Prod.mk.injEq] at h; omega)]
          exact h1 i' m n (by omega) ht)
  refine ⟨y, e, fun i m n ht => ?_⟩
  exact h i m n (by rw [mem_Tri] at ht; omega) ht

theorem onedtotwodVrtdiv_closed (hN : waves N ≤ nlat) (r : ℝ) (vrt div : ℕ × ℕ → ℂ) :
    ∃ br bi cr ci, onedtotwodVrtdiv nlat N nt r vrt div = some (br, bi, cr, ci) ∧
      Filled adG (fun t => (vecFactor r t.2.2).map fun f => -f * (div (adS (waves N) t)).re / 0.5) (fun _ => some 0) (Tri nt (waves N)) br ∧
      Filled adG (fun t => (vecFactor r t.2.2).map fun f => -f * (div (adS (waves N) t)).im / 0.5) (fun _ => some 0) (Tri nt (waves N)) bi ∧
      Filled adG (fun t => (vecFactor r t.2.2).map fun f => f * (vrt (adS (waves N) t)).re / 0.5) (fun _ => some 0) (Tri nt (waves N)) cr ∧
      Filled adG (fun t => (vecFactor r t.2.2).map fun f => f * (vrt (adS (waves N) t)).im / 0.5) (fun _ => some 0) (Tri nt (waves N)) ci := by
  obtain ⟨⟨br, bi, cr, ci⟩, e, h⟩ := triScan_inv (nt := nt) (T1 := waves N)
    (s := ((fun _ => some (0 : ℝ)), (fun _ => some (0 : ℝ)), (fun _ => some (0 : ℝ)), fun _ => some (0 : ℝ)))
    (body := fun i m n nm (s : (ℕ × ℕ × ℕ → Option ℝ) × (ℕ × ℕ × ℕ → Option ℝ) × (ℕ × ℕ × ℕ → Option ℝ) × (ℕ × ℕ × ℕ → Option ℝ)) => do
      let d ← rdA (inSpec N nt) div (nm, i)
      let v ← rdA (inSpec N nt) vrt (nm, i)
      let f := vecFactor r n
      let br ← wrA (inGrid nlat nt) s.1 (m, n, i) (f.map fun f => -f * d.re / 0.5)
      let bi ← wrA (inGrid nlat nt) s.2.1 (m, n, i) (f.map fun f => -f * d.im / 0.5)
      let cr ← wrA (inGrid nlat nt) s.2.2.1 (m, n, i) (f.map fun f => f * v.re / 0.5)
      let ci ← wrA (inGrid nlat nt) s.2.2.2 (m, n, i) (f.map fun f => f * v.im / 0.5)
      return (br, bi, cr, ci))
    (fun S s =>
      Filled adG (fun t => (vecFactor r t.2.2).map fun f => -f * (div (adS (waves N) t)).re / 0.5) (fun _ => some 0) S s.1 ∧
      Filled adG (fun t => (vecFactor r t.2.2).map fun f => -f * (div (adS (waves N) t)).im / 0.5) (fun _ => some 0) S s.2.1 ∧
      Filled adG (fun t => (vecFactor r t.2.2).map fun f => f * (vrt (adS (waves N) t)).re / 0.5) (fun _ => some 0) S s.2.2.1 ∧
      Filled adG (fun t => (vecFactor r t.2.2).map fun f => f * (vrt (adS (waves N) t)).im / 0.5) (fun _ => some 0) S s.2.2.2)
    ⟨Filled.empty, Filled.empty, Filled.empty, Filled.empty⟩
    (by
      rintro S ⟨a, b, c, d⟩ i m n hS ht hn ⟨h1, h2, h3, h4⟩
      simp only [rdA_ok (inSpec_adS ht (waves_le N)), wrA_ok (inGrid_adG ht hN), Option.bind_eq_bind, Option.bind_some]
      exact ⟨_, rfl, h1.insert hS (adG_inj nt _) ht hn, h2.insert hS (adG_inj nt _) ht hn,
        h3.insert hS (adG_inj nt _) ht hn, h4.insert hS (adG_inj nt _) ht hn⟩)
  exact ⟨br, bi, cr, ci, e, h⟩

theorem onedtotwodVrt_closed (hN : waves N ≤ nlat) (r : ℝ) (vrt : ℕ × ℕ → ℂ) :
    ∃ cr ci, onedtotwodVrt nlat N nt r vrt = some (cr, ci) ∧
      Filled adG (fun t => (vecFactor r t.2.2).map fun f => f * (vrt (adS (waves N) t)).re / 0.5) (fun _ => some 0) (Tri nt (waves N)) cr ∧
      Filled adG (fun t => (vecFactor r t.2.2).map fun f => f * (vrt (adS (waves N) t)).im / 0.5) (fun _ => some 0) (Tri nt (waves N)) ci := by
  obtain ⟨⟨cr, ci⟩, e, h⟩ := triScan_inv (nt := nt) (T1 := waves N)
    (s := ((fun _ => some (0 : ℝ)), fun _ => some (0 : ℝ)))
    (body := fun i m n nm (s : (ℕ × ℕ × ℕ → Option ℝ) × (ℕ × ℕ × ℕ → Option ℝ)) => do
      let v ← rdA (inSpec N nt) vrt (nm, i)
      let f := vecFactor r n
      let cr ← wrA (inGrid nlat nt) s.1 (m, n, i) (f.map fun f => f * v.re / 0.5)
      let ci ← wrA (inGrid nlat nt) s.2 (m, n, i) (f.map fun f => f * v.im / 0.5)
      return (cr, ci))
    (fun S s =>
      Filled adG (fun t => (vecFactor r t.2.2).map fun f => f * (vrt (adS (waves N) t)).re / 0.5) (fun _ => some 0) S s.1 ∧
      Filled adG (fun t => (vecFactor r t.2.2).map fun f => f * (vrt (adS (waves N) t)).im / 0.5) (fun _ => some 0) S s.2)
    ⟨Filled.empty, Filled.empty⟩
    (by
      rintro S ⟨a, b⟩ i m n hS ht hn ⟨h1, h2⟩
      simp only [rdA_ok (inSpec_adS ht (waves_le N)), wrA_ok (inGrid_adG ht hN), Option.bind_eq_bind, Option.bind_some]
      exact ⟨_, rfl, h1.insert hS (adG_inj nt _) ht hn, h2.insert hS (adG_inj nt _) ht hn⟩)
  exact ⟨cr, ci, e, h⟩

theorem onedtotwodDiv_closed (hN : waves N ≤ nlat) (r : ℝ) (div : ℕ × ℕ → ℂ) :
    ∃ br bi, onedtotwodDiv nlat N nt r div = some (br, bi) ∧
      Filled adG (fun t => (vecFactor r t.2.2).map fun f => -f * (div (adS (waves N) t)).re / 0.5) (fun _ => some 0) (Tri nt (waves N)) br ∧
      Filled adG (fun t => (vecFactor r t.2.2).map fun f => -f * (div (adS (waves N) t)).im / 0.5) (fun _ => some 0) (Tri nt (waves N)) bi := by
  obtain ⟨⟨cr, ci⟩, e, h⟩ := triScan_inv (nt := nt) (T1 := waves N)
    (s := ((fun _ => some (0 : ℝ)), fun _ => some (0 : ℝ)))
    (body := fun i m n nm (s : (ℕ × ℕ × ℕ → Option ℝ) × (ℕ × ℕ × ℕ → Option ℝ)) => do
      let d ← rdA (inSpec N nt) div (nm, i)
      let f := vecFactor r n
      let br ← wrA (inGrid nlat nt) s.1 (m, n, i) (f.map fun f => -f * d.re / 0.5)
      let bi ← wrA (inGrid nlat nt) s.2 (m, n, i) (f.map fun f => -f * d.im / 0.5)
      return (br, bi))
    (fun S s =>
      Filled adG (fun t => (vecFactor r t.2.2).map fun f => -f * (div (adS (waves N) t)).re / 0.5) (fun _ => some 0) S s.1 ∧
      Filled adG (fun t => (vecFactor r t.2.2).map fun f => -f * (div (adS (waves N) t)).im / 0.5) (fun _ => some 0) S s.2)
    ⟨Filled.empty, Filled.empty⟩
    (by
      rintro S ⟨a, b⟩ i m n hS ht hn ⟨h1, h2⟩
      simp only [rdA_ok (inSpec_adS ht (waves_le N)), wrA_ok (inGrid_adG ht hN), Option.bind_eq_bind, Option.bind_some]
      exact ⟨_, rfl, h1.insert hS (adG_inj nt _) ht hn, h2.insert hS (adG_inj nt _) ht hn⟩)
  exact ⟨cr, ci, e, h⟩

theorem twodtoonedVrtdiv_closed {T : ℕ} (hN : T + 1 ≤ nlat) (r : ℝ) (br bi cr ci : ℕ × ℕ × ℕ → Option ℝ) :
    ∃ v d, twodtoonedVrtdiv nlat T nt r br bi cr ci = some (v, d) ∧
      Filled (adS (T + 1)) (fun t => scaleC (packFactor r t.2.2) (cr (adG t)) (ci (adG t))) (fun _ => some 0) (Tri nt (T + 1)) v ∧
      Filled (adS (T + 1)) (fun t => scaleC (-packFactor r t.2.2) (br (adG t)) (bi (adG t))) (fun _ => some 0) (Tri nt (T + 1)) d := by
  obtain ⟨⟨v, d⟩, e, h⟩ := triScan_inv (nt := nt) (T1 := T + 1)
    (s := ((fun _ => some (0 : ℂ)), fun _ => some (0 : ℂ)))
    (body := fun i m n nm (s : (ℕ × ℕ → Option ℂ) × (ℕ × ℕ → Option ℂ)) => do
      let x1 ← rdA (inGrid nlat nt) br (m, n, i)
      let y1 ← rdA (inGrid nlat nt) bi (m, n, i)
      let d ← wrA (inSpec (specLen T) nt) s.2 (nm, i) (scaleC (-packFactor r n) x1 y1)
      let x2 ← rdA (inGrid nlat nt) cr (m, n, i)
      let y2 ← rdA (inGrid nlat nt) ci (m, n, i)
      let v ← wrA (inSpec (specLen T) nt) s.1 (nm, i) (scaleC (packFactor r n) x2 y2)
      return (v, d))
    (fun S s =>
      Filled (adS (T + 1)) (fun t => scaleC (packFactor r t.2.2) (cr (adG t)) (ci (adG t))) (fun _ => some 0) S s.1 ∧
      Filled (adS (T + 1)) (fun t => scaleC (-packFactor r t.2.2) (br (adG t)) (bi (adG t))) (fun _ => some 0) S s.2)
    ⟨Filled.empty, Filled.empty⟩
    (by
      rintro S ⟨a, b⟩ i m n hS ht hn ⟨h1, h2⟩
      simp only [rdA_ok (inGrid_adG ht hN), wrA_ok (inSpec_adS ht (le_refl (specLen T))), Option.bind_eq_bind, Option.bind_some]
      exact ⟨_, rfl, h1.insert hS (adS_inj nt _) ht hn, h2.insert hS (adS_inj nt _) ht hn⟩)
  exact ⟨v, d, e, h⟩

theorem twodtoonedVrt_closed {T : ℕ} (hN : T + 1 ≤ nlat) (r : ℝ) (cr ci : ℕ × ℕ × ℕ → Option ℝ) :
    ∃ v, twodtoonedVrt nlat T nt r cr ci = some v ∧
      Filled (adS (T + 1)) (fun t => scaleC (packFactor r t.2.2) (cr (adG t)) (ci (adG t))) (fun _ => some 0) (Tri nt (T + 1)) v :=
  triScan_inv (nt := nt) (T1 := T + 1)
    (fun S s =>
      Filled (adS (T + 1)) (fun t => scaleC (packFactor r t.2.2) (cr (adG t)) (ci (adG t))) (fun _ => some 0) S s)
    Filled.empty
    (by
      intro S s i m n hS ht hn h
      simp only [rdA_ok (inGrid_adG ht hN), wrA_ok (inSpec_adS ht (le_refl (specLen T))), Option.bind_eq_bind, Option.bind_some]
      exact ⟨_, rfl, h.insert hS (adS_inj nt _) ht hn⟩)

theorem twodtoonedDiv_closed {T : ℕ} (hN : T + 1 ≤ nlat) (r : ℝ) (br bi : ℕ × ℕ × ℕ → Option ℝ) :
    ∃ v, twodtoonedDiv nlat T nt r br bi = some v ∧
      Filled (adS (T + 1)) (fun t => scaleC (-packFactor r t.2.2) (br (adG t)) (bi (adG t))) (fun _ => some 0) (Tri nt (T + 1)) v :=
  triScan_inv (nt := nt) (T1 := T + 1)
    (fun S s =>
      Filled (adS (T + 1)) (fun t => scaleC (-packFactor r t.2.2) (br (adG t)) (bi (adG t))) (fun _ => some 0) S s)
    Filled.empty
    (by
      intro S s i m n hS ht hn h
      simp only [rdA_ok (inGrid_adG ht hN), wrA_ok (inSpec_adS ht (le_refl (specLen T))), Option.bind_eq_bind, Option.bind_some]
      exact ⟨_, rfl, h.insert hS (adS_inj nt _) ht hn⟩)

end Skyborn.Spectral
