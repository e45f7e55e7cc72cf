/-
One column and the whole buffer of the isentropic kernel.
-/
import Verif.Interp.IsentropicLemmas
import Verif.Interp.HybridPaths

namespace Skyborn.Isen

open Skyborn.Hybrid (pos pos_range pos_inj loop_writeAt corder_loop)

/-- A level the kernel keeps. -/
def Keep (nlev : ℕ) (d t p : ℕ → ℝ) (spvl : ℝ) (k : ℕ) : Prop := 1 ≤ k ∧ k ≤ nlev ∧ d k ≠ spvl ∧ t k ≠ spvl ∧ p k ≠ spvl ∧ 0 < p k

theorem collect_spec {nin nlev ninner : ℕ} {df tf pf : ℕ → ℝ} {p0 kappa spvl : ℝ} {start : ℕ} {junk : ℕ → ℝ}
    (hr : ∀ k, 1 ≤ k → k ≤ nlev → 1 ≤ start + (k - 1) * ninner ∧ start + (k - 1) * ninner ≤ nin) {d t p : ℕ → ℝ}
    (hb : ∀ k, 1 ≤ k → k ≤ nlev → df (start + (k - 1) * ninner) = d k ∧ tf (start + (k - 1) * ninner) = t k ∧ pf (start + (k - 1) * ninner) = p k) :
    ∃ (a : Acc) (src : ℕ → ℕ), collect nin nlev ninner df tf pf p0 kappa spvl start junk = some a ∧
      (∀ j, 1 ≤ j → j ≤ a.nvalid → a.theta j = t (src j) * (p0 / p (src j)) ^ kappa ∧ a.values j = d (src j) ∧ Keep nlev d t p spvl (src j)) ∧
      (∀ m, Keep nlev d t p spvl m → ∃ j, 1 ≤ j ∧ j ≤ a.nvalid ∧ src j = m) ∧
      (∀ j l, 1 ≤ j → j < l → l ≤ a.nvalid → src j < src l) := by
  rw [collect]
  obtain ⟨a, e, h1, h2, src, h3, h4, h5⟩ := doLoopM_inv (lo := 1) (hi := nlev) (by omega) (s := (⟨0, junk, junk, start⟩ : Acc))
    (f := fun _ s => do
      let d ← rd nin df s.idx
      let t ← rd nin tf s.idx
      let p ← rd nin pf s.idx
      if validValue d spvl && validValue t spvl && validValue p spvl && decide (0 < p) then do
        let th ← wr nlev s.theta (s.nvalid + 1) (t * (p0 / p) ^ kappa)
        let va ← wr nlev s.values (s.nvalid + 1) d
        some ⟨s.nvalid + 1, th, va, s.idx + ninner⟩
      else some ⟨s.nvalid, s.theta, s.values, s.idx + ninner⟩)
    (fun q s => s.idx = start + (q - 1) * ninner ∧ s.nvalid < q ∧ ∃ src : ℕ → ℕ,
      (∀ j, 1 ≤ j → j ≤ s.nvalid → s.theta j = t (src j) * (p0 / p (src j)) ^ kappa ∧ s.values j = d (src j) ∧
        Keep nlev d t p spvl (src j) ∧ src j < q) ∧
      (∀ m, Keep nlev d t p spvl m → m < q → ∃ j, 1 ≤ j ∧ j ≤ s.nvalid ∧ src j = m) ∧
      (∀ j l, 1 ≤ j → j < l → l ≤ s.nvalid → src j < src l))
    ⟨by simp, by simp, id, by intro j h1 h2; simp only at h2; omega, by intro m h h2; have := h.1; omega, by intro j l h1 h2 h3; simp only at h3; omega⟩
    (by
      rintro q ⟨nv, th, va, idx⟩ q1 q2 ⟨i1, i2, src, i3, i4, i5⟩
      simp only at i1 i2 i3 i4 i5
      subst i1
      obtain ⟨r1, r2⟩ := hr q q1 q2
      obtain ⟨b1, b2, b3⟩ := hb q q1 q2
      simp only [rd_ok r1 r2, Option.bind_eq_bind, Option.bind_some, b1, b2, b3]
      have hidx : start + (q - 1) * ninner + ninner = start + (q + 1 - 1) * ninner := by
        have : q + 1 - 1 = (q - 1) + 1 := by omega
        rw [this, Nat.add_mul]; omega
      by_cases hk : Keep nlev d t p spvl q
      · have hc : (validValue (d q) spvl && validValue (t q) spvl && validValue (p q) spvl && decide (0 < p q)) = true := by
          simp [validValue, hk.2.2.1, hk.2.2.2.1, hk.2.2.2.2.1, hk.2.2.2.2.2]
        rw [if_pos hc]
        simp only [wr_ok (show 1 ≤ nv + 1 by omega) (show nv + 1 ≤ nlev by omega), Option.bind_some]
        refine ⟨_, rfl, hidx, by simp only; omega, Function.update src (nv + 1) q, ?_, ?_, ?_⟩
        · intro j j1 j2
          by_cases hj : j = nv + 1
          · subst hj
            simp only [Function.update_self]
            exact ⟨trivial, trivial, hk, by omega⟩
          · simp only [Function.update_of_ne hj]
            simp only at j2
            obtain ⟨u1, u2, u3, u4⟩ := i3 j j1 (by omega)
            exact ⟨u1, u2, u3, by omega⟩
        · intro m hm hmq
          by_cases hmq' : m = q
          · exact ⟨nv + 1, by omega, le_rfl, by rw [Function.update_self, hmq']⟩
          · obtain ⟨j, u1, u2, u3⟩ := i4 m hm (by omega)
            exact ⟨j, u1, by simp only; omega, by rw [Function.update_of_ne (by omega), u3]⟩
        · intro j l j1 jl l2
          simp only at l2
          by_cases hl : l = nv + 1
          · subst hl
            rw [Function.update_self, Function.update_of_ne (by omega)]
            exact (i3 j j1 (by omega)).2.2.2
          · rw [Function.update_of_ne hl, Function.update_of_ne (by omega)]
            exact i5 j l j1 jl (by omega)
      · have hc : ¬ (validValue (d q) spvl && validValue (t q) spvl && validValue (p q) spvl && decide (0 < p q)) = true := by
          intro h
          apply hk
          simp only [validValue, Bool.and_eq_true, decide_eq_true_eq] at h
          exact ⟨q1, q2, h.1.1.1, h.1.1.2, h.1.2, h.2⟩
        rw [if_neg hc]
        refine ⟨_, rfl, hidx, by simp only; omega, src, ?_, ?_, i5⟩
        · intro j j1 j2
          obtain ⟨u1, u2, u3, u4⟩ := i3 j j1 j2
          exact ⟨u1, u2, u3, by omega⟩
        · intro m hm hmq
          by_cases hmq' : m = q
          · exact absurd (hmq' ▸ hm) hk
          · exact i4 m hm (by omega))
  refine ⟨a, src, e, ?_, ?_, h5⟩
  · intro j j1 j2
    obtain ⟨u1, u2, u3, u4⟩ := h3 j j1 j2
    exact ⟨u1, u2, u3⟩
  · intro m hm
    exact h4 m hm (by have := hm.2.1; omega)

/-- One column: every target gets a value described by `RawSpec`, nothing else is written. -/
theorem flatProfile_spec {nin nout nlev ninner ntheta : ℕ} {df tf pf lev : ℕ → ℝ} {p0 kappa spvl : ℝ} {ex : Bool} {start ostart : ℕ}
    {junk out : ℕ → ℝ} (hin : 1 ≤ ninner)
    (hr : ∀ k, 1 ≤ k → k ≤ nlev → 1 ≤ start + (k - 1) * ninner ∧ start + (k - 1) * ninner ≤ nin)
    (hro : ∀ k, 1 ≤ k → k ≤ ntheta → 1 ≤ ostart + (k - 1) * ninner ∧ ostart + (k - 1) * ninner ≤ nout) {d t p : ℕ → ℝ}
    (hb : ∀ k, 1 ≤ k → k ≤ nlev → df (start + (k - 1) * ninner) = d k ∧ tf (start + (k - 1) * ninner) = t k ∧ pf (start + (k - 1) * ninner) = p k) :
    ∃ out', flatProfile nin nout nlev ninner ntheta df tf pf lev p0 kappa spvl ex start ostart junk out = some out' ∧
      (∀ k, 1 ≤ k → k ≤ ntheta →
        RawSpec (Keep nlev d t p spvl) (fun k => t k * (p0 / p k) ^ kappa) d (lev k) ex spvl (out' (ostart + (k - 1) * ninner))) ∧
      ∀ q, (∀ k, 1 ≤ k → k ≤ ntheta → q ≠ ostart + (k - 1) * ninner) → out' q = out q := by
  obtain ⟨a, src, e, s1, s2, s3⟩ := collect_spec (p0 := p0) (kappa := kappa) (spvl := spvl) (junk := junk) hr hb
  obtain ⟨d1, q1, e1, w1, w2⟩ := loop_writeAt (no := ntheta) (nout := nout) (c := ostart) (step := ninner) (d := out)
    (f := fun _ s => do
      let o ← wr nout s.1 s.2 spvl
      some (o, s.2 + ninner)) (fun _ => spvl) hin hro (by intro k d q _ _; rfl)
  rw [flatProfile, e]
  simp only [Option.bind_eq_bind, Option.bind_some] at e1 ⊢
  rw [e1]
  simp only [Option.bind_some]
  by_cases hv : a.nvalid < 2
  · rw [if_pos hv]
    refine ⟨d1, rfl, ?_, w2⟩
    intro k k1 k2
    rw [w1 k k1 k2]
    have huniq : ∀ a b, Keep nlev d t p spvl a → Keep nlev d t p spvl b → a = b := by
      intro u w hu hw
      obtain ⟨j, j1, j2, rfl⟩ := s2 u hu
      obtain ⟨l, l1, l2, rfl⟩ := s2 w hw
      have : j = l := by omega
      rw [this]
    exact ⟨fun _ => rfl, fun x y hx hy hne => absurd (huniq x y hx hy) hne, fun x y hx hy hne => absurd (huniq x y hx hy) hne,
      fun x y hx hy hne => absurd (huniq x y hx hy) hne, fun x y hx hy h1 h2 => by
        have := huniq x y hx hy
        subst this; exact absurd (h1.trans h2) (lt_irrefl _)⟩
  · rw [if_neg hv]
    obtain ⟨x', y', σ, e2, p1, p2, p3⟩ := sortPairs_spec (n := a.nvalid) (by omega) a.theta a.values
    rw [e2]
    simp only [Option.bind_some]
    have hv2 : ∀ u, ∃ v, interpSorted a.nvalid x' y' u ex spvl = some v ∧
        RawSpec (Keep nlev d t p spvl) (fun k => t k * (p0 / p k) ^ kappa) d u ex spvl v := by
      intro u
      apply interpSorted_spec (ρ := fun k => src (σ k)) (n := a.nvalid)
      · intro k k1 k2
        obtain ⟨u1, u2, u3, u4⟩ := p1 k k1 k2
        obtain ⟨v1, v2, v3⟩ := s1 (σ k) u3 u4
        exact ⟨u1.trans v1, u2.trans v2, v3⟩
      · intro m hm
        obtain ⟨j, j1, j2, rfl⟩ := s2 m hm
        obtain ⟨k, k1, k2, rfl⟩ := p2 j j1 j2
        exact ⟨k, k1, k2, rfl⟩
      · intro k l k1 kl l2
        have hk := p1 k k1 (by omega)
        have hl := p1 l (by omega) l2
        have t1 := (s1 (σ k) hk.2.2.1 hk.2.2.2).1
        have t2 := (s1 (σ l) hl.2.2.1 hl.2.2.2).1
        rcases p3 k l k1 kl l2 with h | h
        · left; beta_reduce; rw [← t1, ← t2]; exact h
        · right; beta_reduce; rw [← t1, ← t2]
          exact ⟨h.1, s3 _ _ hk.2.2.1 h.2 hl.2.2.2⟩
      · omega
    choose V hV1 hV2 using hv2
    obtain ⟨d2, q2, e3, w3, w4⟩ := loop_writeAt (no := ntheta) (nout := nout) (c := ostart) (step := ninner) (d := d1)
      (f := fun k q => (rd ntheta lev k).bind fun t => (interpSorted a.nvalid x' y' t ex spvl).bind fun v =>
        (wr nout q.1 q.2 v).bind fun o => some (o, q.2 + ninner)) (fun k => V (lev k)) hin hro
      (by intro k d q k1 k2; simp only [rd_ok k1 k2, Option.bind_some, hV1])
    rw [e3]
    refine ⟨d2, rfl, ?_, ?_⟩
    · intro k k1 k2
      rw [w3 k k1 k2]
      exact hV2 _
    · intro q hq
      rw [w4 q hq, w2 q hq]

/-- The whole kernel. `d o k i` etc. are the values the flat buffers hold at outer index `o`, level `k`, inner index `i` (`o`, `i` 0-based). -/
theorem kernel_spec {nouter nlev ninner ntheta : ℕ} {df tf pf lev : ℕ → ℝ} {p0 kappa spvl : ℝ} {ex : Bool} {junk out : ℕ → ℝ}
    {d t p : ℕ → ℕ → ℕ → ℝ}
    (hb : ∀ o k i, o < nouter → 1 ≤ k → k ≤ nlev → i < ninner → df ((o * nlev + (k - 1)) * ninner + i + 1) = d o k i ∧
      tf ((o * nlev + (k - 1)) * ninner + i + 1) = t o k i ∧ pf ((o * nlev + (k - 1)) * ninner + i + 1) = p o k i) :
    ∃ out', kernel nouter nlev ninner ntheta df tf pf lev p0 kappa spvl ex junk out = some out' ∧
      ∀ o k i, o < nouter → 1 ≤ k → k ≤ ntheta → i < ninner →
        RawSpec (Keep nlev (fun k => d o k i) (fun k => t o k i) (fun k => p o k i) spvl) (fun k => t o k i * (p0 / p o k i) ^ kappa)
          (fun k => d o k i) (lev k) ex spvl (out' ((o * ntheta + (k - 1)) * ninner + i + 1)) := by
  have start_pos : ∀ n o i k, 1 ≤ i → (o - 1) * n * ninner + 1 + (i - 1) + (k - 1) * ninner = pos n ninner o i k := by
    intro n o i k hi
    unfold pos
    generalize (o - 1) * n * ninner = u
    generalize (k - 1) * ninner = w
    omega
  have step : ∀ (o i : ℕ) (u : ℕ → ℝ), 1 ≤ o → o ≤ nouter → 1 ≤ i → i ≤ ninner → ∃ out',
      flatProfile (nouter * nlev * ninner) (nouter * ntheta * ninner) nlev ninner ntheta df tf pf lev p0 kappa spvl ex
        ((o - 1) * nlev * ninner + 1 + (i - 1)) ((o - 1) * ntheta * ninner + 1 + (i - 1)) junk u = some out' ∧
      (∀ k, 1 ≤ k → k ≤ ntheta →
        RawSpec (Keep nlev (fun k => d (o - 1) k (i - 1)) (fun k => t (o - 1) k (i - 1)) (fun k => p (o - 1) k (i - 1)) spvl)
          (fun k => t (o - 1) k (i - 1) * (p0 / p (o - 1) k (i - 1)) ^ kappa)
          (fun k => d (o - 1) k (i - 1)) (lev k) ex spvl (out' (pos ntheta ninner o i k))) ∧
      ∀ q, (∀ k, 1 ≤ k → k ≤ ntheta → q ≠ pos ntheta ninner o i k) → out' q = u q := by
    intro o i u o1 o2 i1 i2
    obtain ⟨out', e, h1, h2⟩ := flatProfile_spec (nin := nouter * nlev * ninner) (nout := nouter * ntheta * ninner) (nlev := nlev) (ninner := ninner)
      (ntheta := ntheta) (df := df) (tf := tf) (pf := pf) (lev := lev) (p0 := p0) (kappa := kappa) (spvl := spvl) (ex := ex)
      (start := (o - 1) * nlev * ninner + 1 + (i - 1)) (ostart := (o - 1) * ntheta * ninner + 1 + (i - 1)) (junk := junk) (out := u)
      (d := fun k => d (o - 1) k (i - 1)) (t := fun k => t (o - 1) k (i - 1)) (p := fun k => p (o - 1) k (i - 1))
      (by omega)
      (by intro k k1 k2; rw [start_pos nlev o i k i1]; exact pos_range o1 o2 i1 i2 k1 k2)
      (by intro k k1 k2; rw [start_pos ntheta o i k i1]; exact pos_range o1 o2 i1 i2 k1 k2)
      (by
        intro k k1 k2
        rw [start_pos nlev o i k i1, Hybrid.pos_eq i1]
        exact hb (o - 1) k (i - 1) (by omega) k1 k2 (by omega))
    refine ⟨out', e, ?_, ?_⟩
    · intro k k1 k2
      have := h1 k k1 k2
      rwa [start_pos ntheta o i k i1] at this
    · intro q hq
      apply h2
      intro k k1 k2
      rw [start_pos ntheta o i k i1]
      exact hq k k1 k2
  -- the value written depends on the previous contents only through existence; pick it
  rw [kernel]
  obtain ⟨s, e, h⟩ := doLoopM_inv (lo := 1) (hi := nouter) (by omega) (s := out)
    (f := fun o out => doLoopM 1 ninner out fun i out =>
      flatProfile (nouter * nlev * ninner) (nouter * ntheta * ninner) nlev ninner ntheta df tf pf lev p0 kappa spvl ex
        ((o - 1) * nlev * ninner + 1 + (i - 1)) ((o - 1) * ntheta * ninner + 1 + (i - 1)) junk out)
    (fun j s => ∀ o k i, 1 ≤ o → o < j → 1 ≤ k → k ≤ ntheta → 1 ≤ i → i ≤ ninner →
      RawSpec (Keep nlev (fun k => d (o - 1) k (i - 1)) (fun k => t (o - 1) k (i - 1)) (fun k => p (o - 1) k (i - 1)) spvl)
        (fun k => t (o - 1) k (i - 1) * (p0 / p (o - 1) k (i - 1)) ^ kappa)
        (fun k => d (o - 1) k (i - 1)) (lev k) ex spvl (s (pos ntheta ninner o i k)))
    (by intro o k i h1 h2; omega)
    (by
      intro j s j1 j2 hs
      obtain ⟨s', e', g1, g2⟩ := doLoopM_inv (lo := 1) (hi := ninner) (by omega) (s := s)
        (f := fun i out =>
          flatProfile (nouter * nlev * ninner) (nouter * ntheta * ninner) nlev ninner ntheta df tf pf lev p0 kappa spvl ex
            ((j - 1) * nlev * ninner + 1 + (i - 1)) ((j - 1) * ntheta * ninner + 1 + (i - 1)) junk out)
        (fun m s => (∀ o k i, 1 ≤ o → o < j → 1 ≤ k → k ≤ ntheta → 1 ≤ i → i ≤ ninner →
          RawSpec (Keep nlev (fun k => d (o - 1) k (i - 1)) (fun k => t (o - 1) k (i - 1)) (fun k => p (o - 1) k (i - 1)) spvl)
            (fun k => t (o - 1) k (i - 1) * (p0 / p (o - 1) k (i - 1)) ^ kappa)
            (fun k => d (o - 1) k (i - 1)) (lev k) ex spvl (s (pos ntheta ninner o i k))) ∧
          ∀ k i, 1 ≤ k → k ≤ ntheta → 1 ≤ i → i < m →
          RawSpec (Keep nlev (fun k => d (j - 1) k (i - 1)) (fun k => t (j - 1) k (i - 1)) (fun k => p (j - 1) k (i - 1)) spvl)
            (fun k => t (j - 1) k (i - 1) * (p0 / p (j - 1) k (i - 1)) ^ kappa)
            (fun k => d (j - 1) k (i - 1)) (lev k) ex spvl (s (pos ntheta ninner j i k)))
        ⟨hs, by intro k i _ _ h1 h2; omega⟩
        (by
          rintro m u m1 m2 ⟨u1, u2⟩
          obtain ⟨u', eu, v1, v2⟩ := step j m u j1 j2 m1 m2
          refine ⟨u', eu, ?_, ?_⟩
          · intro o k i a1 a2 a3 a4 a5 a6
            rw [v2 _ ?_]
            · exact u1 o k i a1 a2 a3 a4 a5 a6
            · intro k' b1 b2 hc
              have := pos_inj a1 j1 a5 a6 m1 m2 a3 a4 b1 b2 hc
              omega
          · intro k i a3 a4 a5 a6
            by_cases him : i = m
            · subst him; exact v1 k a3 a4
            · rw [v2 _ ?_]
              · exact u2 k i a3 a4 a5 (by omega)
              · intro k' b1 b2 hc
                have := pos_inj j1 j1 a5 (by omega) m1 m2 a3 a4 b1 b2 hc
                omega)
      refine ⟨s', e', ?_⟩
      intro o k i a1 a2 a3 a4 a5 a6
      by_cases ho : o = j
      · subst ho; exact g2 k i a3 a4 a5 (by omega)
      · exact g1 o k i a1 (by omega) a3 a4 a5 a6)
  refine ⟨s, e, ?_⟩
  intro o k i ho k1 k2 hi
  have := h (o + 1) k (i + 1) (by omega) (by omega) k1 k2 (by omega) (by omega)
  rw [Hybrid.pos_eq (by omega)] at this
  simpa using this

end Skyborn.Isen
