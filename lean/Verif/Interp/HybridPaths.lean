/-
The two execution paths of the hybrid-coordinate routines (flat C-order buffers, column by column) reduced to per-column values.
-/
import Verif.Interp.HybridLemmas

namespace Skyborn.Hybrid

open Spec

/-! ### Buffer positions -/

/-- Position of entry `(o, k, i)` (all 1-based) in a flat buffer with `n` levels. -/
def pos (n ninner o i k : ℕ) : ℕ := (o - 1) * n * ninner + i + (k - 1) * ninner

theorem pos_eq {n ninner o i k : ℕ} (hi : 1 ≤ i) : pos n ninner o i k = ((o - 1) * n + (k - 1)) * ninner + (i - 1) + 1 := by
  unfold pos
  generalize o - 1 = o'
  generalize k - 1 = k'
  rw [Nat.add_mul]
  generalize o' * n * ninner = x
  generalize k' * ninner = y
  omega

theorem divmod_inj {n a b x y : ℕ} (hx : x < n) (hy : y < n) (h : a * n + x = b * n + y) : a = b ∧ x = y := by
  have h1 : (a * n + x) % n = x := by rw [Nat.mul_comm, Nat.mul_add_mod, Nat.mod_eq_of_lt hx]
  have h2 : (b * n + y) % n = y := by rw [Nat.mul_comm, Nat.mul_add_mod, Nat.mod_eq_of_lt hy]
  have h3 : (a * n + x) / n = a := by rw [Nat.mul_comm, Nat.mul_add_div (by omega), Nat.div_eq_of_lt hx, Nat.add_zero]
  have h4 : (b * n + y) / n = b := by rw [Nat.mul_comm, Nat.mul_add_div (by omega), Nat.div_eq_of_lt hy, Nat.add_zero]
  constructor
  · rw [← h3, ← h4, h]
  · rw [← h1, ← h2, h]

theorem pos_inj {n ninner o i k o' i' k' : ℕ} (ho : 1 ≤ o) (ho' : 1 ≤ o') (hi : 1 ≤ i) (hin : i ≤ ninner) (hi' : 1 ≤ i') (hin' : i' ≤ ninner)
    (hk : 1 ≤ k) (hkn : k ≤ n) (hk' : 1 ≤ k') (hkn' : k' ≤ n) (h : pos n ninner o i k = pos n ninner o' i' k') : o = o' ∧ i = i' ∧ k = k' := by
  rw [pos_eq hi, pos_eq hi'] at h
  obtain ⟨h1, h2⟩ := divmod_inj (n := ninner) (x := i - 1) (y := i' - 1) (by omega) (by omega) (Nat.succ.inj h)
  obtain ⟨h3, h4⟩ := divmod_inj (n := n) (x := k - 1) (y := k' - 1) (by omega) (by omega) h1
  omega

theorem pos_range {nouter n ninner o i k : ℕ} (ho : 1 ≤ o) (hon : o ≤ nouter) (hi : 1 ≤ i) (hin : i ≤ ninner) (hk : 1 ≤ k) (hkn : k ≤ n) :
    1 ≤ pos n ninner o i k ∧ pos n ninner o i k ≤ nouter * n * ninner := by
  rw [pos_eq hi]
  refine ⟨by omega, ?_⟩
  have h1 : (o - 1) * n + (k - 1) + 1 ≤ nouter * n := by
    have : (o - 1) * n + n ≤ nouter * n := by
      have := Nat.mul_le_mul_right n (show o - 1 + 1 ≤ nouter by omega)
      rwa [Nat.add_mul, Nat.one_mul] at this
    omega
  have h2 : ((o - 1) * n + (k - 1)) * ninner + ninner ≤ nouter * n * ninner := by
    have := Nat.mul_le_mul_right ninner h1
    rwa [Nat.add_mul, Nat.one_mul] at this
  omega

theorem cbuf_pos {α : Type} {n ninner o i k : ℕ} (f : ℕ → ℕ → ℕ → α) (hi : 1 ≤ i) (hin : i ≤ ninner) (hk : 1 ≤ k) (hkn : k ≤ n) :
    cbuf n ninner f (pos n ninner o i k) = f (o - 1) k (i - 1) := by
  rw [pos_eq hi, cbuf]
  have e : ((o - 1) * n + (k - 1)) * ninner + (i - 1) + 1 - 1 = ninner * ((o - 1) * n + (k - 1)) + (i - 1) := by
    rw [Nat.mul_comm ninner]; omega
  rw [e]
  have hd : (ninner * ((o - 1) * n + (k - 1)) + (i - 1)) / ninner = (o - 1) * n + (k - 1) := by
    rw [Nat.mul_add_div (by omega), Nat.div_eq_of_lt (by omega), Nat.add_zero]
  have hm : (ninner * ((o - 1) * n + (k - 1)) + (i - 1)) % ninner = i - 1 := by
    rw [Nat.mul_add_mod, Nat.mod_eq_of_lt (by omega)]
  rw [Nat.mul_comm n ninner, ← Nat.div_div_eq_div_mul, hd, hm, Nat.mul_comm (o - 1) n, Nat.mul_add_mod, Nat.mod_eq_of_lt (by omega),
    Nat.mul_add_div (by omega), Nat.div_eq_of_lt (by omega), Nat.add_zero, Nat.sub_add_cancel hk]

theorem cbuf2_pos {α : Type} {ninner o i : ℕ} (f : ℕ → ℕ → α) (hi : 1 ≤ i) (hin : i ≤ ninner) :
    cbuf2 ninner f ((o - 1) * ninner + i) = f (o - 1) (i - 1) := by
  rw [cbuf2]
  have e : (o - 1) * ninner + i - 1 = ninner * (o - 1) + (i - 1) := by rw [Nat.mul_comm]; omega
  rw [e, Nat.mul_add_div (by omega), Nat.div_eq_of_lt (by omega), Nat.add_zero, Nat.mul_add_mod, Nat.mod_eq_of_lt (by omega)]

theorem col_range {nouter ninner o i : ℕ} (ho : 1 ≤ o) (hon : o ≤ nouter) (hi : 1 ≤ i) (hin : i ≤ ninner) :
    1 ≤ (o - 1) * ninner + i ∧ (o - 1) * ninner + i ≤ nouter * ninner := by
  have : (o - 1) * ninner + ninner ≤ nouter * ninner := by
    have := Nat.mul_le_mul_right ninner (show o - 1 + 1 ≤ nouter by omega)
    rwa [Nat.add_mul, Nat.one_mul] at this
  omega

/-- The double loop over `(outer, inner)` of the C-order kernels. -/
theorem corder_loop {nouter ninner no : ℕ} {d : ℕ → ℝ} {F : ℕ → ℕ → (ℕ → ℝ) → Option (ℕ → ℝ)} (V : ℕ → ℕ → ℕ → ℝ)
    (hF : ∀ o i d, 1 ≤ o → o ≤ nouter → 1 ≤ i → i ≤ ninner → ∃ d', F o i d = some d' ∧
      (∀ k, 1 ≤ k → k ≤ no → d' (pos no ninner o i k) = V o i k) ∧
      ∀ q, (∀ k, 1 ≤ k → k ≤ no → q ≠ pos no ninner o i k) → d' q = d q) :
    ∃ d', doLoopM 1 nouter d (fun o d => doLoopM 1 ninner d (F o)) = some d' ∧
      ∀ o i k, 1 ≤ o → o ≤ nouter → 1 ≤ i → i ≤ ninner → 1 ≤ k → k ≤ no → d' (pos no ninner o i k) = V o i k := by
  obtain ⟨d', e, h⟩ := doLoopM_inv (lo := 1) (hi := nouter) (by omega) (s := d) (f := fun o d => doLoopM 1 ninner d (F o))
    (fun j s => ∀ o i k, 1 ≤ o → o < j → 1 ≤ i → i ≤ ninner → 1 ≤ k → k ≤ no → s (pos no ninner o i k) = V o i k)
    (by intro o i k h1 h2; omega)
    (by
      intro j s hj1 hj2 hs
      obtain ⟨s', e', h1, h2⟩ := doLoopM_inv (lo := 1) (hi := ninner) (by omega) (s := s) (f := F j)
        (fun m u => (∀ o i k, 1 ≤ o → o < j → 1 ≤ i → i ≤ ninner → 1 ≤ k → k ≤ no → u (pos no ninner o i k) = V o i k) ∧
          ∀ i k, 1 ≤ i → i < m → 1 ≤ k → k ≤ no → u (pos no ninner j i k) = V j i k)
        ⟨hs, by intro i k h1 h2; omega⟩
        (by
          rintro m u hm1 hm2 ⟨u1, u2⟩
          obtain ⟨u', eu, w1, w2⟩ := hF j m u hj1 hj2 hm1 hm2
          refine ⟨u', eu, ?_, ?_⟩
          · intro o i k a1 a2 a3 a4 a5 a6
            rw [w2 _ ?_, u1 o i k a1 a2 a3 a4 a5 a6]
            intro k' b1 b2 hc
            have := pos_inj a1 hj1 a3 a4 hm1 hm2 a5 a6 b1 b2 hc
            omega
          · intro i k a3 a4 a5 a6
            by_cases him : i = m
            · subst him; exact w1 k a5 a6
            · rw [w2 _ ?_, u2 i k a3 (by omega) a5 a6]
              intro k' b1 b2 hc
              have := pos_inj hj1 hj1 a3 (by omega) hm1 hm2 a5 a6 b1 b2 hc
              omega)
      refine ⟨s', e', ?_⟩
      intro o i k a1 a2 a3 a4 a5 a6
      by_cases ho : o = j
      · subst ho; exact h2 i k a3 (by omega) a5 a6
      · exact h1 o i k a1 (by omega) a3 a4 a5 a6)
  exact ⟨d', e, fun o i k a1 a2 a3 a4 a5 a6 => h o i k a1 (by omega) a3 a4 a5 a6⟩

/-- The loop over columns of the generic path. -/
theorem generic_loop {ncol : ℕ} {empty : ℕ → ℝ} {G : ℕ → (ℕ → ℝ) → Option (ℕ → ℝ)} (C : ℕ → ℕ → ℝ)
    (hG : ∀ j, 1 ≤ j → j ≤ ncol → G j empty = some (C j)) :
    ∃ cols, doLoopM 1 ncol (fun (_ : ℕ) => empty) (fun j cols => (G j (cols j)).bind fun col => some (Function.update cols j col)) = some cols ∧
      ∀ j, 1 ≤ j → j ≤ ncol → cols j = C j := by
  obtain ⟨c, e, h1, h2⟩ := doLoopM_inv (lo := 1) (hi := ncol) (by omega) (s := fun (_ : ℕ) => empty)
    (f := fun j cols => (G j (cols j)).bind fun col => some (Function.update cols j col))
    (fun m s => (∀ j, 1 ≤ j → j < m → s j = C j) ∧ ∀ j, m ≤ j → s j = empty)
    ⟨by intro j h1 h2; omega, by intro j _; rfl⟩
    (by
      rintro m s hm1 hm2 ⟨s1, s2⟩
      rw [s2 m le_rfl, hG m hm1 hm2]
      refine ⟨_, rfl, ?_, ?_⟩
      · intro j h1 h2
        by_cases hj : j = m
        · subst hj; rw [Function.update_self]
        · rw [Function.update_of_ne hj]; exact s1 j h1 (by omega)
      · intro j h
        rw [Function.update_of_ne (by omega)]
        exact s2 j (by omega))
  exact ⟨c, e, fun j a b => h1 j a (by omega)⟩

theorem col_index {nouter ninner j : ℕ} (h1 : 1 ≤ j) (h2 : j ≤ nouter * ninner) : (j - 1) / ninner < nouter ∧ (j - 1) % ninner < ninner := by
  have hn : 0 < ninner := by
    rcases Nat.eq_zero_or_pos ninner with h | h
    · subst h; simp at h2; omega
    · exact h
  exact ⟨(Nat.div_lt_iff_lt_mul hn).2 (by omega), Nat.mod_lt _ hn⟩

theorem col_decode {ninner o i : ℕ} (hi : i < ninner) : (o * ninner + i + 1 - 1) / ninner = o ∧ (o * ninner + i + 1 - 1) % ninner = i := by
  have e : o * ninner + i + 1 - 1 = ninner * o + i := by rw [Nat.mul_comm]; omega
  rw [e, Nat.mul_add_div (by omega), Nat.div_eq_of_lt hi, Nat.mul_add_mod, Nat.mod_eq_of_lt hi]
  simp

theorem out_pos {nlevo ninner o k i : ℕ} : (o * nlevo + (k - 1)) * ninner + i + 1 = pos nlevo ninner (o + 1) (i + 1) k := by
  rw [pos_eq (by omega)]; simp

/-! ### `interp_hybrid_to_pressure` -/

theorem offset_pos (n ninner o i k : ℕ) : offset ((o - 1) * n * ninner) i ninner k = pos n ninner o i k := rfl

theorem pos_next {n ninner o i k : ℕ} (hk : 1 ≤ k) : pos n ninner o i k + ninner = pos n ninner o i (k + 1) := by
  unfold pos
  have : k + 1 - 1 = (k - 1) + 1 := by omega
  rw [this, Nat.add_mul]; omega

theorem flatPair_eq {intyp nouter n ninner o i : ℕ} (f : ℕ → ℕ → ℕ → ℝ) {p : ℕ → ℝ} {spv t : ℝ} {kp : ℕ} (ho : 1 ≤ o) (hon : o ≤ nouter)
    (hi : 1 ≤ i) (hin : i ≤ ninner) (h1 : 1 ≤ kp) (h2 : kp < n) :
    flatPair intyp (nouter * n * ninner) ((o - 1) * n * ninner) i ninner n (cbuf n ninner f) p spv t kp =
      some (interpValue intyp (f (o - 1) kp (i - 1)) (f (o - 1) (kp + 1) (i - 1)) t (p kp) (p (kp + 1)) spv) := by
  have r1 := pos_range (n := n) ho hon hi hin h1 (by omega)
  have r2 := pos_range (n := n) (k := kp + 1) ho hon hi hin (by omega) (by omega)
  rw [flatPair, offset_pos, pos_next h1, rd_ok r1.1 r1.2, rd_ok r2.1 r2.2, rd_ok h1 (by omega), rd_ok (by omega) (by omega),
    cbuf_pos f hi hin h1 (by omega), cbuf_pos f hi hin (by omega) (by omega)]
  rfl

theorem flatBelow_eq {bel : Below} (hb : bel ≠ .nodePair) {intyp nouter n ninner o i : ℕ} (f : ℕ → ℕ → ℕ → ℝ) {p : ℕ → ℝ}
    {spv t psmb tbot phis : ℝ} {asc : Bool} (hn : 1 ≤ n) (ho : 1 ≤ o) (hon : o ≤ nouter) (hi : 1 ≤ i) (hin : i ≤ ninner) :
    flatBelow bel intyp (nouter * n * ninner) ((o - 1) * n * ninner) i ninner n (cbuf n ninner f) p spv t psmb tbot phis asc =
      belowValue bel intyp n (fun k => f (o - 1) k (i - 1)) p spv t psmb tbot phis asc := by
  obtain ⟨h1, h2⟩ := lowestIdx_range hn asc
  have r1 := pos_range (n := n) ho hon hi hin h1 h2
  cases bel with
  | missing => rfl
  | nodePair => exact absurd rfl hb
  | temperature =>
    rw [flatBelow, belowValue, offset_pos, rd_ok r1.1 r1.2, cbuf_pos f hi hin h1 h2, rd_ok h1 h2, rd_ok h1 h2]
  | geopotential => rfl
  | other => rw [flatBelow, belowValue, offset_pos, rd_ok r1.1 r1.2, cbuf_pos f hi hin h1 h2, rd_ok h1 h2]

/-- Closed form of the flat column kernels. -/
theorem flatColumn_eq (m : Method) {nouter n ninner no o i : ℕ} (hn : 1 ≤ n) (f : ℕ → ℕ → ℕ → ℝ) (a b : ℕ → ℝ) (p0mb : ℝ) (lev : ℕ → ℝ)
    (ps spv : ℝ) {bel : Below} (hb : bel ≠ .nodePair) (tbot phis : ℝ) (d : ℕ → ℝ) (ho : 1 ≤ o) (hon : o ≤ nouter) (hi : 1 ≤ i)
    (hin : i ≤ ninner) :
    ∃ d', flatColumn (nouter * n * ninner) (nouter * no * ninner) (cbuf n ninner f) a b p0mb no lev m.intyp ps spv bel tbot phis
        ((o - 1) * n * ninner) ((o - 1) * no * ninner) i ninner n d = some d' ∧
      (∀ k, 1 ≤ k → k ≤ no → d' (pos no ninner o i k) = if ps = spv then spv else
        levelValue bel m.intyp n (fun k => f (o - 1) k (i - 1)) (buildPressures a b p0mb (ps * 0.01)) spv (lev k) (ps * 0.01) tbot phis) ∧
      ∀ q, (∀ k, 1 ≤ k → k ≤ no → q ≠ pos no ninner o i k) → d' q = d q := by
  have hbnd : ∀ k, 1 ≤ k → k ≤ no → 1 ≤ (o - 1) * no * ninner + i + (k - 1) * ninner ∧
      (o - 1) * no * ninner + i + (k - 1) * ninner ≤ nouter * no * ninner := fun k h1 h2 => pos_range ho hon hi hin h1 h2
  rw [flatColumn]
  simp only []
  by_cases hps : ps = spv
  · rw [if_pos hps]
    obtain ⟨d', q', e, e1, e2⟩ := loop_writeAt (no := no) (nout := nouter * no * ninner) (c := (o - 1) * no * ninner + i) (step := ninner)
      (d := d) (f := fun _ s => (wr (nouter * no * ninner) s.1 s.2 spv).bind fun d => some (d, s.2 + ninner)) (fun _ => spv) (by omega) hbnd
      (fun k d q _ _ => rfl)
    refine ⟨d', ?_, ?_, e2⟩
    · simp only [Option.bind_eq_bind]; rw [e]; rfl
    · intro k h1 h2; rw [if_pos hps]; exact e1 k h1 h2
  · rw [if_neg hps, levelsAscending_eq hn]
    simp only [Option.bind_eq_bind, Option.bind_some]
    generalize hp : buildPressures a b p0mb (ps * 0.01) = p
    generalize hasc : decide (p 1 ≤ p n) = asc
    obtain ⟨h1, h2⟩ := lowestIdx_range hn asc
    rw [rd_ok h1 h2]
    simp only [Option.bind_some]
    rw [if_pos (intyp_ok m)]
    obtain ⟨d', q', e, e1, e2⟩ := loop_writeAt (no := no) (nout := nouter * no * ninner) (c := (o - 1) * no * ninner + i) (step := ninner)
      (d := d) (f := fun k s => (rd no lev k).bind fun t =>
        (if p (lowestIdx n asc) < t then flatBelow bel m.intyp (nouter * n * ninner) ((o - 1) * n * ninner) i ninner n (cbuf n ninner f) p spv t
            (ps * 0.01) tbot phis asc
          else (locate t n p asc).bind fun kp =>
            if kp < 1 then some spv else flatPair m.intyp (nouter * n * ninner) ((o - 1) * n * ninner) i ninner n (cbuf n ninner f) p spv t kp).bind
        fun v => (wr (nouter * no * ninner) s.1 s.2 v).bind fun d => some (d, s.2 + ninner))
      (fun k => levelValue bel m.intyp n (fun k => f (o - 1) k (i - 1)) p spv (lev k) (ps * 0.01) tbot phis) (by omega) hbnd
      (by
        intro k d q hk1 hk2
        rw [rd_ok hk1 hk2]
        simp only [Option.bind_some]
        have key : (if p (lowestIdx n asc) < lev k then flatBelow bel m.intyp (nouter * n * ninner) ((o - 1) * n * ninner) i ninner n
              (cbuf n ninner f) p spv (lev k) (ps * 0.01) tbot phis asc
            else (locate (lev k) n p asc).bind fun kp =>
              if kp < 1 then some spv else flatPair m.intyp (nouter * n * ninner) ((o - 1) * n * ninner) i ninner n (cbuf n ninner f) p spv
                (lev k) kp) =
            some (levelValue bel m.intyp n (fun k => f (o - 1) k (i - 1)) p spv (lev k) (ps * 0.01) tbot phis) := by
          rw [levelValue, hasc]
          by_cases hc : p (lowestIdx n asc) < lev k
          · rw [if_pos hc, if_pos hc, flatBelow_eq hb f hn ho hon hi hin]
            obtain ⟨v, hv⟩ := belowValue_ok hb (intyp := m.intyp) (x := fun k => f (o - 1) k (i - 1)) (p := p) (spv := spv) (t := lev k)
              (psmb := ps * 0.01) (tbot := tbot) (phis := phis) (asc := asc) hn
            rw [hv]; rfl
          · rw [if_neg hc, if_neg hc]
            rcases Nat.lt_or_ge n 2 with h | h
            · rw [locate_small h]; rfl
            · obtain ⟨kp, e, b1, b2, -⟩ := locate_range (lev k) p asc h
              rw [e]
              simp only [Option.bind_some]
              rw [if_neg (by omega), if_neg (by omega), flatPair_eq f ho hon hi hin b1 b2]
        rw [key]; rfl)
    refine ⟨d', ?_, ?_, e2⟩
    · rw [e]; rfl
    · intro k h1 h2; rw [if_neg hps]; exact e1 k h1 h2

/-- The value of entry `(o, k, i)` before the sentinel is decoded. -/
noncomputable def rawValue (r : Req) (o k i : ℕ) : ℝ :=
  let pc := (r.ps o i).getD spvl
  if pc = spvl then spvl else
    levelValue r.below r.method.intyp r.nlevi (fun k => r.data o k i) (buildPressures r.hyam r.hybm (r.p0 * 0.01) (pc * 0.01)) spvl
      (r.levels k * 0.01) (pc * 0.01) (r.aux r.tBot o i) (r.aux r.phiSfc o i)

theorem below_ne (r : Req) : r.below ≠ .nodePair := by
  unfold Req.below
  split
  · cases h : r.varName with
    | none => simp
    | some v => cases v <;> simp [Var.below]
  · simp

theorem corderPath_eq (r : Req) (empty : ℕ → ℝ) (hn : 1 ≤ r.nlevi) (hfin : ∀ o < r.nouter, ∀ i < r.ninner, (r.ps o i).isSome) :
    ∃ out, corderPath r empty = some out ∧
      ∀ o k i, o < r.nouter → 1 ≤ k → k ≤ r.nlevo → i < r.ninner → out o k i = decode (rawValue r o k i) := by
  obtain ⟨d', e, h⟩ := corder_loop (nouter := r.nouter) (ninner := r.ninner) (no := r.nlevo) (d := empty)
    (F := fun o inner d => (rd (r.nouter * r.ninner) (cbuf2 r.ninner fun o i => (r.ps o i).getD 0) ((o - 1) * r.ninner + inner)).bind fun pc =>
      (rd (r.nouter * r.ninner) (cbuf2 r.ninner (r.aux r.tBot)) ((o - 1) * r.ninner + inner)).bind fun tc =>
      (rd (r.nouter * r.ninner) (cbuf2 r.ninner (r.aux r.phiSfc)) ((o - 1) * r.ninner + inner)).bind fun hc =>
      flatColumn (r.nouter * r.nlevi * r.ninner) (r.nouter * r.nlevo * r.ninner) (cbuf r.nlevi r.ninner r.data) r.hyam r.hybm (r.p0 * 0.01)
        r.nlevo (fun k => r.levels k * 0.01) r.method.intyp pc spvl r.below tc hc ((o - 1) * r.nlevi * r.ninner)
        ((o - 1) * r.nlevo * r.ninner) inner r.ninner r.nlevi d)
    (fun o i k => rawValue r (o - 1) k (i - 1))
    (by
      intro o i d ho hon hi hin
      obtain ⟨c1, c2⟩ := col_range ho hon hi hin
      beta_reduce
      rw [rd_ok c1 c2, rd_ok c1 c2, rd_ok c1 c2, cbuf2_pos _ hi hin, cbuf2_pos _ hi hin, cbuf2_pos _ hi hin]
      simp only [Option.bind_some]
      obtain ⟨d', e, e1, e2⟩ := flatColumn_eq r.method (no := r.nlevo) hn r.data r.hyam r.hybm (r.p0 * 0.01) (fun k => r.levels k * 0.01)
        ((r.ps (o - 1) (i - 1)).getD 0) spvl (below_ne r) (r.aux r.tBot (o - 1) (i - 1)) (r.aux r.phiSfc (o - 1) (i - 1)) d ho hon hi hin
      refine ⟨d', e, ?_, e2⟩
      intro k h1 h2
      rw [e1 k h1 h2, rawValue]
      obtain ⟨s, hs⟩ := Option.isSome_iff_exists.1 (hfin (o - 1) (by omega) (i - 1) (by omega))
      rw [hs]; rfl)
  refine ⟨_, by rw [corderPath, corderKernel]; simp only [Option.bind_eq_bind]; rw [e]; rfl, ?_⟩
  intro o k i ho hk1 hk2 hi
  beta_reduce
  rw [out_pos, h (o + 1) (i + 1) k (by omega) (by omega) (by omega) (by omega) hk1 hk2]
  rfl

/-- What the theorems about `extrapolate = False` need of the column `(o, i)`. -/
def Regular (r : Req) (o i : ℕ) : Prop :=
  ∀ s, r.ps o i = some s → Strict r.nlevi (fun k => r.hyam k * r.p0 + r.hybm k * s) ∧
    ∀ k, 1 ≤ k → k ≤ r.nlevi → Dom r.method (r.hyam k * r.p0 + r.hybm k * s)

theorem build_eq (a b : ℕ → ℝ) (p0 s : ℝ) : buildPressures a b (p0 * 0.01) (s * 0.01) = fun k => (a k * p0 + b k * s) * 0.01 := by
  funext k; unfold buildPressures; ring

theorem strict_scale {n : ℕ} {p : ℕ → ℝ} (h : Strict n p) : Strict n (fun k => p k * 0.01) := by
  rcases h with h | h
  · left; intro k h1 h2; exact mul_lt_mul_of_pos_right (h k h1 h2) (by norm_num)
  · right; intro k h1 h2; exact mul_lt_mul_of_pos_right (h k h1 h2) (by norm_num)

theorem dom_scale {m : Method} {p : ℝ} (h : Dom m p) : Dom m (p * 0.01) := by
  cases m
  · exact trivial
  · exact mul_pos h (by norm_num)
  · exact mul_nonneg h (by norm_num)

theorem genericPath_eq (r : Req) (empty : ℕ → ℝ) (hn : 1 ≤ r.nlevi) (hreg : ∀ o < r.nouter, ∀ i < r.ninner, Regular r o i) :
    ∃ out, genericPath r empty = some out ∧
      ∀ o k i, o < r.nouter → 1 ≤ k → k ≤ r.nlevo → i < r.ninner → out o k i = decode (rawValue r o k i) := by
  obtain ⟨cols, e, h⟩ := generic_loop (ncol := r.nouter * r.ninner) (empty := empty)
    (G := fun j c => match r.below with
      | .missing => columnNodes r.nlevi (fun k => r.data ((j - 1) / r.ninner) k ((j - 1) % r.ninner)) r.hyam r.hybm (r.p0 * 0.01) r.nlevo
          (fun k => r.levels k * 0.01) r.method.intyp ((r.ps ((j - 1) / r.ninner) ((j - 1) % r.ninner)).getD spvl) spvl false c
      | bel => columnEcmwf r.nlevi (fun k => r.data ((j - 1) / r.ninner) k ((j - 1) % r.ninner)) r.hyam r.hybm (r.p0 * 0.01) r.nlevo
          (fun k => r.levels k * 0.01) r.method.intyp ((r.ps ((j - 1) / r.ninner) ((j - 1) % r.ninner)).getD spvl) spvl bel
          (r.aux r.tBot ((j - 1) / r.ninner) ((j - 1) % r.ninner)) (r.aux r.phiSfc ((j - 1) / r.ninner) ((j - 1) % r.ninner)) c)
    (fun j k => if 1 ≤ k ∧ k ≤ r.nlevo then rawValue r ((j - 1) / r.ninner) k ((j - 1) % r.ninner) else empty k)
    (by
      intro j h1 h2
      obtain ⟨c1, c2⟩ := col_index h1 h2
      beta_reduce
      have hr := hreg _ c1 _ c2
      generalize (j - 1) / r.ninner = o at *
      generalize (j - 1) % r.ninner = i at *
      by_cases hp : (r.ps o i).getD spvl = spvl
      · have e1 : ∀ k, rawValue r o k i = spvl := by intro k; rw [rawValue, if_pos hp]
        have e2 : (fun k => if 1 ≤ k ∧ k ≤ r.nlevo then rawValue r o k i else empty k) = fill r.nlevo spvl empty := by
          funext k; rw [e1, fill]
        rw [e2]
        split
        · rw [columnNodes, if_pos hp]
        · rw [columnEcmwf, if_pos hp]
      · have e1 : ∀ k, rawValue r o k i = levelValue r.below r.method.intyp r.nlevi (fun k => r.data o k i)
            (buildPressures r.hyam r.hybm (r.p0 * 0.01) ((r.ps o i).getD spvl * 0.01)) spvl (r.levels k * 0.01)
            ((r.ps o i).getD spvl * 0.01) (r.aux r.tBot o i) (r.aux r.phiSfc o i) := by
          intro k; rw [rawValue, if_neg hp]
        simp only [e1]
        have hne := below_ne r
        split
        · next hb =>
          cases hs : r.ps o i with
          | none => rw [hs] at hp; exact absurd rfl hp
          | some s =>
            obtain ⟨g1, g2⟩ := hr s hs
            rw [hs] at hp
            simp only [Option.getD_some] at hp ⊢
            rw [columnNodes_eq r.method hn _ _ _ _ _ _ hp (by rw [build_eq]; exact strict_scale g1)
              (by rw [build_eq]; exact fun k h1 h2 => dom_scale (g2 k h1 h2)) (r.aux r.tBot o i) (r.aux r.phiSfc o i), hb]
        · rw [columnEcmwf_eq r.method hn _ _ _ _ _ _ hp hne])
  refine ⟨_, by rw [genericPath]; simp only [Option.bind_eq_bind]; erw [e]; rfl, ?_⟩
  intro o k i ho hk1 hk2 hi
  beta_reduce
  have hj : 1 ≤ o * r.ninner + i + 1 ∧ o * r.ninner + i + 1 ≤ r.nouter * r.ninner := by
    have := col_range (o := o + 1) (i := i + 1) (by omega) (show o + 1 ≤ r.nouter by omega) (by omega) (show i + 1 ≤ r.ninner by omega)
    simpa [Nat.add_assoc] using this
  rw [h _ hj.1 hj.2]
  obtain ⟨d1, d2⟩ := col_decode (o := o) hi
  beta_reduce
  rw [if_pos ⟨hk1, hk2⟩, d1, d2]

/-- The result of `interp_hybrid_to_pressure` on either path. -/
theorem hybrid_value (al : Bool) (empty : ℕ → ℝ) (r : Req) (hn : 1 ≤ r.nlevi) (hreg : ∀ o < r.nouter, ∀ i < r.ninner, Regular r o i)
    (h1 : ¬ (r.extrapolate && r.varName.isNone) = true)
    (h2 : ¬ ((r.varName = some .temperature ∨ r.varName = some .geopotential) ∧ (r.tBot.isNone ∨ r.phiSfc.isNone))) :
    ∃ out, hybridToPressure al empty r = .ok out ∧
      ∀ o k i, o < r.nouter → 1 ≤ k → k ≤ r.nlevo → i < r.ninner → out o k i = decode (rawValue r o k i) := by
  rw [hybridToPressure, if_neg h1, if_neg h2]
  simp only []
  generalize hf : (List.range r.nouter).all (fun o => (List.range r.ninner).all fun i => (r.ps o i).isSome) = fin
  by_cases hc : (al && fin) = true
  · rw [if_pos hc]
    have hfin : ∀ o < r.nouter, ∀ i < r.ninner, (r.ps o i).isSome := by
      have : fin = true := by revert hc; cases al <;> simp
      rw [this] at hf
      simpa using hf
    obtain ⟨out, e, h⟩ := corderPath_eq r empty hn hfin
    rw [e]; exact ⟨out, rfl, h⟩
  · rw [if_neg hc]
    obtain ⟨out, e, h⟩ := genericPath_eq r empty hn hreg
    rw [e]; exact ⟨out, rfl, h⟩

end Skyborn.Hybrid
