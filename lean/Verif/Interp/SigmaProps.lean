/-
C76: `interp_sigma_to_hybrid`.
-/
import Verif.Interp.HybridProps

namespace Skyborn.Hybrid

open Spec

/-- Closed form of one target level of the sigma kernels. -/
noncomputable def sigVal (intyp n : ℕ) (x sig : ℕ → ℝ) (spv t : ℝ) : ℝ :=
  let asc := decide (sig 1 ≤ sig n)
  if n < 2 then spv
  else if (if asc then decide (t < sig 1 ∨ sig n < t) else decide (sig 1 < t ∨ t < sig n)) = true then spv
  else match locate t n sig asc with
    | none => spv
    | some kp =>
      if intyp = 2 ∧ (t ≤ 0 ∨ sig kp ≤ 0 ∨ sig (kp + 1) ≤ 0) then spv
      else interpValue intyp (x kp) (x (kp + 1)) t (sig kp) (sig (kp + 1)) spv

theorem sigmaOutside_eq {n : ℕ} (hn : 1 ≤ n) (sig : ℕ → ℝ) (asc : Bool) (t : ℝ) :
    sigmaOutside n sig asc t = some (if asc then decide (t < sig 1 ∨ sig n < t) else decide (sig 1 < t ∨ t < sig n)) := by
  rw [sigmaOutside, rd_ok le_rfl hn, rd_ok hn le_rfl]; rfl

theorem sigmaBadLog_eq {n : ℕ} (sig : ℕ → ℝ) (intyp : ℕ) {kp : ℕ} (t : ℝ) (h1 : 1 ≤ kp) (h2 : kp < n) :
    sigmaBadLog n sig intyp kp t = some (decide (intyp = 2 ∧ (t ≤ 0 ∨ sig kp ≤ 0 ∨ sig (kp + 1) ≤ 0))) := by
  rw [sigmaBadLog]
  by_cases h : intyp = 2
  · rw [if_pos h, rd_ok h1 (by omega), rd_ok (by omega) (by omega)]
    simp [h]
  · rw [if_neg h]; simp [h]

theorem columnSigma_eq (intyp : ℕ) {n : ℕ} (x sig : ℕ → ℝ) (no : ℕ) (tgt : ℕ → Option ℝ) (spv : ℝ) (d : ℕ → ℝ) :
    columnSigma n x sig no tgt intyp spv d = some (fun k => if 1 ≤ k ∧ k ≤ no then
      (match tgt k with | none => spv | some t => sigVal intyp n x sig spv t) else d k) := by
  rw [columnSigma]
  by_cases hn : n < 2
  · rw [if_pos hn]
    congr 1
    funext k
    unfold fill
    split
    · cases tgt k with
      | none => rfl
      | some t => simp only [sigVal, if_pos hn]
    · rfl
  · rw [if_neg hn, levelsAscending_eq (by omega)]
    simp only [Option.bind_eq_bind, Option.bind_some]
    apply loop_write
    intro k d hk1 hk2
    rw [rd_ok hk1 hk2]
    simp only [Option.bind_some]
    cases htg : tgt k with
    | none => rfl
    | some t =>
      simp only []
      rw [sigmaOutside_eq (by omega)]
      simp only [Option.bind_some]
      unfold sigVal
      rw [if_neg hn]
      generalize decide (sig 1 ≤ sig n) = asc
      by_cases ho : (if asc then decide (t < sig 1 ∨ sig n < t) else decide (sig 1 < t ∨ t < sig n)) = true
      · rw [if_pos ho, if_pos ho]
      · rw [if_neg ho, if_neg ho]
        obtain ⟨kp, e, b1, b2, -⟩ := locate_range t sig asc (show 2 ≤ n by omega)
        rw [e]
        simp only [Option.bind_some]
        rw [if_neg (by omega), sigmaBadLog_eq sig intyp t b1 b2]
        simp only [Option.bind_some, decide_eq_true_eq]
        by_cases hb : intyp = 2 ∧ (t ≤ 0 ∨ sig kp ≤ 0 ∨ sig (kp + 1) ≤ 0)
        · rw [if_pos hb, if_pos hb]
        · rw [if_neg hb, if_neg hb, pairValue_ok b1 b2]
          rfl

/-- A loop that writes `v k` at position `base + (k - 1) * step + inner`. -/
theorem loop_writePos {nouter no ninner o i : ℕ} {d : ℕ → ℝ} {f : ℕ → (ℕ → ℝ) → Option (ℕ → ℝ)} (v : ℕ → ℝ)
    (ho : 1 ≤ o) (hon : o ≤ nouter) (hi : 1 ≤ i) (hin : i ≤ ninner)
    (h : ∀ k d, 1 ≤ k → k ≤ no → f k d = wr (nouter * no * ninner) d (pos no ninner o i k) (v k)) :
    ∃ d', doLoopM 1 no d f = some d' ∧ (∀ k, 1 ≤ k → k ≤ no → d' (pos no ninner o i k) = v k) ∧
      ∀ q, (∀ k, 1 ≤ k → k ≤ no → q ≠ pos no ninner o i k) → d' q = d q := by
  obtain ⟨s, e, hs1, hs2⟩ := doLoopM_inv (lo := 1) (hi := no) (by omega) (s := d) (f := f)
    (fun j s => (∀ k, 1 ≤ k → k < j → s (pos no ninner o i k) = v k) ∧
      (∀ q, (∀ k, 1 ≤ k → k < j → q ≠ pos no ninner o i k) → s q = d q))
    ⟨by intro k h1 h2; omega, by intro q _; rfl⟩
    (by
      rintro j d1 h1 h2 ⟨i1, i2⟩
      obtain ⟨p1, p2⟩ := pos_range (n := no) ho hon hi hin h1 h2
      rw [h j d1 h1 h2, wr_ok p1 p2]
      refine ⟨_, rfl, ?_, ?_⟩
      · intro k hk1 hk2
        by_cases hk : k = j
        · subst hk; rw [Function.update_self]
        · rw [Function.update_of_ne]
          · exact i1 k hk1 (by omega)
          · intro hc
            have := pos_inj ho ho hi hin hi hin hk1 (by omega) h1 h2 hc
            omega
      · intro q hq
        rw [Function.update_of_ne (hq j h1 (by omega))]
        exact i2 q fun k hk1 hk2 => hq k hk1 (by omega))
  exact ⟨s, e, fun k h1 h2 => hs1 k h1 (by omega), fun q hq => hs2 q fun k h1 h2 => hq k h1 (by omega)⟩

theorem flatColumnSigma_eq (intyp : ℕ) {nouter n ninner no o i : ℕ} (hn : 1 ≤ n) (f : ℕ → ℕ → ℕ → ℝ) (sig hyam hybm : ℕ → ℝ) (p0 ps spv : ℝ)
    (d : ℕ → ℝ) (ho : 1 ≤ o) (hon : o ≤ nouter) (hi : 1 ≤ i) (hin : i ≤ ninner) :
    ∃ d', flatColumnSigma (nouter * n * ninner) (nouter * no * ninner) (cbuf n ninner f) sig hyam hybm p0 ps intyp spv
        ((o - 1) * n * ninner) ((o - 1) * no * ninner) i ninner n no d = some d' ∧
      (∀ k, 1 ≤ k → k ≤ no → d' (pos no ninner o i k) =
        sigVal intyp n (fun k => f (o - 1) k (i - 1)) sig spv (hyam k * p0 / ps + hybm k)) ∧
      ∀ q, (∀ k, 1 ≤ k → k ≤ no → q ≠ pos no ninner o i k) → d' q = d q := by
  rw [flatColumnSigma, levelsAscending_eq hn]
  simp only [Option.bind_eq_bind, Option.bind_some]
  apply loop_writePos (nouter := nouter)
    (fun k => sigVal intyp n (fun k => f (o - 1) k (i - 1)) sig spv (hyam k * p0 / ps + hybm k)) ho hon hi hin
  intro k d hk1 hk2
  have hpos : (o - 1) * no * ninner + (k - 1) * ninner + i = pos no ninner o i k := by unfold pos; omega
  rw [rd_ok hk1 hk2, rd_ok hk1 hk2]
  simp only [Option.bind_some]
  rw [sigmaOutside_eq hn]
  simp only [Option.bind_some]
  rw [hpos]
  generalize hyam k * p0 / ps + hybm k = t
  unfold sigVal
  generalize decide (sig 1 ≤ sig n) = asc
  by_cases hout : (if asc then decide (t < sig 1 ∨ sig n < t) else decide (sig 1 < t ∨ t < sig n)) = true
  · rw [if_pos hout]
    by_cases hn2 : n < 2
    · simp only [if_pos hn2]
    · simp only [if_neg hn2, if_pos hout]
  · rw [if_neg hout]
    by_cases hn2 : n < 2
    · simp only [if_pos hn2]
      rw [locate_small hn2]
      rfl
    · simp only [if_neg hn2, if_neg hout]
      obtain ⟨kp, e, b1, b2, -⟩ := locate_range t sig asc (show 2 ≤ n by omega)
      rw [e]
      simp only [Option.bind_some]
      rw [if_neg (by omega), sigmaBadLog_eq sig intyp t b1 b2]
      simp only [Option.bind_some, decide_eq_true_eq]
      by_cases hb : intyp = 2 ∧ (t ≤ 0 ∨ sig kp ≤ 0 ∨ sig (kp + 1) ≤ 0)
      · rw [if_pos hb, if_pos hb]
      · rw [if_neg hb, if_neg hb, flatPair_eq f ho hon hi hin b1 b2]
        rfl

/-- Value of entry `(o, k, i)`. -/
noncomputable def sigRaw (r : SReq) (o k i : ℕ) : ℝ :=
  match r.ps o i with
  | none => spvl
  | some s => sigVal r.method.intyp r.nlevi (fun k => r.data o k i) r.sigma spvl (r.hyam k * r.p0 / s + r.hybm k)

theorem sigmaCorder_eq (r : SReq) (empty : ℕ → ℝ) (hn : 1 ≤ r.nlevi) (hfin : ∀ o < r.nouter, ∀ i < r.ninner, (r.ps o i).isSome) :
    ∃ out, sigmaCorder r empty = some out ∧
      ∀ o k i, o < r.nouter → 1 ≤ k → k ≤ r.nlevo → i < r.ninner → out o k i = decode (sigRaw r o k i) := by
  obtain ⟨d', e, h⟩ := corder_loop (nouter := r.nouter) (ninner := r.ninner) (no := r.nlevo) (d := empty)
    (F := fun o inner d => (rd (r.nouter * r.ninner) (cbuf2 r.ninner fun o i => (r.ps o i).getD 0) ((o - 1) * r.ninner + inner)).bind fun pc =>
      flatColumnSigma (r.nouter * r.nlevi * r.ninner) (r.nouter * r.nlevo * r.ninner) (cbuf r.nlevi r.ninner r.data) r.sigma r.hyam r.hybm
        r.p0 pc r.method.intyp spvl ((o - 1) * r.nlevi * r.ninner) ((o - 1) * r.nlevo * r.ninner) inner r.ninner r.nlevi r.nlevo d)
    (fun o i k => sigRaw r (o - 1) k (i - 1))
    (by
      intro o i d ho hon hi hin
      obtain ⟨c1, c2⟩ := col_range ho hon hi hin
      beta_reduce
      rw [rd_ok c1 c2, cbuf2_pos _ hi hin]
      simp only [Option.bind_some]
      obtain ⟨d', e, e1, e2⟩ := flatColumnSigma_eq r.method.intyp (no := r.nlevo) hn r.data r.sigma r.hyam r.hybm r.p0
        ((r.ps (o - 1) (i - 1)).getD 0) spvl d ho hon hi hin
      refine ⟨d', e, ?_, e2⟩
      intro k h1 h2
      rw [e1 k h1 h2, sigRaw]
      obtain ⟨s, hs⟩ := Option.isSome_iff_exists.1 (hfin (o - 1) (by omega) (i - 1) (by omega))
      rw [hs]; rfl)
  refine ⟨_, by rw [sigmaCorder]; simp only [Option.bind_eq_bind]; rw [e]; rfl, ?_⟩
  intro o k i ho hk1 hk2 hi
  beta_reduce
  rw [out_pos, h (o + 1) (i + 1) k (by omega) (by omega) (by omega) (by omega) hk1 hk2]
  rfl

theorem sigmaGeneric_eq (r : SReq) (empty : ℕ → ℝ) :
    ∃ out, sigmaGeneric r empty = some out ∧
      ∀ o k i, o < r.nouter → 1 ≤ k → k ≤ r.nlevo → i < r.ninner → out o k i = decode (sigRaw r o k i) := by
  obtain ⟨cols, e, h⟩ := generic_loop (ncol := r.nouter * r.ninner) (empty := empty)
    (G := fun j c => columnSigma r.nlevi (fun k => r.data ((j - 1) / r.ninner) k ((j - 1) % r.ninner)) r.sigma r.nlevo
      (fun k => (r.ps ((j - 1) / r.ninner) ((j - 1) % r.ninner)).map fun s => r.hyam k * r.p0 / s + r.hybm k) r.method.intyp spvl c)
    (fun j k => if 1 ≤ k ∧ k ≤ r.nlevo then sigRaw r ((j - 1) / r.ninner) k ((j - 1) % r.ninner) else empty k)
    (by
      intro j h1 h2
      beta_reduce
      rw [columnSigma_eq]
      congr 1
      funext k
      split
      · unfold sigRaw
        cases r.ps ((j - 1) / r.ninner) ((j - 1) % r.ninner) <;> rfl
      · rfl)
  refine ⟨_, by rw [sigmaGeneric]; simp only [Option.bind_eq_bind]; rw [e]; rfl, ?_⟩
  intro o k i ho hk1 hk2 hi
  beta_reduce
  have hj : 1 ≤ o * r.ninner + i + 1 ∧ o * r.ninner + i + 1 ≤ r.nouter * r.ninner := by
    have := col_range (o := o + 1) (i := i + 1) (by omega) (show o + 1 ≤ r.nouter by omega) (by omega) (show i + 1 ≤ r.ninner by omega)
    simpa [Nat.add_assoc] using this
  rw [h _ hj.1 hj.2]
  obtain ⟨d1, d2⟩ := col_decode (o := o) hi
  beta_reduce
  rw [if_pos ⟨hk1, hk2⟩, d1, d2]

namespace Spec

/-- Entry `(o, k, i)` of the result of `interp_sigma_to_hybrid` exists. -/
def SEntry (r : SReq) (o k i : ℕ) : Prop := o < r.nouter ∧ 1 ≤ k ∧ k ≤ r.nlevo ∧ i < r.ninner

/-- Sigma of hybrid level `k` over a surface pressure `s`: the level's pressure `a p0 + b s` divided by `s`. -/
noncomputable def targetSigma (r : SReq) (s : ℝ) (k : ℕ) : ℝ := (r.hyam k * r.p0 + r.hybm k * s) / s

/-- The coordinate in which the interpolation is linear (no unit conversion for sigma). -/
noncomputable def coordS : Method → ℝ → ℝ
  | .linear => fun x => x
  | .log => Real.log
  | .loglog => fun x => Real.log (Real.log (x + 2.72))

/-- Source sigma levels never decrease or never increase. -/
def MonoSigma (r : SReq) : Prop :=
  (∀ k, 1 ≤ k → k < r.nlevi → r.sigma k ≤ r.sigma (k + 1)) ∨ (∀ k, 1 ≤ k → k < r.nlevi → r.sigma (k + 1) ≤ r.sigma k)

end Spec

theorem strict_mono_sigma {r : SReq} (h : Strict r.nlevi r.sigma) : MonoSigma r := by
  rcases h with h | h
  · exact Or.inl fun k h1 h2 => le_of_lt (h k h1 h2)
  · exact Or.inr fun k h1 h2 => le_of_lt (h k h1 h2)

/-- The guard on the source coordinate. -/
theorem guard_iff (r : SReq) : (((List.range' 1 (r.nlevi - 1)).all fun k => decide (r.sigma k ≤ r.sigma (k + 1))) ||
    ((List.range' 1 (r.nlevi - 1)).all fun k => decide (r.sigma (k + 1) ≤ r.sigma k)) || decide (r.nlevi ≤ 1)) = true ↔ MonoSigma r := by
  rw [Bool.or_eq_true, Bool.or_eq_true, List.all_eq_true, List.all_eq_true, decide_eq_true_eq]
  simp only [List.mem_range'_1, decide_eq_true_eq]
  constructor
  · rintro ((h | h) | h)
    · exact Or.inl fun k h1 h2 => h k ⟨h1, by omega⟩
    · exact Or.inr fun k h1 h2 => h k ⟨h1, by omega⟩
    · exact Or.inl fun k h1 h2 => by omega
  · rintro (h | h)
    · exact Or.inl (Or.inl fun k hk => h k hk.1 (by omega))
    · exact Or.inl (Or.inr fun k hk => h k hk.1 (by omega))

theorem sigma_run (al : Bool) (empty : ℕ → ℝ) (r : SReq) (hn : 1 ≤ r.nlevi) (hm : MonoSigma r) :
    ∃ out, sigmaToHybrid al empty r = .ok out ∧ ∀ o k i, SEntry r o k i → out o k i = decode (sigRaw r o k i) := by
  rw [sigmaToHybrid]
  simp only []
  rw [if_pos ((guard_iff r).2 hm)]
  generalize hf : (List.range r.nouter).all (fun o => (List.range r.ninner).all fun i => (r.ps o i).isSome) = fin
  by_cases hc : (al && fin) = true
  · rw [if_pos hc]
    have hfin : ∀ o < r.nouter, ∀ i < r.ninner, (r.ps o i).isSome := by
      have : fin = true := by revert hc; cases al <;> simp
      rw [this] at hf
      simpa using hf
    obtain ⟨out, e, h⟩ := sigmaCorder_eq r empty hn hfin
    rw [e]; exact ⟨out, rfl, fun o k i ⟨a, b, c, d⟩ => h o k i a b c d⟩
  · rw [if_neg hc]
    obtain ⟨out, e, h⟩ := sigmaGeneric_eq r empty
    rw [e]; exact ⟨out, rfl, fun o k i ⟨a, b, c, d⟩ => h o k i a b c d⟩

theorem sigma_run' {al : Bool} {empty : ℕ → ℝ} {r : SReq} (hn : 1 ≤ r.nlevi) (hm : MonoSigma r) {out : ℕ → ℕ → ℕ → Option ℝ}
    (hr : sigmaToHybrid al empty r = .ok out) {o k i : ℕ} (he : SEntry r o k i) : out o k i = decode (sigRaw r o k i) := by
  obtain ⟨out', e, h⟩ := sigma_run al empty r hn hm
  rw [hr] at e
  cases e
  exact h o k i he

theorem target_eq {r : SReq} {s : ℝ} (hs : 0 < s) (k : ℕ) : r.hyam k * r.p0 / s + r.hybm k = targetSigma r s k := by
  unfold targetSigma
  have : s ≠ 0 := ne_of_gt hs
  field_simp

/-- C76. The source sigma levels must be monotonic: otherwise the call raises. On monotonic levels it succeeds, and a column with a
non-finite surface pressure is missing. -/
theorem C76_errors (al : Bool) (empty : ℕ → ℝ) (r : SReq) (hn : 1 ≤ r.nlevi) :
    (¬ MonoSigma r → sigmaToHybrid al empty r = .error .notMonotonic) ∧
    (MonoSigma r → ∃ out, sigmaToHybrid al empty r = .ok out ∧ ∀ o k i, SEntry r o k i → r.ps o i = none → out o k i = none) := by
  constructor
  · intro h
    rw [sigmaToHybrid]
    simp only []
    rw [if_neg (fun hg => h ((guard_iff r).1 hg))]
  · intro h
    obtain ⟨out, e, hv⟩ := sigma_run al empty r hn h
    refine ⟨out, e, fun o k i he hp => ?_⟩
    rw [hv o k i he, sigRaw, hp]
    exact decode_spvl

/-- C76. A target level whose sigma is outside the range of the source levels is missing: nothing is extrapolated. -/
theorem C76_outside {al : Bool} {empty : ℕ → ℝ} {r : SReq} {out : ℕ → ℕ → ℕ → Option ℝ} (hn : 1 ≤ r.nlevi) (hm : MonoSigma r)
    (hr : sigmaToHybrid al empty r = .ok out) {o k i : ℕ} (he : SEntry r o k i) {s : ℝ} (hs : r.ps o i = some s) (hpos : 0 < s)
    (ho : (∀ j, 1 ≤ j → j ≤ r.nlevi → targetSigma r s k < r.sigma j) ∨ (∀ j, 1 ≤ j → j ≤ r.nlevi → r.sigma j < targetSigma r s k)) :
    out o k i = none := by
  rw [sigma_run' hn hm hr he, sigRaw, hs]
  simp only []
  rw [target_eq hpos, sigVal]
  split
  · exact decode_spvl
  · rw [if_pos]
    · exact decode_spvl
    · split
      · rw [decide_eq_true_eq]
        rcases ho with h | h
        · exact Or.inl (h 1 le_rfl hn)
        · exact Or.inr (h _ hn le_rfl)
      · rw [decide_eq_true_eq]
        rcases ho with h | h
        · exact Or.inr (h _ hn le_rfl)
        · exact Or.inl (h 1 le_rfl hn)

/-- Value inside a bracket, when the coordinate is defined. -/
theorem sigVal_in (m : Method) {n : ℕ} {x sig : ℕ → ℝ} {spv t : ℝ} (hn : 2 ≤ n) (hs : Strict n sig) (hd : ∀ k, 1 ≤ k → k ≤ n → Dom m (sig k))
    {j : ℕ} (hj : 1 ≤ j) (hjn : j < n) (hb : Between (sig j) (sig (j + 1)) t) :
    sigVal m.intyp n x sig spv t = interpValue m.intyp (x j) (x (j + 1)) t (sig j) (sig (j + 1)) spv := by
  have hf := strict_flag hn hs
  have hlt := strict_lt hf
  have hv := valid_of_between hn hs hj hjn hb
  have hdt := dom_of_between (hd j hj (by omega)) (hd (j + 1) (by omega) (by omega)) hb
  unfold sigVal
  rw [if_neg (by omega)]
  obtain ⟨kp, e, b1, b2, b3⟩ := locate_range t sig (decide (sig 1 ≤ sig n)) hn
  have hu := pairValue_unique m (x := x) (spv := spv) hf hd (b3 (dle_of_strict hf)) hv
  rw [pairValue_ok b1 b2, pairValue_ok hv.1 hv.2.1] at hu
  rw [e]
  generalize decide (sig 1 ≤ sig n) = asc at *
  rw [if_neg]
  · simp only []
    rw [if_neg]
    · exact Option.some.inj hu
    · rintro ⟨h2, h⟩
      cases m
      · simp [Method.intyp] at h2
      · have k1 : 0 < sig kp := hd kp b1 (by omega)
        have k2 : 0 < sig (kp + 1) := hd (kp + 1) (by omega) (by omega)
        have k3 : 0 < t := hdt
        rcases h with h | h | h <;> linarith
      · simp [Method.intyp] at h2
  · have c1 : asc = true → sig 1 ≤ sig j ∧ sig (j + 1) ≤ sig n := by
      rintro rfl
      simp only [if_true] at hlt
      constructor
      · rcases Nat.lt_or_ge 1 j with h | h
        · exact le_of_lt (hlt 1 j le_rfl h (by omega))
        · rw [show j = 1 by omega]
      · rcases Nat.lt_or_ge (j + 1) n with h | h
        · exact le_of_lt (hlt (j + 1) n (by omega) h le_rfl)
        · rw [show j + 1 = n by omega]
    have c2 : asc = false → sig j ≤ sig 1 ∧ sig n ≤ sig (j + 1) := by
      rintro rfl
      simp only [Bool.false_eq_true, if_false] at hlt
      constructor
      · rcases Nat.lt_or_ge 1 j with h | h
        · exact le_of_lt (hlt 1 j le_rfl h (by omega))
        · rw [show j = 1 by omega]
      · rcases Nat.lt_or_ge (j + 1) n with h | h
        · exact le_of_lt (hlt (j + 1) n (by omega) h le_rfl)
        · rw [show j + 1 = n by omega]
    have hst := hlt j (j + 1) hj (by omega) (by omega)
    obtain ⟨q1, q2⟩ := hb
    cases asc
    · obtain ⟨d1, d2⟩ := c2 rfl
      simp only [Bool.false_eq_true, if_false] at hst ⊢
      rw [min_eq_right (le_of_lt hst)] at q1
      rw [max_eq_left (le_of_lt hst)] at q2
      rw [decide_eq_true_eq]
      rintro (h | h) <;> linarith
    · obtain ⟨d1, d2⟩ := c1 rfl
      simp only [if_true] at hst ⊢
      rw [min_eq_left (le_of_lt hst)] at q1
      rw [max_eq_right (le_of_lt hst)] at q2
      rw [decide_eq_true_eq]
      rintro (h | h) <;> linarith

theorem onLine_sigma (m : Method) {xl xu t pl pu spv : ℝ} (hl : Dom m pl) (hu : Dom m pu) (ht : Dom m t) (hne : pl ≠ pu) :
    OnLine (coordS m pl) xl (coordS m pu) xu (coordS m t) (interpValue m.intyp xl xu t pl pu spv) := by
  have hk : ∀ x, coordS m x = kcoord m x := by intro x; cases m <;> rfl
  rw [interpValue_eq m hl hu ht, hk, hk, hk]
  have hd : kcoord m pu - kcoord m pl ≠ 0 := sub_ne_zero.2 (kcoord_ne hl hu hne).symm
  unfold OnLine
  field_simp
  ring

/-- C76. A target level between two adjacent source levels gets the value on the line through them (in the method's coordinate), between
their values. -/
theorem C76_on_line {al : Bool} {empty : ℕ → ℝ} {r : SReq} {out : ℕ → ℕ → ℕ → Option ℝ} (hn : 2 ≤ r.nlevi) (hst : Strict r.nlevi r.sigma)
    (hd : ∀ k, 1 ≤ k → k ≤ r.nlevi → Dom r.method (r.sigma k)) (hr : sigmaToHybrid al empty r = .ok out) {o k i : ℕ} (he : SEntry r o k i)
    {s : ℝ} (hs : r.ps o i = some s) (hpos : 0 < s) {j : ℕ} (hj : 1 ≤ j) (hjn : j < r.nlevi)
    (hb : Between (r.sigma j) (r.sigma (j + 1)) (targetSigma r s k)) (hx : spvl < r.data o j i) (hx' : spvl < r.data o (j + 1) i) :
    ∃ v, out o k i = some v ∧
      OnLine (coordS r.method (r.sigma j)) (r.data o j i) (coordS r.method (r.sigma (j + 1))) (r.data o (j + 1) i)
        (coordS r.method (targetSigma r s k)) v ∧
      Between (r.data o j i) (r.data o (j + 1) i) v := by
  have hne : r.sigma j ≠ r.sigma (j + 1) := by
    intro h
    have := strict_inj hst hj (by omega) (by omega) (by omega) h
    omega
  have e : sigRaw r o k i = interpValue r.method.intyp (r.data o j i) (r.data o (j + 1) i) (targetSigma r s k) (r.sigma j) (r.sigma (j + 1)) spvl := by
    rw [sigRaw, hs]
    simp only []
    rw [target_eq hpos, sigVal_in r.method hn hst hd hj hjn hb]
  have hbt := between_value r.method (xl := r.data o j i) (xu := r.data o (j + 1) i) (spv := spvl) (hd j hj (by omega))
    (hd (j + 1) (by omega) (by omega)) hne hb
  refine ⟨_, ?_, onLine_sigma r.method (hd j hj (by omega)) (hd (j + 1) (by omega) (by omega))
    (dom_of_between (hd j hj (by omega)) (hd (j + 1) (by omega) (by omega)) hb) hne, hbt⟩
  rw [sigma_run' (by omega) (strict_mono_sigma hst) hr he, e, decode_of_ne]
  have := hbt.1
  have h2 : spvl < min (r.data o j i) (r.data o (j + 1) i) := lt_min hx hx'
  exact ne_of_gt (by linarith)

/-- C76. With the logarithmic method a target at a non-positive sigma is missing, never the result of a logarithm of a non-positive
number. -/
theorem C76_log_missing {al : Bool} {empty : ℕ → ℝ} {r : SReq} {out : ℕ → ℕ → ℕ → Option ℝ} (hn : 1 ≤ r.nlevi) (hm : MonoSigma r)
    (hlog : r.method = .log) (hr : sigmaToHybrid al empty r = .ok out) {o k i : ℕ} (he : SEntry r o k i) {s : ℝ} (hs : r.ps o i = some s)
    (hpos : 0 < s) (ht : targetSigma r s k ≤ 0) : out o k i = none := by
  rw [sigma_run' hn hm hr he, sigRaw, hs]
  simp only []
  rw [target_eq hpos, sigVal, hlog]
  split
  · exact decode_spvl
  · generalize (if decide (r.sigma 1 ≤ r.sigma r.nlevi) = true then decide (targetSigma r s k < r.sigma 1 ∨ r.sigma r.nlevi < targetSigma r s k)
      else decide (r.sigma 1 < targetSigma r s k ∨ targetSigma r s k < r.sigma r.nlevi)) = b
    cases b
    swap
    · exact decode_spvl
    · rw [if_neg (by simp)]
      cases locate (targetSigma r s k) r.nlevi r.sigma (decide (r.sigma 1 ≤ r.sigma r.nlevi)) with
      | none => exact decode_spvl
      | some kp =>
        simp only []
        rw [if_pos (⟨rfl, Or.inl ht⟩ : Method.log.intyp = 2 ∧ _)]
        exact decode_spvl

/-- C76. Likewise a target strictly inside a layer one of whose bounding sigma levels is not positive. -/
theorem C76_log_layer {al : Bool} {empty : ℕ → ℝ} {r : SReq} {out : ℕ → ℕ → ℕ → Option ℝ} (hn : 2 ≤ r.nlevi) (hst : Strict r.nlevi r.sigma)
    (hlog : r.method = .log) (hr : sigmaToHybrid al empty r = .ok out) {o k i : ℕ} (he : SEntry r o k i) {s : ℝ} (hs : r.ps o i = some s)
    (hpos : 0 < s) {j : ℕ} (hj : 1 ≤ j) (hjn : j < r.nlevi) (hb : Between (r.sigma j) (r.sigma (j + 1)) (targetSigma r s k))
    (hne1 : targetSigma r s k ≠ r.sigma j) (hne2 : targetSigma r s k ≠ r.sigma (j + 1)) (hz : r.sigma j ≤ 0 ∨ r.sigma (j + 1) ≤ 0) :
    out o k i = none := by
  rw [sigma_run' (by omega) (strict_mono_sigma hst) hr he, sigRaw, hs]
  simp only []
  rw [target_eq hpos, sigVal, hlog]
  split
  · exact decode_spvl
  · generalize (if decide (r.sigma 1 ≤ r.sigma r.nlevi) = true then decide (targetSigma r s k < r.sigma 1 ∨ r.sigma r.nlevi < targetSigma r s k)
      else decide (r.sigma 1 < targetSigma r s k ∨ targetSigma r s k < r.sigma r.nlevi)) = b
    cases b
    swap
    · exact decode_spvl
    · rw [if_neg (by simp)]
      have hf := strict_flag hn hst
      have hv := valid_of_between hn hst hj hjn hb
      obtain ⟨kp, e, b1, b2, b3⟩ := locate_range (targetSigma r s k) r.sigma (decide (r.sigma 1 ≤ r.sigma r.nlevi)) hn
      have hv' := b3 (dle_of_strict hf)
      have : kp = j := by
        rcases lt_trichotomy kp j with h | h | h
        · obtain ⟨h1, h2⟩ := valid_two hf hv' hv h
          rw [← h1] at h2
          exact absurd h2 hne1
        · exact h
        · obtain ⟨h1, h2⟩ := valid_two hf hv hv' h
          exact absurd h2 hne2
      rw [e, this]
      simp only []
      rw [if_pos (⟨rfl, Or.inr hz⟩ : Method.log.intyp = 2 ∧ _)]
      exact decode_spvl

/-- C76. An entry depends only on its own column and target level: not on the path, the layout or the output buffer. -/
theorem C76_local {al al' : Bool} {empty empty' : ℕ → ℝ} {r r' : SReq} {out out' : ℕ → ℕ → ℕ → Option ℝ} (hn : 1 ≤ r.nlevi)
    (hm : MonoSigma r) (hr : sigmaToHybrid al empty r = .ok out) (hr' : sigmaToHybrid al' empty' r' = .ok out')
    {o k i o' k' i' : ℕ} (he : SEntry r o k i) (he' : SEntry r' o' k' i')
    (hnl : r'.nlevi = r.nlevi) (hsig : r'.sigma = r.sigma) (hp0 : r'.p0 = r.p0) (hmth : r'.method = r.method)
    (hps : r'.ps o' i' = r.ps o i) (ha : r'.hyam k' = r.hyam k) (hb : r'.hybm k' = r.hybm k) (hdat : ∀ j, r'.data o' j i' = r.data o j i) :
    out' o' k' i' = out o k i := by
  have hm' : MonoSigma r' := by unfold MonoSigma; rw [hnl, hsig]; exact hm
  rw [sigma_run' hn hm hr he, sigma_run' (by omega) hm' hr' he']
  congr 1
  have hdat' : (fun k => r'.data o' k i') = fun k => r.data o k i := by funext j; exact hdat j
  unfold sigRaw
  rw [hps, hmth, hnl, hdat', hsig, hp0, ha, hb]

/-- Non-vacuity: two sigma levels, one hybrid level half way between them. -/
example : ∃ out v, sigmaToHybrid false (fun _ => 0)
    { nouter := 1, nlevi := 2, ninner := 1, nlevo := 1, data := fun _ k _ => (k : ℝ), sigma := fun k => (k : ℝ), ps := fun _ _ => some 2,
      hyam := fun _ => 1, hybm := fun _ => 1, p0 := 1, method := .linear } = .ok out ∧ out 0 1 0 = some v ∧ v = 1.5 := by
  have hst : Strict 2 (fun k => (k : ℝ)) := Or.inl fun k _ _ => by push_cast; linarith
  obtain ⟨out, e, -⟩ := sigma_run false (fun _ => 0)
    { nouter := 1, nlevi := 2, ninner := 1, nlevo := 1, data := fun _ k _ => (k : ℝ), sigma := fun k => (k : ℝ), ps := fun _ _ => some 2,
      hyam := fun _ => 1, hybm := fun _ => 1, p0 := 1, method := .linear } (by simp) (strict_mono_sigma hst)
  obtain ⟨v, hv, hl, -⟩ := C76_on_line (o := 0) (k := 1) (i := 0) (s := 2) (j := 1) (by simp) hst (fun _ _ _ => by exact trivial) e
    ⟨by simp, le_rfl, by simp, by simp⟩ rfl (by norm_num) le_rfl (by simp) (by simp [Between, targetSigma]; norm_num)
    (by simp; linarith [spvl_neg]) (by simp; linarith [spvl_neg])
  refine ⟨out, v, e, hv, ?_⟩
  simp [OnLine, coordS, targetSigma] at hl
  norm_num at hl
  linarith

end Skyborn.Hybrid
