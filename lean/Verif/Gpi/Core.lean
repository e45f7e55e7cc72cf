/-
The solver (tropical_cyclone_potential_intensity.f90:596-825): which levels matter, and what it returns.
-/
import Verif.Gpi.Cape

namespace Skyborn.Gpi

open Classical

/-! ### Levels that do not matter -/

/-- The same values on the first `n` levels. -/
def Agree {α : Type} (n : ℕ) (f g : ℕ → α) : Prop := ∀ i, 1 ≤ i → i ≤ n → f i = g i

theorem Agree.mono {α : Type} {n m : ℕ} {f g : ℕ → α} (h : Agree n f g) (hm : m ≤ n) : Agree m f g := fun i a b => h i a (b.trans hm)

theorem moist_congr {e e' : Env} (sig r lcl s : ℝ) {n : ℕ} (ht : Agree n e.t e'.t) (hp : Agree n e.p e'.p) (hr : Agree n e.r e'.r) (left : ℕ) :
    ∀ (level : ℕ) (d d' : ℕ → ℝ), 1 ≤ level → level + left = n + 1 → Agree n d d' →
      (moistLoop e sig r lcl s left level d = none ∧ moistLoop e' sig r lcl s left level d' = none) ∨
      ∃ x x', moistLoop e sig r lcl s left level d = some x ∧ moistLoop e' sig r lcl s left level d' = some x' ∧ Agree n x x' := by
  induction left with
  | zero => exact fun level d d' _ _ h => Or.inr ⟨d, d', rfl, rfl, h⟩
  | succ left ih =>
    intro level d d' h1 h2 h
    rw [moistLoop, moistLoop, ← ht level h1 (by omega), ← hp level h1 (by omega), ← hr level h1 (by omega)]
    by_cases c1 : e.p level < 50
    · rw [if_pos c1, if_pos c1]
      exact Or.inr ⟨d, d', rfl, rfl, h⟩
    · rw [if_neg c1, if_neg c1]
      by_cases c2 : e.p level < lcl
      · rw [if_pos c2, if_pos c2]
        cases newton r (e.p level) s 500 0 (e.t level) (satPressure (e.t level - 273.15)) with
        | none => exact Or.inl ⟨rfl, rfl⟩
        | some c =>
          refine ih _ _ _ (by omega) (by omega) fun i a b => ?_
          by_cases g : i = level
          · subst g
            rw [Function.update_self, Function.update_self]
          · rw [Function.update_of_ne g, Function.update_of_ne g, h i a b]
      · rw [if_neg c2, if_neg c2]
        exact ih _ _ _ (by omega) (by omega) h

theorem neutral_congr {d d' : ℕ → ℝ} (n : ℕ) (h : Agree n d d') : neutral d n = neutral d' n := by
  induction n with
  | zero => rfl
  | succ n ih => rw [neutral, neutral, ← h (n + 1) (by omega) le_rfl, ih (h.mono (by omega))]

theorem areas_congr {e e' : Env} (p : ℝ) {d d' : ℕ → ℝ} {n : ℕ} (k : ℕ) (hn : 1 ≤ n) (hk : k ≤ n) (hp : Agree n e.p e'.p) (h : Agree n d d') : areas e p d k = areas e' p d' k := by
  unfold areas
  dsimp only
  rw [← hp 1 le_rfl hn, ← h 1 le_rfl hn]
  have : ∀ l ∈ List.range' 2 (k - 1), (d l + d (l - 1)) * layerFactor e.p l = (d' l + d' (l - 1)) * layerFactor e'.p l := by
    intro l hl
    rw [List.mem_range'_1] at hl
    unfold layerFactor
    rw [h l (by omega) (by omega), h (l - 1) (by omega) (by omega), hp l (by omega) (by omega), hp (l - 1) (by omega) (by omega)]
  congr 2
  · congr 1
    exact List.map_congr_left fun l hl => by rw [this l hl]
  · congr 1
    exact List.map_congr_left fun l hl => by rw [this l hl]

theorem integrate_congr {e e' : Env} (p : ℝ) {d d' : ℕ → ℝ} (hn : 1 ≤ e.n) (en : e.n = e'.n) (ht : Agree e.n e.t e'.t) (hp : Agree e.n e.p e'.p) (h : Agree e.n d d') :
    integrate e p d = integrate e' p d' := by
  unfold integrate
  dsimp only
  rw [← en, ← neutral_congr e.n h, ← ht 1 le_rfl hn]
  have hk : 1 ≤ neutral d e.n ∧ neutral d e.n ≤ e.n := by
    rcases neutral_spec d e.n with ⟨a, _⟩ | ⟨_, b⟩
    · omega
    · exact ⟨b.1, b.2.1⟩
  generalize neutral d e.n = k at hk
  by_cases c1 : k = 1
  · rw [if_pos c1, if_pos c1]
  · rw [if_neg c1, if_neg c1, ← areas_congr p k hn hk.2 hp h, ← ht k hk.1 hk.2, ← hp k hk.1 hk.2]
    by_cases c2 : k < e.n
    · rw [if_pos c2, if_pos c2, ← hp (k + 1) (by omega) c2, ← ht (k + 1) (by omega) c2]
      have : crossing e d k = crossing e' d' k := by
        unfold crossing
        rw [hp k hk.1 hk.2, hp (k + 1) (by omega) c2, h k hk.1 hk.2, h (k + 1) (by omega) c2]
      rw [this, h k hk.1 hk.2]
    · rw [if_neg c2, if_neg c2]

theorem cape_congr {e e' : Env} (sig t r p : ℝ) (hn : 1 ≤ e.n) (en : e.n = e'.n) (ht : Agree e.n e.t e'.t) (hp : Agree e.n e.p e'.p) (hr : Agree e.n e.r e'.r) :
    cape e sig t r p = cape e' sig t r p := by
  unfold cape
  rw [← ht 1 le_rfl hn, ← hp 1 le_rfl hn, ← en]
  have hd : Agree e.n (dryDiff e t r p (condensation t r p)) (dryDiff e' t r p (condensation t r p)) := by
    intro i a b
    unfold dryDiff
    rw [ht i a b, hp i a b, hr i a b]
  by_cases c1 : r < 1.0e-6 ∨ t < 200
  · rw [if_pos c1, if_pos c1]
  · rw [if_neg c1, if_neg c1]
    by_cases c2 : p ≤ 0 ∨ 1669 - 122 * humidity t r p - t = 0
    · rw [if_pos c2, if_pos c2]
    · rw [if_neg c2, if_neg c2]
      rcases moist_congr sig r (condensation t r p) (reversibleEntropy t r p) ht hp hr e.n 1 _ _ le_rfl (by omega) hd with ⟨a, b⟩ | ⟨x, x', a, b, c⟩
      · rw [a, b]
      · rw [a, b]
        exact integrate_congr p hn en ht hp c

theorem nearest_bounds (p : ℕ → ℝ) (n : ℕ) : 1 ≤ nearest p n ∧ nearest p n ≤ max 1 n := by
  match n with
  | 0 => exact ⟨le_rfl, le_max_left _ _⟩
  | 1 => exact ⟨le_rfl, le_max_left _ _⟩
  | n + 2 =>
    have := nearest_bounds p (n + 1)
    rw [nearest]
    split_ifs
    · omega
    · omega

theorem nearest_congr {p p' : ℕ → ℝ} (n : ℕ) (h : Agree n p p') : nearest p n = nearest p' n := by
  match n with
  | 0 => rfl
  | 1 => rfl
  | n + 2 =>
    rw [nearest, nearest, nearest_congr (n + 1) (h.mono (by omega)), h (n + 2) (by omega) le_rfl]
    have b := nearest_bounds p' (n + 1)
    rw [h (nearest p' (n + 1)) b.1 (by omega)]

theorem pass_congr {c c' : Column} (hc : ∀ t r p, cape c.env 0 t r p = cape c'.env 0 t r p) (ht : c.t 1 = c'.t 1) (hr : c.env.r 1 = c'.env.r 1) (h1 : c.sst = c'.sst)
    (h2 : c.psl = c'.psl) (h3 : c.source = c'.source) (pm : ℝ) : c.pass pm = c'.pass pm := by
  unfold Column.pass
  simp only [hc, ht, hr, h1, h2, h3]

theorem iterate_congr {c c' : Column} (hc : ∀ t r p, cape c.env 0 t r p = cape c'.env 0 t r p) (ht : c.t 1 = c'.t 1) (hr : c.env.r 1 = c'.env.r 1) (h1 : c.sst = c'.sst)
    (h2 : c.psl = c'.psl) (h3 : c.source = c'.source) (h4 : c.ckcd = c'.ckcd) (a : ℝ) (left : ℕ) : ∀ (pm : ℝ) (out : ℝ × ℝ), c.iterate a left pm out = c'.iterate a left pm out := by
  have hm : ∀ q, c.meanTemp q = c'.meanTemp q := fun q => by unfold Column.meanTemp; rw [ht, hr, h1]
  have hp : ∀ w q, c.pressure a w q = c'.pressure a w q := fun w q => by unfold Column.pressure; rw [hm, h1, h2]
  have hf : ∀ q, c.finish a q = c'.finish a q := fun q => by
    unfold Column.finish
    simp only [hp, h1, h4]
  have he : ∀ o f, c.early o f = c'.early o f := fun o f => by unfold Column.early; rw [h2, h4]
  induction left with
  | zero =>
    intro pm out
    rw [Column.iterate, Column.iterate]
    simp only [pass_congr hc ht hr h1 h2 h3, hp, hf, he, h4]
  | succ left ih =>
    intro pm out
    rw [Column.iterate, Column.iterate]
    simp only [pass_congr hc ht hr h1 h2 h3, hp, hf, he, h4, ih]

/-- The solver only looks at the levels that are below the one nearest to 50 mb (and at the first), and at all the pressures. -/
theorem core_congr {c c' : Column} (hn : c.n = c'.n) (hp : Agree c.n c.p c'.p) (ht : Agree (max 1 (nearest c.p c.n - 1)) c.t c'.t)
    (hr : Agree (max 1 (nearest c.p c.n - 1)) c.r c'.r) (h1 : c.sst = c'.sst) (h2 : c.psl = c'.psl) (h3 : c.source = c'.source) (h4 : c.ckcd = c'.ckcd) :
    core c = core c' := by
  unfold core
  by_cases h0 : c.n = 0 ∨ ∃ i, 1 ≤ i ∧ i ≤ c.n ∧ c.p i ≤ 0
  · have h0' : c'.n = 0 ∨ ∃ i, 1 ≤ i ∧ i ≤ c'.n ∧ c'.p i ≤ 0 := by
      rw [← hn]
      rcases h0 with h0 | ⟨i, a, b, d⟩
      · exact Or.inl h0
      · exact Or.inr ⟨i, a, b, by rw [← hp i a b]; exact d⟩
    rw [if_pos h0, if_pos h0']
  · have h0' : ¬ (c'.n = 0 ∨ ∃ i, 1 ≤ i ∧ i ≤ c'.n ∧ c'.p i ≤ 0) := by
      rw [← hn]
      intro g
      rcases g with g | ⟨i, a, b, d⟩
      · exact h0 (Or.inl g)
      · exact h0 (Or.inr ⟨i, a, b, by rw [hp i a b]; exact d⟩)
    rw [if_neg h0, if_neg h0']
    have hpos : 1 ≤ c.n := by
      push Not at h0
      omega
    have hb := nearest_bounds c.p c.n
    have en : c.env.n = c'.env.n := by
      unfold Column.env
      dsimp only
      rw [← hn, nearest_congr c.n hp]
    have hc : ∀ t r p, cape c.env 0 t r p = cape c'.env 0 t r p := by
      intro t r p
      refine cape_congr 0 t r p (le_max_left _ _) en ht (hp.mono ?_) fun i a b => ?_
      · show max 1 (nearest c.p c.n - 1) ≤ c.n
        omega
      · show max (c.r i) 0 = max (c'.r i) 0
        rw [hr i a b]
    have ht1 := ht 1 le_rfl (le_max_left _ _)
    have hr1 : c.env.r 1 = c'.env.r 1 := by
      show max (c.r 1) 0 = max (c'.r 1) 0
      rw [hr 1 le_rfl (le_max_left _ _)]
    rw [hc, ht1, hr1, hp 1 le_rfl hpos]
    have he : ∀ o f, c.early o f = c'.early o f := fun o f => by unfold Column.early; rw [h2, h4]
    simp only [he, iterate_congr hc ht1 hr1 h1 h2 h3 h4]

/-! ### What the solver returns -/

/-- The solution of the solver for a column `c` (`r1` the mixing ratio of the lowest level, at least zero): the environmental CAPE `a`, a central pressure `pm`
at which the CAPE of the lowest-level air `m` and of saturated air at the temperature of the sea `s` are computed (at most 1000 mb), and which the
pressure that follows from them meets within 0.5 mb; minimum pressure and wind follow from the same CAPE values. -/
structure Spec.Solved (c : Column) (a m s : Cape) (pm : ℝ) (t0 otl pmin vmax : ℝ) : Prop where
  env : cape c.env 0 (c.t 1) (max (c.r 1) 0) (c.p 1) = some a ∧ a.flag = 1
  radius : cape c.env 0 (c.t 1) (eps * max (c.r 1) 0 * c.psl / (min pm 1000 * (eps + max (c.r 1) 0) - max (c.r 1) 0 * c.psl)) (min pm 1000) = some m ∧ m.flag = 1
  sea : cape c.env 0 c.sst (satMixing (satPressure (c.sst - 273.15)) (min pm 1000)) (min pm 1000) = some s ∧ s.flag = 1
  start : pm = 970 ∨ 400 ≤ pm
  outflow : if c.source = 1 then t0 = m.tout ∧ otl = m.lout else t0 = s.tout ∧ otl = s.lout
  fixed : ∀ tv, tv = (virtualTemp (c.t 1) (max (c.r 1) 0) + virtualTemp c.sst (satMixing (satPressure (c.sst - 273.15)) (min pm 1000))) / 2 → 0 < tv ∧
    400 ≤ c.psl * Real.exp (-max (m.value - a.value + 0.45 * (c.sst / t0) * (s.value - m.value)) 0 / (rd * tv)) ∧
    |c.psl * Real.exp (-max (m.value - a.value + 0.45 * (c.sst / t0) * (s.value - m.value)) 0 / (rd * tv)) - pm| ≤ 0.5 ∧
    pmin = c.psl * Real.exp (-max (m.value - a.value + 0.675 * (c.sst / t0) * (s.value - m.value)) 0 / (rd * tv))
  wind : 0 ≤ vmax ∧ vmax ^ 2 = 0.64 * 0.9 * (c.sst / t0) * max 0 (s.value - m.value)

/-- The logarithmic terms: absent (`undef`) when the logarithm does not exist. -/
structure Spec.Logs (c : Column) (res : Res) : Prop where
  pi : res.lnpi = if 0 < res.vmax then Real.log (res.vmax ^ 2) else undef
  eff : res.lneff = if 0 < res.tout ∧ res.tout < c.sst then Real.log ((c.sst - res.tout) / res.tout) else undef
  ratio : res.lnckcd = if 0 < c.ckcd then Real.log c.ckcd else undef
  diseq : res.lndiseq = if 0 < res.vmax ∧ (0 < res.tout ∧ res.tout < c.sst) ∧ 0 < c.ckcd then res.lnpi - res.lneff - res.lnckcd else undef

theorem cape_sane {e : Env} {sig t r p : ℝ} {c : Cape} (h : cape e sig t r p = some c) (hf : c.flag = 1) : ¬ (r < 1.0e-6 ∨ t < 200) := by
  intro g
  have := (C190_refused h).mpr g
  omega

theorem virtualTemp_pos {t r : ℝ} (ht : 0 < t) (hr : 0 ≤ r) : 0 < virtualTemp t r := by
  unfold virtualTemp
  have := eps_pos
  positivity

theorem pass_inv {c : Column} {pm : ℝ} {q : Pass} (h : c.pass pm = some (.ok q)) : ∃ m s,
    (cape c.env 0 (c.t 1) (eps * max (c.r 1) 0 * c.psl / (min pm 1000 * (eps + max (c.r 1) 0) - max (c.r 1) 0 * c.psl)) (min pm 1000) = some m ∧ m.flag = 1) ∧
    (cape c.env 0 c.sst (satMixing (satPressure (c.sst - 273.15)) (min pm 1000)) (min pm 1000) = some s ∧ s.flag = 1) ∧
    q = ⟨m.value, s.value, if c.source = 1 then (m.tout, m.lout) else (s.tout, s.lout), satMixing (satPressure (c.sst - 273.15)) (min pm 1000)⟩ := by
  unfold Column.pass at h
  dsimp only at h
  by_cases h1 : min pm 1000 * (eps + c.env.r 1) - c.env.r 1 * c.psl = 0
  · rw [if_pos h1] at h; cases h
  rw [if_neg h1] at h
  cases hm : cape c.env 0 (c.t 1) (eps * c.env.r 1 * c.psl / (min pm 1000 * (eps + c.env.r 1) - c.env.r 1 * c.psl)) (min pm 1000) with
  | none => rw [hm] at h; cases h
  | some m =>
    rw [hm] at h
    simp only [Option.bind_eq_bind, Option.bind_some] at h
    by_cases c1 : m.flag ≠ 1
    · rw [if_pos c1] at h; cases h
    · rw [if_neg c1] at h
      by_cases c2 : min pm 1000 - satPressure (c.sst - 273.15) = 0
      · rw [if_pos c2] at h; cases h
      · rw [if_neg c2] at h
        cases hs : cape c.env 0 c.sst (satMixing (satPressure (c.sst - 273.15)) (min pm 1000)) (min pm 1000) with
        | none => rw [hs] at h; cases h
        | some s =>
          rw [hs] at h
          simp only [Option.bind_some] at h
          by_cases c3 : s.flag ≠ 1
          · rw [if_pos c3] at h; cases h
          · rw [if_neg c3] at h
            cases h
            exact ⟨m, s, ⟨hm, not_not.mp c1⟩, ⟨rfl, not_not.mp c3⟩, rfl⟩

theorem pass_error {c : Column} {pm : ℝ} {f : ℕ} (h : c.pass pm = some (.error f)) : f = 0 ∨ f = 2 := by
  unfold Column.pass at h
  dsimp only at h
  by_cases h1 : min pm 1000 * (eps + c.env.r 1) - c.env.r 1 * c.psl = 0
  · rw [if_pos h1] at h; cases h
  rw [if_neg h1] at h
  cases hm : cape c.env 0 (c.t 1) (eps * c.env.r 1 * c.psl / (min pm 1000 * (eps + c.env.r 1) - c.env.r 1 * c.psl)) (min pm 1000) with
  | none => rw [hm] at h; cases h
  | some m =>
    rw [hm] at h
    simp only [Option.bind_eq_bind, Option.bind_some] at h
    by_cases c1 : m.flag ≠ 1
    · rw [if_pos c1] at h; cases h
      have := (C190_nonneg hm).2
      omega
    · rw [if_neg c1] at h
      by_cases c2 : min pm 1000 - satPressure (c.sst - 273.15) = 0
      · rw [if_pos c2] at h; cases h
      · rw [if_neg c2] at h
        cases hs : cape c.env 0 c.sst (satMixing (satPressure (c.sst - 273.15)) (min pm 1000)) (min pm 1000) with
        | none => rw [hs] at h; cases h
        | some s =>
          rw [hs] at h
          simp only [Option.bind_some] at h
          by_cases c3 : s.flag ≠ 1
          · rw [if_pos c3] at h; cases h
            have := (C190_nonneg hs).2
            omega
          · rw [if_neg c3] at h
            cases h

theorem finish_inv {c : Column} {a : ℝ} {q : Pass} {res : Res} (h : c.finish a q = some res) :
    (res.tout = q.out.1 ∧ res.lout = q.out.2 ∧ res.pmin = c.pressure a (0.9 * (0.5 * (1 + 1 / 2))) q ∧
      (0 ≤ res.vmax ∧ res.vmax ^ 2 = 0.64 * 0.9 * (c.sst / q.out.1) * max 0 (q.capes - q.capem))) ∧ res.flag = 1 ∧ Spec.Logs c res := by
  unfold Column.finish at h
  dsimp only at h
  by_cases g : 0.9 * (c.sst / q.out.1) * max 0 (q.capes - q.capem) < 0
  · rw [if_pos g] at h; cases h
  · rw [if_neg g] at h
    cases h
    push Not at g
    have hok : ((q.out.1 > 0 ∧ c.sst > q.out.1) ∧ (c.sst - q.out.1) / q.out.1 > 0) ↔ (0 < q.out.1 ∧ q.out.1 < c.sst) := by
      constructor
      · exact fun h => h.1
      · exact fun h => ⟨h, div_pos (by linarith [h.2]) h.1⟩
    refine ⟨⟨rfl, rfl, rfl, ?_, ?_⟩, rfl, ⟨?_, ?_, rfl, ?_⟩⟩
    · exact mul_nonneg (by norm_num) (Real.sqrt_nonneg _)
    · dsimp only
      rw [mul_pow, Real.sq_sqrt g]
      ring
    · dsimp only
      rw [Real.log_pow]
      rfl
    · dsimp only
      by_cases k : 0 < q.out.1 ∧ q.out.1 < c.sst
      · rw [if_pos k, if_pos (hok.mpr k)]
      · rw [if_neg k, if_neg (fun x => k (hok.mp x))]
    · dsimp only
      by_cases k : 0 < q.out.1 ∧ q.out.1 < c.sst
      · simp only [if_pos (hok.mpr k), k, hok.mpr k, true_and, and_self, gt_iff_lt]
      · rw [if_neg (fun x => k (hok.mp x.2.1)), if_neg (fun x => k x.2.1)]

/-- The three ways in which a call of the solver ends. -/
inductive Outcome (c : Column) (res : Res) : Prop
  | solved (a m s : Cape) (pm : ℝ) (h : Spec.Solved c a m s pm res.tout res.lout res.pmin res.vmax) (l : Spec.Logs c res) (hf : res.flag = 1)
  | failed (h1 : res.pmin = c.psl) (h2 : res.vmax = 0) (h3 : res.lnpi = undef ∧ res.lneff = undef ∧ res.lndiseq = undef) (hf : res.flag = 0 ∨ res.flag = 2)
    (hk : res.lnckcd = lnRatio c.ckcd)
  | diverged (h : res = ⟨undef, undef, undef, undef, undef, undef, undef, lnRatio c.ckcd, 2⟩)

theorem iterate_inv {c : Column} {a : Cape} (ha : cape c.env 0 (c.t 1) (max (c.r 1) 0) (c.p 1) = some a ∧ a.flag = 1) (left : ℕ) : ∀ (pm : ℝ) (out : ℝ × ℝ) (res : Res),
    (pm = 970 ∨ 400 ≤ pm) → c.iterate a.value left pm out = some res → Outcome c res := by
  induction left with
  | zero =>
    intro pm out res _ h
    rw [Column.iterate] at h
    cases hq : c.pass pm with
    | none => rw [hq] at h; cases h
    | some e =>
      rw [hq] at h
      simp only [Option.bind_eq_bind, Option.bind_some] at h
      cases e with
      | error f =>
        cases h
        exact .failed rfl rfl ⟨rfl, rfl, rfl⟩ (pass_error hq) rfl
      | ok q =>
        dsimp only at h
        split_ifs at h
        · cases h
          exact .diverged rfl
        · simp_all
  | succ left ih =>
    intro pm out res hpm h
    rw [Column.iterate] at h
    cases hq : c.pass pm with
    | none => rw [hq] at h; cases h
    | some e =>
      rw [hq] at h
      simp only [Option.bind_eq_bind, Option.bind_some] at h
      cases e with
      | error f =>
        cases h
        exact .failed rfl rfl ⟨rfl, rfl, rfl⟩ (pass_error hq) rfl
      | ok q =>
        dsimp only at h
        split_ifs at h with g1 g2 g3
        · cases h
          exact .diverged rfl
        · push Not at g2
          exact ih _ _ _ (Or.inr g2.2) h
        · obtain ⟨m, s, hm, hs, rfl⟩ := pass_inv hq
          push Not at g2 g3
          have t1 := cape_sane hm.1 hm.2
          have t2 := cape_sane hs.1 hs.2
          push Not at t1 t2
          refine (finish_inv h).elim fun e1 e2 => ?_
          refine .solved a m s pm ⟨ha, hm, hs, hpm, ?_, ?_, ?_⟩ e2.2 e2.1
          · rw [e1.1, e1.2.1]
            split_ifs with c1
            · exact ⟨rfl, rfl⟩
            · exact ⟨rfl, rfl⟩
          · intro tv htv
            rw [e1.1, e1.2.2.1]
            have ev : c.meanTemp ⟨m.value, s.value, if c.source = 1 then (m.tout, m.lout) else (s.tout, s.lout),
                satMixing (satPressure (c.sst - 273.15)) (min pm 1000)⟩ = tv := by
              rw [htv]
              unfold Column.meanTemp
              show 0.5 * (virtualTemp (c.t 1) (max (c.r 1) 0) + _) = _
              ring
            unfold Column.pressure at g2 g3 ⊢
            rw [ev] at g2 g3 ⊢
            dsimp only at g2 g3 ⊢
            have tpos : 0 < tv := by
              rw [htv]
              have u1 := virtualTemp_pos (t := c.t 1) (r := max (c.r 1) 0) (by linarith [t1.2]) (le_max_right _ _)
              have u2 := virtualTemp_pos (t := c.sst) (r := satMixing (satPressure (c.sst - 273.15)) (min pm 1000)) (by linarith [t2.2]) (by linarith [t2.1])
              linarith
            have es : ∀ x w : ℝ, -x * (1 / rd) / tv = -x / (rd * tv) := by
              intro x w
              have : rd ≠ 0 := by unfold rd; norm_num
              field_simp
            refine ⟨tpos, ?_, ?_, ?_⟩
            · rw [← es _ 0, show (0.45 : ℝ) = 0.5 * 0.9 by norm_num]
              exact g2.2
            · rw [← es _ 0, show (0.45 : ℝ) = 0.5 * 0.9 by norm_num]
              exact g3
            · rw [← es _ 0, show (0.675 : ℝ) = 0.9 * (0.5 * (1 + 1 / 2)) by norm_num]
          · rw [e1.1]
            exact e1.2.2.2

theorem core_outcome {c : Column} {res : Res} (h : core c = some res) : Outcome c res := by
  unfold core at h
  by_cases h0 : c.n = 0 ∨ ∃ i, 1 ≤ i ∧ i ≤ c.n ∧ c.p i ≤ 0
  · rw [if_pos h0] at h; cases h
  · rw [if_neg h0] at h
    cases ha : cape c.env 0 (c.t 1) (c.env.r 1) (c.p 1) with
    | none => rw [ha] at h; cases h
    | some a =>
      rw [ha] at h
      simp only [Option.bind_eq_bind, Option.bind_some] at h
      by_cases c1 : a.flag ≠ 1
      · rw [if_pos c1] at h; cases h
        have := (C190_nonneg ha).2
        exact .failed rfl rfl ⟨rfl, rfl, rfl⟩ (by show a.flag = 0 ∨ a.flag = 2; omega) rfl
      · rw [if_neg c1] at h
        exact iterate_inv ⟨ha, not_not.mp c1⟩ 200 970 _ res (Or.inl rfl) h

end Skyborn.Gpi
