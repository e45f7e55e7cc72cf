/-
The logarithmic decomposition.
-/
import Verif.Gpi.Levels

namespace Skyborn.Gpi

open Classical

/-! ### The ratio has no influence on the solution -/

/-- The results that do not depend on the ratio. -/
def Res.common (r : Res) : Res := { r with lndiseq := 0, lnckcd := 0 }

theorem finish_ratio (c : Column) (k a : ℝ) (q : Pass) : (Column.finish { c with ckcd := k } a q).map Res.common = (c.finish a q).map Res.common := by
  unfold Column.finish
  dsimp only
  by_cases g : 0.9 * (c.sst / q.out.1) * max 0 (q.capes - q.capem) < 0
  · rw [if_pos g, if_pos g]
  · rw [if_neg g, if_neg g]
    rfl

theorem iterate_ratio (c : Column) (k a : ℝ) (left : ℕ) : ∀ (pm : ℝ) (out : ℝ × ℝ),
    (Column.iterate { c with ckcd := k } a left pm out).map Res.common = (c.iterate a left pm out).map Res.common := by
  have hp : ∀ pm, Column.pass { c with ckcd := k } pm = c.pass pm := fun pm => rfl
  have hq : ∀ w q, Column.pressure { c with ckcd := k } a w q = c.pressure a w q := fun w q => rfl
  induction left with
  | zero =>
    intro pm out
    rw [Column.iterate, Column.iterate, hp]
    cases c.pass pm with
    | none => rfl
    | some e =>
      cases e with
      | error f => rfl
      | ok q =>
        simp only [Option.bind_eq_bind, Option.bind_some]
        by_cases h0 : q.out.1 = 0
        · rw [if_pos h0, if_pos h0]
        · rw [if_neg h0, if_neg h0, if_pos (Or.inl trivial), if_pos (Or.inl trivial)]
          rfl
  | succ m ih =>
    intro pm out
    rw [Column.iterate, Column.iterate, hp]
    cases c.pass pm with
    | none => rfl
    | some e =>
      cases e with
      | error f => rfl
      | ok q =>
        simp only [Option.bind_eq_bind, Option.bind_some]
        rw [hq]
        by_cases h0 : q.out.1 = 0
        · rw [if_pos h0, if_pos h0]
        rw [if_neg h0, if_neg h0]
        by_cases h1 : m + 1 = 0 ∨ c.pressure a (0.5 * 0.9) q < 400
        · rw [if_pos h1, if_pos h1]
          rfl
        rw [if_neg h1, if_neg h1]
        by_cases h2 : |c.pressure a (0.5 * 0.9) q - pm| > 0.5
        · rw [if_pos h2, if_pos h2]
          exact ih _ _
        · rw [if_neg h2, if_neg h2]
          exact finish_ratio c k a q

theorem core_ratio (c : Column) (k : ℝ) : (core { c with ckcd := k }).map Res.common = (core c).map Res.common := by
  unfold core
  by_cases h0 : c.n = 0 ∨ ∃ i, 1 ≤ i ∧ i ≤ c.n ∧ c.p i ≤ 0
  · rw [if_pos h0, if_pos h0]
  rw [if_neg h0, if_neg h0]
  show Option.map Res.common (cape c.env 0 (c.t 1) (c.env.r 1) (c.p 1) >>= _) = Option.map Res.common (cape c.env 0 (c.t 1) (c.env.r 1) (c.p 1) >>= _)
  cases cape c.env 0 (c.t 1) (c.env.r 1) (c.p 1) with
  | none => rfl
  | some a =>
    simp only [Option.bind_eq_bind, Option.bind_some]
    by_cases h1 : a.flag ≠ 1
    · rw [if_pos h1, if_pos h1]
      rfl
    · rw [if_neg h1, if_neg h1]
      exact iterate_ratio c k a.value 200 970 _

theorem common_eq {o o' : Option Res} (h : o.map Res.common = o'.map Res.common) :
    (o = none ∧ o' = none) ∨ ∃ r r', o = some r ∧ o' = some r' ∧ r.pmin = r'.pmin ∧ r.vmax = r'.vmax ∧ r.flag = r'.flag := by
  cases o with
  | none =>
    cases o' with
    | none => exact Or.inl ⟨rfl, rfl⟩
    | some x => cases h
  | some x =>
    cases o' with
    | none => cases h
    | some y =>
      right
      have : x.common = y.common := by
        simpa using h
      exact ⟨x, y, rfl, rfl, (show x.common.pmin = y.common.pmin by rw [this]), (show x.common.vmax = y.common.vmax by rw [this]), (show x.common.flag = y.common.flag by rw [this])⟩

theorem profile_ratio (s q : ℝ) (p t r : ℕ → ℝ) (a source : ℕ) (k k' : ℝ) : (profile s q p t r a source k).map Res.common = (profile s q p t r a source k').map Res.common := by
  unfold profile
  by_cases c : s + -273.15 ≤ 5
  · rw [if_pos c, if_pos c]
    rfl
  · rw [if_neg c, if_neg c]
    exact core_ratio ⟨a, t, p, r, s, q * 0.01, source, k'⟩ k

theorem map_flag {o o' : Option Res} (h : o.map Res.common = o'.map Res.common) :
    ((o.map fun res => (res, some res.flag)).map fun x => (x.1.common, x.2)) = ((o'.map fun res => (res, some res.flag)).map fun x => (x.1.common, x.2)) := by
  rcases common_eq h with ⟨rfl, rfl⟩ | ⟨r, r', rfl, rfl, _, _, hf⟩
  · rfl
  · have : r.common = r'.common := by simpa using h
    simp only [Option.map_some, this, hf]

theorem point_ratio (g : Grid) (source : ℕ) (k k' : ℝ) (idx : List ℕ) : ((g.point source k idx).map fun x => (x.1.common, x.2)) = ((g.point source k' idx).map fun x => (x.1.common, x.2)) := by
  unfold Grid.point
  by_cases hm : g.missing = true
  · rw [if_pos hm, if_pos hm]
    unfold pointMissing
    by_cases c1 : g.sst.get idx = undef
    · rw [if_pos c1, if_pos c1]
      rfl
    rw [if_neg c1, if_neg c1]
    by_cases c2 : g.sst.get idx + -273.15 ≤ 5
    · rw [if_pos c2, if_pos c2]
      rfl
    rw [if_neg c2, if_neg c2]
    by_cases c3 : validStart (fun k => g.t.get (column idx k)) (fun k => g.r.get (column idx k)) g.n 1 > g.n
    · rw [if_pos c3, if_pos c3]
      rfl
    rw [if_neg c3, if_neg c3]
    dsimp only
    exact map_flag (core_ratio ⟨_, _, _, _, _, _, _, k'⟩ k)
  · rw [if_neg hm, if_neg hm]
    unfold pointPlain
    by_cases c2 : g.sst.get idx + -273.15 ≤ 5
    · rw [if_pos c2, if_pos c2]
      rfl
    rw [if_neg c2, if_neg c2]
    exact map_flag (core_ratio ⟨_, _, _, _, _, _, _, k'⟩ k)

/-- Two settings of the ratio: both fail, or both have the same pressure, wind and flag. -/
theorem point_alike (g : Grid) (source : ℕ) (k k' : ℝ) (idx : List ℕ) : (g.point source k idx = none ∧ g.point source k' idx = none) ∨
    ∃ r r' f, g.point source k idx = some (r, f) ∧ g.point source k' idx = some (r', f) ∧ r.pmin = r'.pmin ∧ r.vmax = r'.vmax := by
  have h := point_ratio g source k k' idx
  cases h1 : g.point source k idx with
  | none =>
    rw [h1] at h
    cases h2 : g.point source k' idx with
    | none => exact Or.inl ⟨rfl, rfl⟩
    | some y => rw [h2] at h; cases h
  | some x =>
    rw [h1] at h
    cases h2 : g.point source k' idx with
    | none => rw [h2] at h; cases h
    | some y =>
      rw [h2] at h
      right
      obtain ⟨r, f⟩ := x
      obtain ⟨r', f'⟩ := y
      simp only [Option.map_some, Option.some.injEq, Prod.mk.injEq] at h
      obtain ⟨h, rfl⟩ := h
      exact ⟨r, r', f, rfl, rfl, (show r.common.pmin = r'.common.pmin by rw [h]), (show r.common.vmax = r'.common.vmax by rw [h])⟩

/-! ### Calls -/

/-- What a profile call returns with diagnostics. -/
noncomputable def ofRes (res : Res) : Decomposition := ⟨[], fun _ => post res.pmin, fun _ => post res.vmax, fun _ => post res.tout, fun _ => post res.lout, fun _ => post res.lnpi,
  fun _ => post res.lneff, fun _ => post res.lndiseq, post res.lnckcd, res.flag⟩

theorem log_profile {sst psl p t r : NDArr (Option ℝ)} {ckcd : ℝ} {source : String} {order : List (List ℕ)} (hd : t.shape.length = 1) {src : ℕ} (hs : sourceFlag source = .ok src) :
    piLogDecomposition sst psl p t r ckcd source order = (profileCall sst psl p t r none src ckcd).map ofRes := by
  unfold piLogDecomposition profileCall
  rw [if_pos hd, hs]
  cases scalar sst with
  | error e => rfl
  | ok s =>
  cases scalar psl with
  | error e => rfl
  | ok q =>
  cases prepareProfile p t r none with
  | error e => rfl
  | ok x =>
  obtain ⟨p', t', r', a⟩ := x
  show (match profile s q p' t' r' a src ckcd with
    | none => _
    | some res => _) = Except.map ofRes (match profile s q p' t' r' a src ckcd with
    | none => _
    | some res => _)
  cases profile s q p' t' r' a src ckcd with
  | none => rfl
  | some res => rfl

/-- C200: the diagnostics leave pressure, wind and flag of a profile as they are, whatever the ratio. -/
theorem C200_same_profile {sst psl p t r : NDArr (Option ℝ)} (hd : t.shape.length = 1) (ckcd : ℝ) (order order' : List (List ℕ)) :
    (∃ e, potentialIntensity sst psl p t r none order = .error e ∧ piLogDecomposition sst psl p t r ckcd "cape_star" order' = .error e) ∨
    ∃ out d, potentialIntensity sst psl p t r none order = .ok out ∧ piLogDecomposition sst psl p t r ckcd "cape_star" order' = .ok d ∧
      out.pmin [] = d.pmin [] ∧ out.vmax [] = d.vmax [] ∧ out.flag = d.flag := by
  rw [log_profile hd (src := 0) rfl]
  unfold potentialIntensity
  rw [if_pos hd]
  have key : (∃ e, profileCall sst psl p t r none 0 0.9 = .error e ∧ profileCall sst psl p t r none 0 ckcd = .error e) ∨
      ∃ res res', profileCall sst psl p t r none 0 0.9 = .ok res ∧ profileCall sst psl p t r none 0 ckcd = .ok res' ∧ res.pmin = res'.pmin ∧ res.vmax = res'.vmax ∧ res.flag = res'.flag := by
    unfold profileCall
    cases scalar sst with
    | error e => exact Or.inl ⟨e, rfl, rfl⟩
    | ok s =>
    cases scalar psl with
    | error e => exact Or.inl ⟨e, rfl, rfl⟩
    | ok q =>
    cases prepareProfile p t r none with
    | error e => exact Or.inl ⟨e, rfl, rfl⟩
    | ok x =>
    obtain ⟨p', t', r', a⟩ := x
    show (∃ e, (match profile s q p' t' r' a 0 0.9 with
      | none => Except.error Err.unmodelled
      | some res => .ok res) = .error e ∧ (match profile s q p' t' r' a 0 ckcd with
      | none => Except.error Err.unmodelled
      | some res => .ok res) = .error e) ∨ ∃ res res', (match profile s q p' t' r' a 0 0.9 with
      | none => Except.error Err.unmodelled
      | some res => .ok res) = .ok res ∧ (match profile s q p' t' r' a 0 ckcd with
      | none => Except.error Err.unmodelled
      | some res => .ok res) = .ok res' ∧ _
    rcases common_eq (profile_ratio s q p' t' r' a 0 0.9 ckcd) with ⟨h1, h2⟩ | ⟨x, y, h1, h2, h3⟩
    · rw [h1, h2]
      exact Or.inl ⟨_, rfl, rfl⟩
    · rw [h1, h2]
      exact Or.inr ⟨x, y, rfl, rfl, h3⟩
  rcases key with ⟨e, h1, h2⟩ | ⟨x, y, h1, h2, h3, h4, h5⟩
  · rw [h1, h2]
    exact Or.inl ⟨e, rfl, rfl⟩
  · rw [h1, h2]
    refine Or.inr ⟨_, _, rfl, rfl, ?_, ?_, h5⟩
    · exact congrArg post h3
    · exact congrArg post h4

/-- An accepted call with diagnostics on a grid. -/
theorem log_inv {sst psl p t r : NDArr (Option ℝ)} {ckcd : ℝ} {source : String} {order : List (List ℕ)} {d : Decomposition} (hd : t.shape.length ≠ 1)
    (hs : Spec.Schedule (surface t.shape) order) (h : piLogDecomposition sst psl p t r ckcd source order = .ok d) :
    ∃ g src, prepareGrid sst psl p t r = .ok g ∧ sourceFlag source = .ok src ∧ d.shape = surface t.shape ∧ (t.shape.length = 3 ∨ t.shape.length = 4) ∧
      d.lnckcd = post (lnRatio (ratioUsed t.shape.length g.missing ckcd)) ∧
      (∀ idx, InB (surface t.shape) idx → ∃ res f, g.point src (ratioUsed t.shape.length g.missing ckcd) idx = some (res, f) ∧ d.pmin idx = post res.pmin ∧ d.vmax idx = post res.vmax ∧
        d.t0 idx = post res.tout ∧ d.otl idx = post res.lout ∧ d.lnpi idx = post res.lnpi ∧ d.lneff idx = post res.lneff ∧ d.lndiseq idx = post res.lndiseq) ∧
      d.flag = stickyFlag (order.map fun idx => ((g.point src (ratioUsed t.shape.length g.missing ckcd) idx).bind Prod.snd)) := by
  unfold piLogDecomposition at h
  rw [if_neg hd] at h
  by_cases h34 : t.shape.length = 3 ∨ t.shape.length = 4
  · rw [if_pos h34] at h
    obtain ⟨g, hg, h⟩ := ebind h
    obtain ⟨src, hsrc, h⟩ := ebind h
    dsimp only at h
    obtain ⟨⟨f, e⟩, ha, h⟩ := ebind h
    obtain ⟨a1, a2⟩ := all_inv ha
    cases h
    refine ⟨g, src, hg, hsrc, rfl, h34, rfl, fun idx hi => ?_, a2⟩
    obtain ⟨x, hx⟩ := a1 idx ((hs idx).mpr hi)
    exact ⟨f idx, x, hx, rfl, rfl, rfl, rfl, rfl, rfl, rfl⟩
  · rw [if_neg h34] at h
    cases h

/-- C200: nor do they change anything on a grid; in four dimensions the flag is the same, too. -/
theorem C200_same_grid {sst psl p t r : NDArr (Option ℝ)} {actual : Option ℤ} {order : List (List ℕ)} {ckcd : ℝ} {out : Intensity} {d : Decomposition} (hd : t.shape.length ≠ 1)
    (hs : Spec.Schedule (surface t.shape) order) (h : potentialIntensity sst psl p t r actual order = .ok out)
    (h' : piLogDecomposition sst psl p t r ckcd "cape_star" order = .ok d) :
    out.shape = d.shape ∧ (∀ idx, InB out.shape idx → out.pmin idx = d.pmin idx ∧ out.vmax idx = d.vmax idx) ∧ (t.shape.length = 4 → out.flag = d.flag) := by
  obtain ⟨g, hg, a1, h34, a2, a3⟩ := call_inv hd (fun _ => hs) h
  obtain ⟨g', src, hg', hsrc, b1, _, _, b2, b3⟩ := log_inv hd hs h'
  rw [hg] at hg'
  cases hg'
  cases hsrc
  refine ⟨a1.trans b1.symm, fun idx hi => ?_, fun h4 => ?_⟩
  · rw [a1] at hi
    obtain ⟨r1, f1, c1, c2, c3⟩ := a2 idx hi
    obtain ⟨r2, f2, d1, d2, d3, _⟩ := b2 idx hi
    rcases point_alike g 0 0.9 (ratioUsed t.shape.length g.missing ckcd) idx with ⟨e, _⟩ | ⟨x, y, f, e1, e2, e3, e4⟩
    · rw [c1] at e; cases e
    · rw [c1] at e1
      rw [d1] at e2
      cases e1
      cases e2
      rw [c2, c3, d2, d3, e3, e4]
      exact ⟨rfl, rfl⟩
  · rw [a3, b3, if_pos h4]
    unfold gridFlag
    rw [if_pos h4]
    congr 1
    apply List.map_congr_left
    intro idx hi
    rcases point_alike g 0 0.9 (ratioUsed t.shape.length g.missing ckcd) idx with ⟨e1, e2⟩ | ⟨x, y, f, e1, e2, _⟩
    · rw [e1, e2]
    · rw [e1, e2]
      rfl

end Skyborn.Gpi
