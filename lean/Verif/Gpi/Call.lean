/-
The calls of core.py: what every accepted call returns at every point.
-/
import Verif.Gpi.Core

namespace Skyborn.Gpi

open Classical

/-! ### Specification -/

/-- The order in which the points of a call set the flag: every point of the grid occurs. -/
def Spec.Schedule (shape : List ℕ) (order : List (List ℕ)) : Prop := ∀ idx, idx ∈ order ↔ InB shape idx

/-- The data of a profile, from the surface upward, as columns of the solver. -/
noncomputable def Spec.columnOf (sst psl : ℝ) (p t r : NDArr (Option ℝ)) (n source : ℕ) (ckcd : ℝ) : Column :=
  ⟨n, fun k => (t.get [k - 1]).getD undef, fun k => (p.get [k - 1]).getD undef, fun k => (r.get [k - 1]).getD undef, sst, psl / 100, source, ckcd⟩

/-- The first level has at least the pressure of the last. -/
def Spec.SurfaceFirst (p : NDArr (Option ℝ)) : Prop := ¬ upside (clean p)

/-! ### Lemmas -/

theorem post_undef : post undef = none := by
  unfold post
  rw [if_pos]
  rw [sub_self, abs_zero]
  positivity

theorem post_of_pos {v : ℝ} (h : 0 ≤ v) : post v = some v := by
  unfold post
  rw [if_neg]
  unfold undef
  rw [abs_of_nonneg (by linarith), abs_of_nonpos (by norm_num)]
  norm_num
  linarith

theorem post_none {v : ℝ} (h : post v = none) : v < 0 := by
  by_contra g
  rw [post_of_pos (not_lt.mp g)] at h
  cases h

theorem post_some {v w : ℝ} (h : post v = some w) : w = v := by
  unfold post at h
  split_ifs at h
  exact (Option.some.inj h).symm

theorem ebind {ε α β : Type} {x : Except ε α} {f : α → Except ε β} {b : β} (h : (x >>= f) = .ok b) : ∃ a, x = .ok a ∧ f a = .ok b := by
  cases x with
  | error e => cases h
  | ok a => exact ⟨a, rfl, h⟩

theorem mem_points2 (a b : ℕ) (idx : List ℕ) : idx ∈ points2 a b ↔ InB [a, b] idx := by
  unfold points2
  simp only [List.mem_flatMap, List.mem_range, List.mem_map]
  constructor
  · rintro ⟨x, hx, y, hy, rfl⟩
    exact ⟨hy, hx, trivial⟩
  · intro h
    match idx, h with
    | [y, x], h => exact ⟨x, h.2.1, y, h.1, rfl⟩
    | [], h => exact h.elim
    | [_], h => exact h.2.elim
    | _ :: _ :: _ :: _, h => exact h.2.2.elim

theorem surface3 {s : List ℕ} (h : s.length = 3) : surface s = [s.getD 1 0, s.getD 2 0] := by
  match s, h with
  | [a, b, c], _ => rfl

theorem all_inv {g : Grid} {source : ℕ} {ckcd : ℝ} {order : List (List ℕ)} {flag : List (Option ℕ) → ℕ} {f : List ℕ → Res} {e : ℕ}
    (h : g.all source ckcd order flag = .ok (f, e)) : (∀ idx ∈ order, ∃ x, g.point source ckcd idx = some (f idx, x)) ∧
      e = flag (order.map fun idx => ((g.point source ckcd idx).bind Prod.snd)) := by
  unfold Grid.all at h
  split_ifs at h with h1
  cases h
  refine ⟨fun idx hi => ?_, rfl⟩
  cases hp : g.point source ckcd idx with
  | none => exact absurd ⟨idx, hi, hp⟩ h1
  | some x =>
    refine ⟨x.2, ?_⟩
    dsimp only
    rw [hp]
    rfl

/-- Every accepted gridded call computes every point of the grid. -/
theorem call_inv {sst psl p t r : NDArr (Option ℝ)} {actual : Option ℤ} {order : List (List ℕ)} {out : Intensity} (hd : t.shape.length ≠ 1)
    (hs : t.shape.length = 4 → Spec.Schedule (surface t.shape) order) (h : potentialIntensity sst psl p t r actual order = .ok out) :
    ∃ g, prepareGrid sst psl p t r = .ok g ∧ out.shape = surface t.shape ∧ (t.shape.length = 3 ∨ t.shape.length = 4) ∧
      (∀ idx, InB (surface t.shape) idx → ∃ res f, g.point 0 0.9 idx = some (res, f) ∧ out.pmin idx = post res.pmin ∧ out.vmax idx = post res.vmax) ∧
      out.flag = gridFlag t.shape.length g.missing ((if t.shape.length = 4 then order else points2 (t.shape.getD 1 0) (t.shape.getD 2 0)).map
        fun idx => ((g.point 0 0.9 idx).bind Prod.snd)) := by
  unfold potentialIntensity at h
  rw [if_neg hd] at h
  by_cases h34 : t.shape.length = 3 ∨ t.shape.length = 4
  · rw [if_pos h34] at h
    obtain ⟨g, hg, h⟩ := ebind h
    obtain ⟨⟨f, e⟩, ha, h⟩ := ebind h
    cases h
    obtain ⟨h1, h2⟩ := all_inv ha
    refine ⟨g, hg, rfl, h34, fun idx hi => ?_, h2⟩
    have hm : idx ∈ (if t.shape.length = 4 then order else points2 (t.shape.getD 1 0) (t.shape.getD 2 0)) := by
      by_cases h4 : t.shape.length = 4
      · rw [if_pos h4]
        exact (hs h4 idx).mpr hi
      · rw [if_neg h4, mem_points2, ← surface3 (h34.resolve_right h4)]
        exact hi
    obtain ⟨x, hx⟩ := h1 idx hm
    exact ⟨f idx, x, hx, rfl, rfl⟩
  · rw [if_neg h34] at h
    cases h

/-- What is computed at a point: nothing, or the solver is called for some column above the sea surface temperature and pressure of the point. -/
theorem point_inv {g : Grid} {source : ℕ} {ckcd : ℝ} {idx : List ℕ} {res : Res} {f : Option ℕ} (h : g.point source ckcd idx = some (res, f)) :
    (res = skipped (lnRatio ckcd) 0 ∧ f = none) ∨
    ∃ c : Column, core c = some res ∧ f = some res.flag ∧ c.psl = g.psl.get idx * 0.01 ∧ c.sst = g.sst.get idx ∧ c.source = source ∧ c.ckcd = ckcd ∧ 278.15 < c.sst := by
  have k1 : ∀ {o : Option Res}, (o.map fun res => (res, some res.flag)) = some (res, f) → o = some res ∧ f = some res.flag := by
    intro o ho
    cases o with
    | none => cases ho
    | some x => cases ho; exact ⟨rfl, rfl⟩
  unfold Grid.point at h
  split_ifs at h with hm
  · unfold pointMissing at h
    by_cases a1 : g.sst.get idx = undef
    · rw [if_pos a1] at h; cases h; exact Or.inl ⟨rfl, rfl⟩
    rw [if_neg a1] at h
    by_cases a2 : g.sst.get idx + -273.15 ≤ 5
    · rw [if_pos a2] at h; cases h; exact Or.inl ⟨rfl, rfl⟩
    rw [if_neg a2] at h
    by_cases a3 : validStart (fun k => g.t.get (column idx k)) (fun k => g.r.get (column idx k)) g.n 1 > g.n
    · rw [if_pos a3] at h; cases h; exact Or.inl ⟨rfl, rfl⟩
    rw [if_neg a3] at h
    obtain ⟨e1, e2⟩ := k1 h
    refine Or.inr ⟨_, e1, e2, rfl, rfl, rfl, rfl, ?_⟩
    show 278.15 < g.sst.get idx
    norm_num at a2
    linarith
  · unfold pointPlain at h
    by_cases a2 : g.sst.get idx + -273.15 ≤ 5
    · rw [if_pos a2] at h; cases h; exact Or.inl ⟨rfl, rfl⟩
    rw [if_neg a2] at h
    obtain ⟨e1, e2⟩ := k1 h
    refine Or.inr ⟨_, e1, e2, rfl, rfl, rfl, rfl, ?_⟩
    show 278.15 < g.sst.get idx
    norm_num at a2
    linarith

theorem grid_fields {sst psl p t r : NDArr (Option ℝ)} {g : Grid} (h : prepareGrid sst psl p t r = .ok g) :
    ∃ n, p.shape = [n] ∧ t.shape.getD (levelAxis t.shape.length) 0 = n ∧ sst.shape = surface t.shape ∧ psl.shape = surface t.shape ∧ t.shape = r.shape ∧
      g = ⟨n, clean sst, clean psl, if upside (clean p) then flipAxis 0 (clean p) else clean p,
        if upside (clean p) then flipAxis (levelAxis t.shape.length) (clean t) else clean t,
        if upside (clean p) then flipAxis (levelAxis t.shape.length) (clean r) else clean r,
        decide (hasMissing (clean sst) ∨ hasMissing (clean psl) ∨ hasMissing (clean p) ∨ hasMissing (clean t) ∨ hasMissing (clean r))⟩ := by
  unfold prepareGrid at h
  split at h
  · rename_i n hn
    dsimp only at h
    by_cases c : t.shape.getD (levelAxis t.shape.length) 0 ≠ n ∨ sst.shape ≠ surface t.shape ∨ psl.shape ≠ surface t.shape ∨ t.shape ≠ r.shape
    · rw [if_pos c] at h; cases h
    · rw [if_neg c] at h
      push Not at c
      cases h
      exact ⟨n, hn, c.1, c.2.1, c.2.2.1, c.2.2.2, rfl⟩
  · cases h

/-- Every accepted profile call: the scalars are numbers, and a column is computed. -/
theorem profile_inv {sst psl p t r : NDArr (Option ℝ)} {actual : Option ℤ} {source : ℕ} {ckcd : ℝ} {res : Res} (h : profileCall sst psl p t r actual source ckcd = .ok res) :
    ∃ s q, scalar sst = .ok s ∧ scalar psl = .ok q ∧ ((s ≤ 278.15 ∧ res = skipped (lnRatio ckcd) 0) ∨
      278.15 < s ∧ ∃ c : Column, core c = some res ∧ c.psl = q * 0.01 ∧ c.sst = s ∧ c.source = source ∧ c.ckcd = ckcd) := by
  unfold profileCall at h
  obtain ⟨s, hs, h⟩ := ebind h
  obtain ⟨q, hq, h⟩ := ebind h
  obtain ⟨⟨p', t', r', a⟩, hp, h⟩ := ebind h
  dsimp only at h
  refine ⟨s, q, hs, hq, ?_⟩
  cases hr : profile s q p' t' r' a source ckcd with
  | none => rw [hr] at h; cases h
  | some x =>
    rw [hr] at h
    cases h
    unfold profile at hr
    by_cases c : s + -273.15 ≤ 5
    · rw [if_pos c] at hr
      cases hr
      refine Or.inl ⟨?_, rfl⟩
      norm_num at c ⊢
      linarith
    · rw [if_neg c] at hr
      refine Or.inr ⟨?_, _, hr, rfl, rfl, rfl, rfl⟩
      norm_num at c ⊢
      linarith

theorem pi_profile {sst psl p t r : NDArr (Option ℝ)} {actual : Option ℤ} {order : List (List ℕ)} {out : Intensity} (hd : t.shape.length = 1)
    (h : potentialIntensity sst psl p t r actual order = .ok out) :
    ∃ res, profileCall sst psl p t r actual 0 0.9 = .ok res ∧ out = ⟨[], fun _ => post res.pmin, fun _ => post res.vmax, res.flag⟩ := by
  unfold potentialIntensity at h
  rw [if_pos hd] at h
  obtain ⟨res, hr, h⟩ := ebind h
  cases h
  exact ⟨res, hr, rfl⟩

/-! ### Bounds -/

/-- What a user may see at a point with the sea level pressure `q` (Pa): nothing, or a pressure in mb that is positive and at most the sea level pressure together
with a wind that is not negative. -/
def Spec.Sane (q : ℝ) (pmin vmax : Option ℝ) : Prop := (pmin = none ∧ vmax = none) ∨ ∃ a v, pmin = some a ∧ vmax = some v ∧ 0 < a ∧ a ≤ q / 100 ∧ 0 ≤ v

theorem outcome_sane {c : Column} {res : Res} {q : ℝ} (h : Outcome c res) (hq : c.psl = q * 0.01) (hpos : 0 < q) : Spec.Sane q (post res.pmin) (post res.vmax) := by
  cases h with
  | diverged h =>
    rw [h]
    exact Or.inl ⟨post_undef, post_undef⟩
  | failed h1 h2 _ _ _ =>
    rw [h1, h2, hq]
    refine Or.inr ⟨q * 0.01, 0, post_of_pos (by positivity), post_of_pos le_rfl, by positivity, by linarith, le_rfl⟩
  | solved a m s pm h l hf =>
    obtain ⟨h1, _, _, h4⟩ := h.fixed _ rfl
    have hp : 0 < res.pmin := by
      rw [h4, hq]
      positivity
    refine Or.inr ⟨res.pmin, res.vmax, post_of_pos hp.le, post_of_pos h.wind.1, hp, ?_, h.wind.1⟩
    rw [h4, hq]
    have hrd : 0 < rd := by unfold rd; norm_num
    have : Real.exp (-max (m.value - a.value + 0.675 * (c.sst / res.tout) * (s.value - m.value)) 0 /
        (rd * ((virtualTemp (c.t 1) (max (c.r 1) 0) + virtualTemp c.sst (satMixing (satPressure (c.sst - 273.15)) (min pm 1000))) / 2))) ≤ 1 := by
      rw [Real.exp_le_one_iff]
      exact div_nonpos_of_nonpos_of_nonneg (by have := le_max_right (m.value - a.value + 0.675 * (c.sst / res.tout) * (s.value - m.value)) 0; linarith) (by positivity)
    have h6 := mul_le_mul_of_nonneg_left this (show (0 : ℝ) ≤ q * 0.01 by positivity)
    linarith

/-- C191: on a grid every point has sane values, whatever the flag says and whatever is missing in the profiles. -/
theorem C191_grid {sst psl p t r : NDArr (Option ℝ)} {actual : Option ℤ} {order : List (List ℕ)} {out : Intensity} (hd : t.shape.length ≠ 1)
    (hs : t.shape.length = 4 → Spec.Schedule (surface t.shape) order) (h : potentialIntensity sst psl p t r actual order = .ok out) {idx : List ℕ}
    (hi : InB out.shape idx) {q : ℝ} (hq : psl.get idx = some q) (hpos : 0 < q) : Spec.Sane q (out.pmin idx) (out.vmax idx) := by
  obtain ⟨g, hg, e1, _, e2, _⟩ := call_inv hd hs h
  rw [e1] at hi
  obtain ⟨res, f, hp, h1, h2⟩ := e2 idx hi
  obtain ⟨n, _, _, _, _, _, rfl⟩ := grid_fields hg
  rw [h1, h2]
  rcases point_inv hp with ⟨h3, _⟩ | ⟨c, h3, _, h4, _⟩
  · rw [h3]
    exact Or.inl ⟨post_undef, post_undef⟩
  · refine outcome_sane (core_outcome h3) ?_ hpos
    rw [h4]
    show (psl.get idx).getD undef * 0.01 = _
    rw [hq]
    rfl

/-- C191: the same for a profile. -/
theorem C191_profile {sst psl p t r : NDArr (Option ℝ)} {actual : Option ℤ} {order : List (List ℕ)} {out : Intensity} (hd : t.shape.length = 1)
    (h : potentialIntensity sst psl p t r actual order = .ok out) {q : ℝ} (hq : scalar psl = .ok q) (hpos : 0 < q) : Spec.Sane q (out.pmin []) (out.vmax []) := by
  obtain ⟨res, hr, rfl⟩ := pi_profile hd h
  obtain ⟨s, q', _, h2, h3⟩ := profile_inv hr
  rw [hq] at h2
  cases h2
  rcases h3 with ⟨_, h3⟩ | ⟨_, c, h3, h4, _⟩
  · rw [h3]
    exact Or.inl ⟨post_undef, post_undef⟩
  · exact outcome_sane (core_outcome h3) h4 hpos

/-! ### Cold water -/

/-- C194: no value over water of at most 5 °C, or of unknown temperature, on a grid. -/
theorem C194_grid {sst psl p t r : NDArr (Option ℝ)} {actual : Option ℤ} {order : List (List ℕ)} {out : Intensity} (hd : t.shape.length ≠ 1)
    (hs : t.shape.length = 4 → Spec.Schedule (surface t.shape) order) (h : potentialIntensity sst psl p t r actual order = .ok out) {idx : List ℕ}
    (hi : InB out.shape idx) (hc : ∀ s, sst.get idx = some s → s ≤ 278.15) : out.pmin idx = none ∧ out.vmax idx = none := by
  obtain ⟨g, hg, e1, _, e2, _⟩ := call_inv hd hs h
  rw [e1] at hi
  obtain ⟨res, f, hp, h1, h2⟩ := e2 idx hi
  obtain ⟨n, _, _, _, _, _, rfl⟩ := grid_fields hg
  rw [h1, h2]
  rcases point_inv hp with ⟨h3, _⟩ | ⟨c, h3, _, _, h4, _, _, h5⟩
  · rw [h3]
    exact ⟨post_undef, post_undef⟩
  · exfalso
    rw [h4] at h5
    change 278.15 < (sst.get idx).getD undef at h5
    cases hv : sst.get idx with
    | none =>
      rw [hv] at h5
      norm_num [undef] at h5
    | some s =>
      rw [hv] at h5
      have := hc s hv
      exact absurd h5 (not_lt.mpr this)

/-- C194: nor for a profile; the flag is 0. -/
theorem C194_profile {sst psl p t r : NDArr (Option ℝ)} {actual : Option ℤ} {order : List (List ℕ)} {out : Intensity} (hd : t.shape.length = 1)
    (h : potentialIntensity sst psl p t r actual order = .ok out) {s : ℝ} (hs : scalar sst = .ok s) (hc : s ≤ 278.15) :
    out.pmin [] = none ∧ out.vmax [] = none ∧ out.flag = 0 := by
  obtain ⟨res, hr, rfl⟩ := pi_profile hd h
  obtain ⟨s', q', h1, _, h3⟩ := profile_inv hr
  rw [hs] at h1
  cases h1
  rcases h3 with ⟨_, h3⟩ | ⟨h3, _⟩
  · rw [h3]
    exact ⟨post_undef, post_undef, rfl⟩
  · exact absurd h3 (not_lt.mpr hc)

end Skyborn.Gpi
