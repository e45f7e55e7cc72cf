/-
Tracing of one branch of a curly vector.
Modelled: plot/nclcurly_core/_ncl_curly_core.c:447-494, 785-880, 888-1395.
-/
import Verif.Plot.Sample

namespace Skyborn.Plot.Curly

/-! ## Model -/

open Classical in
/-- plot/nclcurly_core/_ncl_curly_core.c:447-465 `display_step_to_data`: the step on the grid of a step on the panel. -/
noncomputable def toData (j00 j01 j10 j11 : ℝ) (s : ℝ × ℝ) : Option (ℝ × ℝ) :=
  let det := j00 * j11 - j01 * j10
  if |det| ≤ eps then none else some ((j11 * s.1 - j01 * s.2) / det, (-j10 * s.1 + j00 * s.2) / det)

open Classical in
/-- plot/nclcurly_core/_ncl_curly_core.c:474-494 `ncl_step_length_px`. -/
noncomputable def stepLen (base speed scale : ℝ) : ℝ :=
  let scale := if scale ≤ eps then eps else scale
  let f := speed / scale
  let f := if f < 0 then 0 else if 1 < f then 1 else f
  let s := base * f * f
  if 35 / 100 < s then s else 35 / 100

/-- The panel: `viewport_x0`, `viewport_y0`, `viewport_x1`, `viewport_y1`. -/
structure View where
  /-- `viewport_x0` -/ x0 : ℝ
  /-- `viewport_y0` -/ y0 : ℝ
  /-- `viewport_x1` -/ x1 : ℝ
  /-- `viewport_y1` -/ y1 : ℝ

/-- plot/nclcurly_core/_ncl_curly_core.c:786-789 `viewport_contains`. -/
def View.contains (w : View) (p : ℝ × ℝ) : Prop := w.x0 ≤ p.1 ∧ p.1 ≤ w.x1 ∧ w.y0 ≤ p.2 ∧ p.2 ≤ w.y1

open Classical in
/-- plot/nclcurly_core/_ncl_curly_core.c:831-868: the part of a step from `s` by `d` kept along one axis, `lo` and `hi` the sides. -/
noncomputable def keep (lo hi s d factor : ℝ) : ℝ :=
  if d < -eps then (if (lo - s) / d < factor then (lo - s) / d else factor)
  else if eps < d then (if (hi - s) / d < factor then (hi - s) / d else factor)
  else factor

open Classical in
/-- plot/nclcurly_core/_ncl_curly_core.c:798-880 `clip_display_step_to_viewport`: the end of the step and whether it was moved. -/
noncomputable def clip (w : View) (s e : ℝ × ℝ) : (ℝ × ℝ) × Bool :=
  if w.contains e then (e, false)
  else
    let dx := e.1 - s.1
    let dy := e.2 - s.2
    let factor := keep w.y0 w.y1 s.2 dy (keep w.x0 w.x1 s.1 dx 1)
    let factor := if factor < 0 then 0 else if 1 < factor then 1 else factor
    ((s.1 + dx * factor, s.2 + dy * factor), true)

/-- Arguments of `trace_ncl_direction` other than grid, fields and start. -/
structure Params where
  /-- `max_length_px` -/ maxLen : ℝ
  /-- `direction_sign` -/ sign : ℝ
  /-- `step_px` -/ step : ℝ
  /-- `speed_scale` -/ scale : ℝ
  /-- the panel -/ view : View

/-- Variables of the loop (plot/nclcurly_core/_ncl_curly_core.c:962-970). -/
structure Cur where
  /-- `current_data` -/ data : ℝ × ℝ
  /-- `previous_display`, if any -/ prev : Option (ℝ × ℝ)
  /-- `travelled` -/ travelled : ℝ

/-- plot/nclcurly_core/_ncl_curly_core.c:1178-1188: the one-third backward correction. -/
noncomputable def corrected (prev : Option (ℝ × ℝ)) (cur : ℝ × ℝ) : ℝ × ℝ :=
  match prev with
  | none => cur
  | some p => (cur.1 - (cur.1 - p.1) / 3, cur.2 - (cur.2 - p.2) / 3)

/-- One accepted step. -/
structure Step where
  /-- `candidate` -/ data : ℝ × ℝ
  /-- `candidate_display` -/ disp : ℝ × ℝ
  /-- `current_display` -/ cur : ℝ × ℝ
  /-- `clipped` -/ clipped : Bool
  /-- `actual_step` -/ len : ℝ

open Classical in
/-- plot/nclcurly_core/_ncl_curly_core.c:1232-1298: the second pass with averaged direction, speed and derivative; `none`: the branch
ends. `cand`, `cd`: results of the first pass. -/
noncomputable def second (g : Grid) (sample : ℝ → ℝ → Option State) (p : Params) (data : ℝ × ℝ) (st : State) (remaining : ℝ)
    (corr cand : ℝ × ℝ) (cd : (ℝ × ℝ) × Bool) : Option ((ℝ × ℝ) × ((ℝ × ℝ) × Bool)) :=
  match sample cand.1 cand.2 with
  | none => some (cand, cd)
  | some nx =>
    let ax := p.sign * (st.dir.1 + nx.dir.1)
    let ay := p.sign * (st.dir.2 + nx.dir.2)
    let norm := hyp ax ay
    if norm ≤ eps then some (cand, cd)
    else
      let len := stepLen p.step (1 / 2 * (st.speed + nx.speed)) p.scale
      let len := min len remaining
      let cd := clip p.view corr (corr.1 + ax / norm * len, corr.2 + ay / norm * len)
      match toData (1 / 2 * (st.j00 + nx.j00)) (1 / 2 * (st.j01 + nx.j01)) (1 / 2 * (st.j10 + nx.j10)) (1 / 2 * (st.j11 + nx.j11))
          (cd.1.1 - st.disp.1, cd.1.2 - st.disp.2) with
      | none => none
      | some ds =>
        if ¬ g.within (data.1 + ds.1) (data.2 + ds.2) then none
        else some ((data.1 + ds.1, data.2 + ds.2), cd)

open Classical in
/-- plot/nclcurly_core/_ncl_curly_core.c:1131-1305: one pass of the loop; `none`: the branch ends. The state of the first pass is that
of the start (the code keeps it instead of sampling again). -/
noncomputable def stepOnce (g : Grid) (sample : ℝ → ℝ → Option State) (p : Params) (c : Cur) : Option Step :=
  let remaining := p.maxLen - c.travelled
  if remaining ≤ 1 / 10 ^ 6 then none
  else
    match sample c.data.1 c.data.2 with
    | none => none
    | some st =>
      let len := stepLen p.step st.speed p.scale
      let len := min len remaining
      if len ≤ 1 / 10 ^ 6 then none
      else
        let corr := corrected c.prev st.disp
        let cd := clip p.view corr (corr.1 + p.sign * st.dir.1 * len, corr.2 + p.sign * st.dir.2 * len)
        match toData st.j00 st.j01 st.j10 st.j11 (cd.1.1 - st.disp.1, cd.1.2 - st.disp.2) with
        | none => none
        | some ds =>
          if ¬ g.within (c.data.1 + ds.1) (c.data.2 + ds.2) then none
          else
            match second g sample p c.data st remaining corr (c.data.1 + ds.1, c.data.2 + ds.2) cd with
            | none => none
            | some r =>
              let actual := hyp (r.2.1.1 - st.disp.1) (r.2.1.2 - st.disp.2)
              if actual ≤ 2 / 10 then none else some ⟨r.1, r.2.1, st.disp, r.2.2, actual⟩

/-- plot/nclcurly_core/_ncl_curly_core.c:1130-1328: the loop; vertices on the grid and on the panel. -/
noncomputable def loop (g : Grid) (sample : ℝ → ℝ → Option State) (p : Params) : ℕ → Cur → List ((ℝ × ℝ) × (ℝ × ℝ))
  | 0, _ => []
  | n + 1, c =>
    match stepOnce g sample p c with
    | none => []
    | some r => (r.data, r.disp) :: (if r.clipped then [] else loop g sample p n ⟨r.data, some r.cur, c.travelled + r.len⟩)

/-- plot/nclcurly_core/_ncl_curly_core.c:1003-1011: the step budget. -/
def clampSteps (k : ℤ) : ℕ := if k < 1 then 1 else if 4096 < k then 4096 else k.toNat

/-- plot/nclcurly_core/_ncl_curly_core.c:888-1395 `trace_ncl_direction`: the vertices, on the grid and on the panel, or nothing. -/
noncomputable def traceWith (g : Grid) (sample : ℝ → ℝ → Option State) (p : Params) (maxSteps : ℤ) (start : ℝ × ℝ) :
    Option (List ((ℝ × ℝ) × (ℝ × ℝ))) :=
  match sample start.1 start.2 with
  | none => none
  | some st =>
    let l := loop g sample p (clampSteps maxSteps) ⟨start, none, 0⟩
    if l.length + 1 < 2 then none else some ((start, st.disp) :: l)

/-- plot/nclcurly_core/_ncl_curly_core.c:888-1395 `trace_ncl_direction` on the given fields. -/
noncomputable def trace (g : Grid) (F : Fields) (p : Params) (maxSteps : ℤ) (start : ℝ × ℝ) : Option (List ((ℝ × ℝ) × (ℝ × ℝ))) :=
  traceWith g (sampleState g F) p maxSteps start

/-! ## Specification -/

/-- Distance on the panel. -/
noncomputable def dist (p q : ℝ × ℝ) : ℝ := hyp (q.1 - p.1) (q.2 - p.2)

/-- Length of a polyline. -/
noncomputable def arc : List (ℝ × ℝ) → ℝ
  | p :: q :: l => dist p q + arc (q :: l)
  | _ => 0

/-! ## Proofs -/

theorem hyp_nonneg (x y : ℝ) : 0 ≤ hyp x y := Real.sqrt_nonneg _

theorem hyp_sq (x y : ℝ) : hyp x y * hyp x y = x * x + y * y :=
  Real.mul_self_sqrt (add_nonneg (mul_self_nonneg _) (mul_self_nonneg _))

theorem hyp_le {x y c : ℝ} (hc : 0 ≤ c) (h : x * x + y * y ≤ c * c) : hyp x y ≤ c := by
  unfold hyp
  exact Real.sqrt_le_iff.mpr ⟨hc, by nlinarith⟩

theorem hyp_smul (x y k : ℝ) (hk : 0 ≤ k) : hyp (k * x) (k * y) = k * hyp x y := by
  unfold hyp
  rw [show k * x * (k * x) + k * y * (k * y) = k ^ 2 * (x * x + y * y) by ring, Real.sqrt_mul (sq_nonneg _), Real.sqrt_sq hk]

theorem hyp_add (a b c d : ℝ) : hyp (a + c) (b + d) ≤ hyp a b + hyp c d := by
  apply hyp_le (add_nonneg (hyp_nonneg _ _) (hyp_nonneg _ _))
  have h1 := hyp_sq a b
  have h2 := hyp_sq c d
  have h3 : a * c + b * d ≤ hyp a b * hyp c d := by
    apply le_of_sq_le_sq _ (mul_nonneg (hyp_nonneg _ _) (hyp_nonneg _ _))
    have : (hyp a b * hyp c d) ^ 2 = (a * a + b * b) * (c * c + d * d) := by rw [← h1, ← h2]; ring
    rw [this]
    nlinarith [sq_nonneg (a * d - b * c)]
  nlinarith

/-- C271: a step on the panel, brought to the grid and back, is the step. -/
theorem C271_step (j00 j01 j10 j11 : ℝ) (s d : ℝ × ℝ) (h : toData j00 j01 j10 j11 s = some d) :
    j00 * d.1 + j01 * d.2 = s.1 ∧ j10 * d.1 + j11 * d.2 = s.2 := by
  unfold toData at h
  dsimp only at h
  split_ifs at h with h1
  obtain rfl := Option.some.inj h
  have h2 : j00 * j11 - j01 * j10 ≠ 0 := by
    intro h0; rw [h0, abs_zero] at h1; exact h1 eps_pos.le
  dsimp only
  constructor
  · rw [mul_div_assoc', mul_div_assoc', ← add_div, div_eq_iff h2]; ring
  · rw [mul_div_assoc', mul_div_assoc', ← add_div, div_eq_iff h2]; ring

theorem stepLen_pos (b s c : ℝ) : 35 / 100 ≤ stepLen b s c := by
  unfold stepLen; dsimp only; split_ifs <;> linarith

theorem stepLen_le (b s c : ℝ) : stepLen b s c ≤ max b (35 / 100) := by
  unfold stepLen
  dsimp only
  generalize (if c ≤ eps then eps else c) = k
  set f := (if s / k < 0 then (0 : ℝ) else if 1 < s / k then 1 else s / k) with hf
  have h0 : 0 ≤ f ∧ f ≤ 1 := by rw [hf]; split_ifs <;> constructor <;> linarith
  split_ifs with h
  · rcases le_total 0 b with hb | hb
    · refine le_trans ?_ (le_max_left _ _)
      have : b * f * f ≤ b * 1 * 1 := mul_le_mul (mul_le_mul_of_nonneg_left h0.2 hb) h0.2 h0.1 (by linarith)
      linarith
    · exfalso
      have : 0 ≤ f * f := mul_nonneg h0.1 h0.1
      nlinarith
  · exact le_max_right _ _

/-- Where an accepted step comes from: a direction `e`, a speed and the derivatives `J`. -/
private structure Origin (g : Grid) (sample : ℝ → ℝ → Option State) (p : Params) (c : Cur) (r : Step) (st : State) (e : ℝ × ℝ)
    (speed j00 j01 j10 j11 : ℝ) (ds : ℝ × ℝ) : Prop where
  left : 1 / 10 ^ 6 < p.maxLen - c.travelled
  hst : sample c.data.1 c.data.2 = some st
  cur : r.cur = st.disp
  disp : (r.disp, r.clipped) = clip p.view (corrected c.prev st.disp)
    ((corrected c.prev st.disp).1 + e.1 * min (stepLen p.step speed p.scale) (p.maxLen - c.travelled),
      (corrected c.prev st.disp).2 + e.2 * min (stepLen p.step speed p.scale) (p.maxLen - c.travelled))
  hds : toData j00 j01 j10 j11 (r.disp.1 - st.disp.1, r.disp.2 - st.disp.2) = some ds
  data : r.data = (c.data.1 + ds.1, c.data.2 + ds.2)
  within : g.within r.data.1 r.data.2
  len : r.len = hyp (r.disp.1 - st.disp.1) (r.disp.2 - st.disp.2)
  far : 2 / 10 < r.len
  kind : (e = (p.sign * st.dir.1, p.sign * st.dir.2) ∧ speed = st.speed ∧ j00 = st.j00 ∧ j01 = st.j01 ∧ j10 = st.j10 ∧
      j11 = st.j11) ∨
    ∃ x y nx, sample x y = some nx ∧ eps < hyp (p.sign * (st.dir.1 + nx.dir.1)) (p.sign * (st.dir.2 + nx.dir.2)) ∧
      e = (p.sign * (st.dir.1 + nx.dir.1) / hyp (p.sign * (st.dir.1 + nx.dir.1)) (p.sign * (st.dir.2 + nx.dir.2)),
        p.sign * (st.dir.2 + nx.dir.2) / hyp (p.sign * (st.dir.1 + nx.dir.1)) (p.sign * (st.dir.2 + nx.dir.2))) ∧
      speed = 1 / 2 * (st.speed + nx.speed) ∧ j00 = 1 / 2 * (st.j00 + nx.j00) ∧ j01 = 1 / 2 * (st.j01 + nx.j01) ∧
      j10 = 1 / 2 * (st.j10 + nx.j10) ∧ j11 = 1 / 2 * (st.j11 + nx.j11)

private theorem stepOnce_origin {g : Grid} {sample : ℝ → ℝ → Option State} {p : Params} {c : Cur} {r : Step}
    (h : stepOnce g sample p c = some r) :
    ∃ st e speed j00 j01 j10 j11 ds, Origin g sample p c r st e speed j00 j01 j10 j11 ds := by
  unfold stepOnce at h
  dsimp only at h
  split_ifs at h with h1
  rcases hst : sample c.data.1 c.data.2 with _ | st
  · rw [hst] at h; cases h
  rw [hst] at h
  dsimp only at h
  split_ifs at h with h2
  generalize hcd : clip p.view (corrected c.prev st.disp)
    ((corrected c.prev st.disp).1 + p.sign * st.dir.1 * min (stepLen p.step st.speed p.scale) (p.maxLen - c.travelled),
      (corrected c.prev st.disp).2 + p.sign * st.dir.2 * min (stepLen p.step st.speed p.scale) (p.maxLen - c.travelled)) = cd at h
  rcases hds : toData st.j00 st.j01 st.j10 st.j11 (cd.1.1 - st.disp.1, cd.1.2 - st.disp.2) with _ | ds
  · rw [hds] at h; cases h
  rw [hds] at h
  dsimp only at h
  by_cases h3 : g.within (c.data.1 + ds.1) (c.data.2 + ds.2)
  swap
  · rw [if_pos h3] at h; cases h
  rw [if_neg (not_not.mpr h3)] at h
  rcases hr' : second g sample p c.data st (p.maxLen - c.travelled) (corrected c.prev st.disp)
    (c.data.1 + ds.1, c.data.2 + ds.2) cd with _ | r'
  · rw [hr'] at h; cases h
  rw [hr'] at h
  dsimp only at h
  split_ifs at h with h4
  obtain rfl := Option.some.inj h
  have first' : r' = ((c.data.1 + ds.1, c.data.2 + ds.2), cd) → ∃ st' e speed j00 j01 j10 j11 ds,
      Origin g sample p c ⟨r'.1, r'.2.1, st.disp, r'.2.2, hyp (r'.2.1.1 - st.disp.1) (r'.2.1.2 - st.disp.2)⟩
        st' e speed j00 j01 j10 j11 ds := by
    rintro rfl
    exact ⟨st, (p.sign * st.dir.1, p.sign * st.dir.2), st.speed, st.j00, st.j01, st.j10, st.j11, ds, not_le.mp h1, hst, rfl,
      hcd.symm, hds, rfl, h3, rfl, not_le.mp h4, Or.inl ⟨rfl, rfl, rfl, rfl, rfl, rfl⟩⟩
  unfold second at hr'
  rcases hn : sample (c.data.1 + ds.1) (c.data.2 + ds.2) with _ | nx
  · rw [hn] at hr'; exact first' (Option.some.inj hr').symm
  rw [hn] at hr'
  dsimp only at hr'
  split_ifs at hr' with h5
  · exact first' (Option.some.inj hr').symm
  generalize hcd2 : clip p.view (corrected c.prev st.disp) _ = cd2 at hr'
  rcases hds2 : toData (1 / 2 * (st.j00 + nx.j00)) (1 / 2 * (st.j01 + nx.j01)) (1 / 2 * (st.j10 + nx.j10))
    (1 / 2 * (st.j11 + nx.j11)) (cd2.1.1 - st.disp.1, cd2.1.2 - st.disp.2) with _ | ds2
  · rw [hds2] at hr'; cases hr'
  rw [hds2] at hr'
  dsimp only at hr'
  by_cases h6 : g.within (c.data.1 + ds2.1) (c.data.2 + ds2.2)
  swap
  · rw [if_pos h6] at hr'; cases hr'
  rw [if_neg (not_not.mpr h6)] at hr'
  obtain rfl := Option.some.inj hr'
  exact ⟨st, _, _, _, _, _, _, ds2, not_le.mp h1, hst, rfl, hcd2.symm, hds2, rfl, h6, rfl, not_le.mp h4,
    Or.inr ⟨_, _, nx, hn, not_le.mp h5, rfl, rfl, rfl, rfl, rfl, rfl⟩⟩

private theorem loop_data (g : Grid) (sample : ℝ → ℝ → Option State) (p : Params) (n : ℕ) (c : Cur) :
    (loop g sample p n c).length ≤ n ∧ ∀ v ∈ loop g sample p n c, g.within v.1.1 v.1.2 := by
  induction n generalizing c with
  | zero => simp [loop]
  | succ n ih =>
    unfold loop
    rcases h : stepOnce g sample p c with _ | r
    · simp
    · dsimp only
      obtain ⟨st, e, sp, j00, j01, j10, j11, ds, o⟩ := stepOnce_origin h
      split_ifs
      · refine ⟨by simp, fun v hv => ?_⟩
        rw [List.mem_singleton] at hv
        rw [hv]; exact o.within
      · obtain ⟨i1, i2⟩ := ih ⟨r.data, some r.cur, c.travelled + r.len⟩
        refine ⟨by simpa using i1, fun v hv => ?_⟩
        rcases List.mem_cons.mp hv with rfl | hv
        · exact o.within
        · exact i2 v hv

theorem clampSteps_le (k : ℤ) : 1 ≤ clampSteps k ∧ clampSteps k ≤ 4096 ∧ (1 ≤ k → (clampSteps k : ℤ) ≤ k) := by
  unfold clampSteps
  split_ifs <;> omega

private theorem sampleState_within {g : Grid} {F : Fields} {x y : ℝ} {st : State} (h : sampleState g F x y = some st) :
    g.within x y := by
  by_contra hn
  unfold sampleState at h
  split_ifs at h

/-- C271: a traced branch begins at the start point, has at least two and at most `max_steps + 1` vertices (never more than
4097), all of them on the grid; there is none exactly if the start has no state or no step is accepted. -/
theorem C271_trace (g : Grid) (F : Fields) (p : Params) (maxSteps : ℤ) (start : ℝ × ℝ) (l : List ((ℝ × ℝ) × (ℝ × ℝ)))
    (h : trace g F p maxSteps start = some l) :
    2 ≤ l.length ∧ l.length ≤ 4097 ∧ (1 ≤ maxSteps → (l.length : ℤ) ≤ maxSteps + 1) ∧ (l.map Prod.fst).head? = some start ∧
      ∀ v ∈ l, g.within v.1.1 v.1.2 := by
  unfold trace traceWith at h
  rcases hst : sampleState g F start.1 start.2 with _ | st
  · rw [hst] at h; cases h
  rw [hst] at h
  dsimp only at h
  split_ifs at h with h1
  obtain rfl := Option.some.inj h
  obtain ⟨c1, c2, c3⟩ := clampSteps_le maxSteps
  obtain ⟨i1, i2⟩ := loop_data g (sampleState g F) p (clampSteps maxSteps) ⟨start, none, 0⟩
  refine ⟨by simp only [List.length_cons]; omega, by simp only [List.length_cons]; omega, ?_, rfl, ?_⟩
  · intro hk
    have := c3 hk
    simp only [List.length_cons]
    push_cast
    omega
  · intro v hv
    rcases List.mem_cons.mp hv with rfl | hv
    · exact sampleState_within hst
    · exact i2 v hv

/-! ### Clipping -/

private theorem keep_le (lo hi s d f : ℝ) : keep lo hi s d f ≤ f := by
  unfold keep; split_ifs <;> linarith

private theorem keep_nonneg {lo hi s d f : ℝ} (h1 : lo ≤ s) (h2 : s ≤ hi) (hf : 0 ≤ f) : 0 ≤ keep lo hi s d f := by
  have := eps_pos
  unfold keep
  split_ifs
  · exact div_nonneg_of_nonpos (by linarith) (by linarith)
  · exact hf
  · exact div_nonneg (by linarith) (by linarith)
  · exact hf
  · exact hf

private theorem keep_in {lo hi s d f k : ℝ} (h1 : lo ≤ s) (h2 : s ≤ hi) (hk0 : 0 ≤ k) (hk1 : k ≤ 1) (hk : k ≤ keep lo hi s d f) :
    lo - eps ≤ s + d * k ∧ s + d * k ≤ hi + eps := by
  have he := eps_pos
  unfold keep at hk
  by_cases c1 : d < -eps
  · rw [if_pos c1] at hk
    have hd : d < 0 := by linarith
    have hk' : k ≤ (lo - s) / d := by split_ifs at hk <;> linarith
    have h3 : (lo - s) ≤ d * k := by
      have := mul_le_mul_of_nonpos_left hk' hd.le
      rwa [mul_div_cancel₀ _ hd.ne] at this
    have h4 : d * k ≤ 0 := mul_nonpos_of_nonpos_of_nonneg hd.le hk0
    constructor <;> linarith
  · rw [if_neg c1] at hk
    by_cases c2 : eps < d
    · rw [if_pos c2] at hk
      have hd : 0 < d := by linarith
      have hk' : k ≤ (hi - s) / d := by split_ifs at hk <;> linarith
      have h3 : d * k ≤ hi - s := by
        have := mul_le_mul_of_nonneg_left hk' hd.le
        rwa [mul_div_cancel₀ _ hd.ne'] at this
      have h4 : 0 ≤ d * k := mul_nonneg hd.le hk0
      constructor <;> linarith
    · push Not at c1 c2
      have h3 : |d * k| ≤ eps := by
        rw [abs_mul, abs_of_nonneg hk0]
        have : |d| ≤ eps := abs_le.mpr ⟨by linarith, c2⟩
        nlinarith [abs_nonneg d]
      have := abs_le.mp h3
      constructor <;> linarith

/-- The panel enlarged by 1e-12 on all sides. -/
def View.nearly (w : View) (p : ℝ × ℝ) : Prop :=
  w.x0 - eps ≤ p.1 ∧ p.1 ≤ w.x1 + eps ∧ w.y0 - eps ≤ p.2 ∧ p.2 ≤ w.y1 + eps

/-- C272: the clipped end of a step lies on the segment of the step; if it was not moved it is the end itself and inside the panel;
and from a start inside the panel it is inside the panel up to 1e-12. -/
theorem C272_clip (w : View) (s e : ℝ × ℝ) :
    (∃ k, 0 ≤ k ∧ k ≤ 1 ∧ (clip w s e).1 = (s.1 + (e.1 - s.1) * k, s.2 + (e.2 - s.2) * k)) ∧
    ((clip w s e).2 = false ↔ w.contains e) ∧ (w.contains e → (clip w s e).1 = e) ∧ (w.contains s → w.nearly (clip w s e).1) := by
  have he := eps_pos
  unfold clip
  by_cases h : w.contains e
  · rw [if_pos h]
    refine ⟨⟨1, zero_le_one, le_rfl, ?_⟩, by simp [h], fun _ => rfl, fun _ => ?_⟩
    · refine Prod.ext ?_ ?_ <;> dsimp only <;> ring
    · obtain ⟨a, b, c, d⟩ := h
      exact ⟨by linarith, by linarith, by linarith, by linarith⟩
  · rw [if_neg h]
    dsimp only
    set f := keep w.y0 w.y1 s.2 (e.2 - s.2) (keep w.x0 w.x1 s.1 (e.1 - s.1) 1) with hf
    have hk : 0 ≤ (if f < 0 then (0 : ℝ) else if 1 < f then 1 else f) ∧ (if f < 0 then (0 : ℝ) else if 1 < f then 1 else f) ≤ 1 := by
      split_ifs <;> constructor <;> linarith
    refine ⟨⟨_, hk.1, hk.2, rfl⟩, by simp [h], fun h' => absurd h' h, fun hs => ?_⟩
    obtain ⟨a, b, c, d⟩ := hs
    have hx0 := keep_nonneg (d := e.1 - s.1) a b zero_le_one
    have hf0 : 0 ≤ f := keep_nonneg c d hx0
    have hfx : f ≤ keep w.x0 w.x1 s.1 (e.1 - s.1) 1 := keep_le _ _ _ _ _
    have hf1 : f ≤ 1 := hfx.trans (keep_le _ _ _ _ _)
    rw [if_neg (not_lt.mpr hf0), if_neg (not_lt.mpr hf1)]
    obtain ⟨k1, k2⟩ := keep_in a b hf0 hf1 hfx
    obtain ⟨k3, k4⟩ := keep_in c d hf0 hf1 (le_of_eq hf)
    exact ⟨k1, k2, k3, k4⟩

/-! ### Linear display maps -/

/-- The samples belong to a linear display map. -/
private structure Affine (sample : ℝ → ℝ → Option State) (a b c d e f : ℝ) : Prop where
  all : ∀ x y st, sample x y = some st → st.disp = (a + b * x + c * y, d + e * x + f * y) ∧ st.j00 = b ∧ st.j01 = c ∧
    st.j10 = e ∧ st.j11 = f ∧ st.dir.1 * st.dir.1 + st.dir.2 * st.dir.2 = 1

private theorem unit_hyp {x y : ℝ} (h : eps < hyp x y) : x / hyp x y * (x / hyp x y) + y / hyp x y * (y / hyp x y) = 1 := by
  have h0 : 0 < hyp x y := lt_trans eps_pos h
  have := hyp_sq x y
  field_simp
  nlinarith

/-- Fields whose display positions, where present, are those of a linear map. -/
def LinearDisplay (g : Grid) (F : Fields) (a b c d e f : ℝ) : Prop :=
  ∀ j < g.ny, ∀ i < g.nx, ∀ q, F.disp (j * g.nx + i) = some q →
    q = (a + b * (g.x0 + i * g.dx) + c * (g.y0 + j * g.dy), d + e * (g.x0 + i * g.dx) + f * (g.y0 + j * g.dy))

private theorem sampleState_affine (g : Grid) (F : Fields) (a b c d e f : ℝ) (hdx : 0 < g.dx) (hdy : 0 < g.dy)
    (hF : LinearDisplay g F a b c d e f) : Affine (sampleState g F) a b c d e f := by
  constructor
  intro x y st h
  have hw := sampleState_within h
  unfold sampleState at h
  by_cases h1 : g.nx < 2 ∨ g.ny < 2
  · rw [if_pos h1] at h; cases h
  rw [if_neg h1, if_neg (not_not.mpr hw)] at h
  push Not at h1
  obtain ⟨hi, hj, -⟩ := cell_inCell h1.1 h1.2 hw
  have hX : g.xi x * g.dx = x - g.x0 := by unfold Grid.xi; field_simp
  have hY : g.yi y * g.dy = y - g.y0 := by unfold Grid.yi; field_simp
  dsimp only at h
  generalize cell (g.xi x) g.nx = i at *
  generalize cell (g.yi y) g.ny = j at *
  split_ifs at h
  split at h
  swap
  · cases h
  rename_i uv vv p00 p01 p10 p11 hu hv h00 h01 h10 h11
  have hi0 : i < g.nx := by omega
  have hj0 : j < g.ny := by omega
  obtain rfl := hF j hj0 i hi0 _ h00
  obtain rfl := hF j hj0 (i + 1) hi _ h01
  obtain rfl := hF (j + 1) hj i hi0 _ h10
  obtain rfl := hF (j + 1) hj (i + 1) hi _ h11
  unfold stateOf at h
  push_cast at h
  have hj00 : ((a + b * (g.x0 + (i + 1) * g.dx) + c * (g.y0 + j * g.dy) - (a + b * (g.x0 + i * g.dx) + c * (g.y0 + j * g.dy))) *
      (1 - (g.yi y - j)) + (a + b * (g.x0 + (i + 1) * g.dx) + c * (g.y0 + (j + 1) * g.dy) -
      (a + b * (g.x0 + i * g.dx) + c * (g.y0 + (j + 1) * g.dy))) * (g.yi y - j)) / g.dx = b := by
    rw [div_eq_iff hdx.ne']; ring
  have hj10 : ((d + e * (g.x0 + (i + 1) * g.dx) + f * (g.y0 + j * g.dy) - (d + e * (g.x0 + i * g.dx) + f * (g.y0 + j * g.dy))) *
      (1 - (g.yi y - j)) + (d + e * (g.x0 + (i + 1) * g.dx) + f * (g.y0 + (j + 1) * g.dy) -
      (d + e * (g.x0 + i * g.dx) + f * (g.y0 + (j + 1) * g.dy))) * (g.yi y - j)) / g.dx = e := by
    rw [div_eq_iff hdx.ne']; ring
  have hj01 : ((a + b * (g.x0 + i * g.dx) + c * (g.y0 + (j + 1) * g.dy) - (a + b * (g.x0 + i * g.dx) + c * (g.y0 + j * g.dy))) *
      (1 - (g.xi x - i)) + (a + b * (g.x0 + (i + 1) * g.dx) + c * (g.y0 + (j + 1) * g.dy) -
      (a + b * (g.x0 + (i + 1) * g.dx) + c * (g.y0 + j * g.dy))) * (g.xi x - i)) / g.dy = c := by
    rw [div_eq_iff hdy.ne']; ring
  have hj11 : ((d + e * (g.x0 + i * g.dx) + f * (g.y0 + (j + 1) * g.dy) - (d + e * (g.x0 + i * g.dx) + f * (g.y0 + j * g.dy))) *
      (1 - (g.xi x - i)) + (d + e * (g.x0 + (i + 1) * g.dx) + f * (g.y0 + (j + 1) * g.dy) -
      (d + e * (g.x0 + (i + 1) * g.dx) + f * (g.y0 + j * g.dy))) * (g.xi x - i)) / g.dy = f := by
    rw [div_eq_iff hdy.ne']; ring
  rw [hj00, hj10, hj01, hj11] at h
  split_ifs at h with h2 h3
  obtain rfl := Option.some.inj h
  refine ⟨?_, rfl, rfl, rfl, rfl, unit_hyp (not_le.mp h3)⟩
  refine Prod.ext ?_ ?_
  · dsimp only; linear_combination b * hX + c * hY
  · dsimp only; linear_combination e * hX + f * hY

/-- An accepted step under a linear display map. -/
private theorem step_affine {g : Grid} {sample : ℝ → ℝ → Option State} {a b c d e f : ℝ} (hA : Affine sample a b c d e f)
    {p : Params} (hs : p.sign * p.sign = 1) {k : Cur} {r : Step} (h : stepOnce g sample p k = some r) :
    r.cur = (a + b * k.data.1 + c * k.data.2, d + e * k.data.1 + f * k.data.2) ∧
    r.disp = (a + b * r.data.1 + c * r.data.2, d + e * r.data.1 + f * r.data.2) ∧
    ∃ (u : ℝ × ℝ) (sp : ℝ), u.1 * u.1 + u.2 * u.2 = 1 ∧
      (r.disp, r.clipped) = clip p.view (corrected k.prev r.cur)
        ((corrected k.prev r.cur).1 + u.1 * min (stepLen p.step sp p.scale) (p.maxLen - k.travelled),
          (corrected k.prev r.cur).2 + u.2 * min (stepLen p.step sp p.scale) (p.maxLen - k.travelled)) := by
  obtain ⟨st, u, sp, j00, j01, j10, j11, ds, o⟩ := stepOnce_origin h
  obtain ⟨a1, a2, a3, a4, a5, a6⟩ := hA.all _ _ _ o.hst
  have hJ : j00 = b ∧ j01 = c ∧ j10 = e ∧ j11 = f := by
    rcases o.kind with ⟨-, -, k1, k2, k3, k4⟩ | ⟨x, y, nx, hn, -, -, -, k1, k2, k3, k4⟩
    · exact ⟨k1.trans a2, k2.trans a3, k3.trans a4, k4.trans a5⟩
    · obtain ⟨-, b2, b3, b4, b5, -⟩ := hA.all _ _ _ hn
      rw [a2, b2] at k1; rw [a3, b3] at k2; rw [a4, b4] at k3; rw [a5, b5] at k4
      exact ⟨by linarith, by linarith, by linarith, by linarith⟩
  have hu : u.1 * u.1 + u.2 * u.2 = 1 := by
    rcases o.kind with ⟨k1, -⟩ | ⟨x, y, nx, hn, k1, k2, -⟩
    · rw [k1]; dsimp only; linear_combination (st.dir.1 * st.dir.1 + st.dir.2 * st.dir.2) * hs + a6
    · rw [k2]; exact unit_hyp k1
  obtain ⟨s1, s2⟩ := C271_step _ _ _ _ _ _ o.hds
  obtain ⟨rfl, rfl, rfl, rfl⟩ := hJ
  refine ⟨o.cur.trans a1, ?_, u, sp, hu, ?_⟩
  · rw [o.data]
    rw [a1] at s1 s2
    dsimp only at s1 s2 ⊢
    refine Prod.ext ?_ ?_ <;> dsimp only <;> linarith
  · rw [o.cur]; exact o.disp

private theorem corrected_dist (q cur : ℝ × ℝ) : dist cur (corrected (some q) cur) = dist q cur / 3 := by
  unfold dist corrected
  dsimp only
  rw [show cur.1 - (cur.1 - q.1) / 3 - cur.1 = 1 / 3 * (-(cur.1 - q.1)) by ring,
    show cur.2 - (cur.2 - q.2) / 3 - cur.2 = 1 / 3 * (-(cur.2 - q.2)) by ring, hyp_smul _ _ _ (by norm_num)]
  have : hyp (-(cur.1 - q.1)) (-(cur.2 - q.2)) = hyp (cur.1 - q.1) (cur.2 - q.2) := by
    unfold hyp; congr 1; ring
  rw [this]; ring

theorem dist_triangle (p q r : ℝ × ℝ) : dist p r ≤ dist p q + dist q r := by
  unfold dist
  have := hyp_add (q.1 - p.1) (q.2 - p.2) (r.1 - q.1) (r.2 - q.2)
  rwa [show q.1 - p.1 + (r.1 - q.1) = r.1 - p.1 by ring, show q.2 - p.2 + (r.2 - q.2) = r.2 - p.2 by ring] at this

private theorem clip_dist (w : View) (s u : ℝ × ℝ) (len : ℝ) (hu : u.1 * u.1 + u.2 * u.2 = 1) (hl : 0 ≤ len) :
    dist s (clip w s (s.1 + u.1 * len, s.2 + u.2 * len)).1 ≤ len := by
  obtain ⟨⟨k, k0, k1, hk⟩, -⟩ := C272_clip w s (s.1 + u.1 * len, s.2 + u.2 * len)
  rw [hk]
  unfold dist
  dsimp only
  apply hyp_le hl
  have : (s.1 + (s.1 + u.1 * len - s.1) * k - s.1) * (s.1 + (s.1 + u.1 * len - s.1) * k - s.1) +
      (s.2 + (s.2 + u.2 * len - s.2) * k - s.2) * (s.2 + (s.2 + u.2 * len - s.2) * k - s.2) =
      (u.1 * u.1 + u.2 * u.2) * (len * len) * (k * k) := by ring
  rw [this, hu, one_mul]
  have hk2 : k * k ≤ 1 := by nlinarith
  nlinarith [mul_nonneg hl hl]

private theorem corrected_in {w : View} {q cur : ℝ × ℝ} (h1 : w.contains q) (h2 : w.contains cur) :
    w.contains (corrected (some q) cur) := by
  obtain ⟨a, b, c, d⟩ := h1
  obtain ⟨a', b', c', d'⟩ := h2
  unfold corrected
  exact ⟨by dsimp only; linarith, by dsimp only; linarith, by dsimp only; linarith, by dsimp only; linarith⟩

/-- The loop under a linear display map: images, distances, panel and length. -/
private theorem loop_affine {g : Grid} {sample : ℝ → ℝ → Option State} {a b c d e f : ℝ} (hA : Affine sample a b c d e f)
    (p : Params) (hs : p.sign * p.sign = 1) (n : ℕ) (k : Cur) (cur : ℝ × ℝ)
    (hcur : cur = (a + b * k.data.1 + c * k.data.2, d + e * k.data.1 + f * k.data.2))
    (hd : ∀ q, k.prev = some q → dist q cur ≤ 3 / 2 * max p.step (35 / 100)) :
    (∀ v ∈ loop g sample p n k, v.2 = (a + b * v.1.1 + c * v.1.2, d + e * v.1.1 + f * v.1.2)) ∧
    List.IsChain (fun v w => 2 / 10 < dist v w) (cur :: (loop g sample p n k).map Prod.snd) ∧
    ((p.view.contains cur ∧ ∀ q, k.prev = some q → p.view.contains q) → ∀ v ∈ loop g sample p n k, p.view.nearly v.2) ∧
    arc (cur :: (loop g sample p n k).map Prod.snd) ≤
      (if p.maxLen - k.travelled ≤ 1 / 10 ^ 6 then 0 else p.maxLen - k.travelled + max p.step (35 / 100) / 2) := by
  induction n generalizing k cur with
  | zero =>
    unfold loop
    refine ⟨by simp, by simp, by simp, ?_⟩
    simp only [List.map_nil, arc]
    split_ifs with h
    · exact le_rfl
    · have : (0 : ℝ) < max p.step (35 / 100) := lt_of_lt_of_le (by norm_num) (le_max_right _ _)
      have : (0 : ℝ) < 1 / 10 ^ 6 := by norm_num
      linarith
  | succ n ih =>
    have hσ : (0 : ℝ) < max p.step (35 / 100) := lt_of_lt_of_le (by norm_num) (le_max_right _ _)
    have hm : (0 : ℝ) < 1 / 10 ^ 6 := by norm_num
    unfold loop
    rcases h : stepOnce g sample p k with _ | r
    · refine ⟨by simp, by simp, by simp, ?_⟩
      simp only [List.map_nil, arc]
      split_ifs with h
      · exact le_rfl
      · linarith
    · obtain ⟨s1, s2, u, sp, hu, s3⟩ := step_affine hA hs h
      obtain ⟨st, _, _, _, _, _, _, _, o⟩ := stepOnce_origin h
      have hrc : r.cur = cur := s1.trans hcur.symm
      have hleft := o.left
      have hlen : r.len = dist cur r.disp := by rw [o.len, ← o.cur, hrc]; rfl
      have hfar := o.far
      rw [hrc] at s3
      have hdisp : r.disp = (clip p.view (corrected k.prev cur)
        ((corrected k.prev cur).1 + u.1 * min (stepLen p.step sp p.scale) (p.maxLen - k.travelled),
          (corrected k.prev cur).2 + u.2 * min (stepLen p.step sp p.scale) (p.maxLen - k.travelled))).1 := by rw [← s3]
      have hclip : r.clipped = (clip p.view (corrected k.prev cur)
        ((corrected k.prev cur).1 + u.1 * min (stepLen p.step sp p.scale) (p.maxLen - k.travelled),
          (corrected k.prev cur).2 + u.2 * min (stepLen p.step sp p.scale) (p.maxLen - k.travelled))).2 := by rw [← s3]
      have hpos := stepLen_pos p.step sp p.scale
      have hle := stepLen_le p.step sp p.scale
      have hmin0 : 0 ≤ min (stepLen p.step sp p.scale) (p.maxLen - k.travelled) := le_min (by linarith) (by linarith)
      have hcd := clip_dist p.view (corrected k.prev cur) u _ hu hmin0
      rw [← hdisp] at hcd
      have hcc : dist cur (corrected k.prev cur) ≤ max p.step (35 / 100) / 2 := by
        cases hp : k.prev with
        | none =>
          unfold corrected dist hyp
          simp only [sub_self, mul_zero, add_zero, Real.sqrt_zero]
          linarith
        | some q => rw [corrected_dist]; have := hd q hp; linarith
      have htri := dist_triangle cur (corrected k.prev cur) r.disp
      have hm1 := min_le_left (stepLen p.step sp p.scale) (p.maxLen - k.travelled)
      have hm2 := min_le_right (stepLen p.step sp p.scale) (p.maxLen - k.travelled)
      obtain ⟨-, cl2, cl3, cl4⟩ := C272_clip p.view (corrected k.prev cur)
        ((corrected k.prev cur).1 + u.1 * min (stepLen p.step sp p.scale) (p.maxLen - k.travelled),
          (corrected k.prev cur).2 + u.2 * min (stepLen p.step sp p.scale) (p.maxLen - k.travelled))
      have hcorr : (p.view.contains cur ∧ ∀ q, k.prev = some q → p.view.contains q) → p.view.contains (corrected k.prev cur) := by
        rintro ⟨v1, v2⟩
        cases hp : k.prev with
        | none => exact v1
        | some q => exact corrected_in (v2 q hp) v1
      dsimp only
      rw [if_neg (not_le.mpr hleft)]
      by_cases hc : r.clipped = true
      · rw [if_pos hc]
        refine ⟨?_, ?_, ?_, ?_⟩
        · intro v hv; rw [List.mem_singleton] at hv; rw [hv]; exact s2
        · simp only [List.map_cons, List.map_nil, List.isChain_cons_cons, List.isChain_singleton, and_true]
          rw [← hlen]; exact hfar
        · intro hv v hv'; rw [List.mem_singleton] at hv'; rw [hv']
          dsimp only
          rw [hdisp]; exact cl4 (hcorr hv)
        · simp only [List.map_cons, List.map_nil, arc]
          linarith
      · rw [if_neg hc]
        obtain ⟨i1, i2, i3, i4⟩ := ih ⟨r.data, some r.cur, k.travelled + r.len⟩ r.disp s2 (by
          intro q hq
          obtain rfl := Option.some.inj hq
          rw [hrc]; linarith)
        refine ⟨?_, ?_, ?_, ?_⟩
        · intro v hv
          rcases List.mem_cons.mp hv with rfl | hv
          · exact s2
          · exact i1 v hv
        · simp only [List.map_cons, List.isChain_cons_cons]
          exact ⟨by rw [← hlen]; exact hfar, i2⟩
        · intro hv v hv'
          rcases List.mem_cons.mp hv' with rfl | hv'
          · dsimp only; rw [hdisp]; exact cl4 (hcorr hv)
          · refine i3 ⟨?_, ?_⟩ v hv'
            · have hce := cl2.mp (by rw [← hclip]; simpa using hc)
              rw [hdisp, cl3 hce]; exact hce
            · intro q hq
              obtain rfl := Option.some.inj hq
              rw [hrc]; exact hv.1
        · simp only [List.map_cons, arc]
          dsimp only at i4
          rw [← hlen]
          split_ifs at i4 <;> linarith

/-- C272: with a linear display map, the displayed vertices are the images of the vertices on the grid, each more than
0.2 pixels from the one before, and none is outside the panel by more than 1e-12 if the start is inside. -/
theorem C272_trace (g : Grid) (F : Fields) (a b c d e f : ℝ) (hdx : 0 < g.dx) (hdy : 0 < g.dy)
    (hF : LinearDisplay g F a b c d e f) (p : Params) (hs : p.sign = 1 ∨ p.sign = -1) (maxSteps : ℤ) (start : ℝ × ℝ)
    (l : List ((ℝ × ℝ) × (ℝ × ℝ))) (h : trace g F p maxSteps start = some l) :
    (∀ v ∈ l, v.2 = (a + b * v.1.1 + c * v.1.2, d + e * v.1.1 + f * v.1.2)) ∧
    List.IsChain (fun v w => 2 / 10 < dist v w) (l.map Prod.snd) ∧
    (p.view.contains (a + b * start.1 + c * start.2, d + e * start.1 + f * start.2) → ∀ v ∈ l, p.view.nearly v.2) := by
  have hA := sampleState_affine g F a b c d e f hdx hdy hF
  have hs' : p.sign * p.sign = 1 := by rcases hs with h | h <;> rw [h] <;> norm_num
  unfold trace traceWith at h
  rcases hst : sampleState g F start.1 start.2 with _ | st
  · rw [hst] at h; cases h
  rw [hst] at h
  dsimp only at h
  split_ifs at h with h1
  obtain rfl := Option.some.inj h
  obtain ⟨e1, -⟩ := hA.all _ _ _ hst
  obtain ⟨i1, i2, i3, -⟩ := loop_affine (g := g) hA p hs' (clampSteps maxSteps) ⟨start, none, 0⟩ st.disp e1 (by intro q hq; cases hq)
  refine ⟨?_, i2, ?_⟩
  · intro v hv
    rcases List.mem_cons.mp hv with rfl | hv
    · exact e1
    · exact i1 v hv
  · intro hv v hv'
    rw [← e1] at hv
    rcases List.mem_cons.mp hv' with rfl | hv'
    · obtain ⟨x1, x2, x3, x4⟩ := hv
      have := eps_pos
      exact ⟨by dsimp only; linarith, by dsimp only; linarith, by dsimp only; linarith, by dsimp only; linarith⟩
    · exact i3 ⟨hv, by intro q hq; cases hq⟩ v hv'

/-- The full statement of C273: the displayed branch is not longer than `max_length_px`. -/
def C273_statement : Prop :=
  ∀ (g : Grid) (F : Fields) (a b c d e f : ℝ) (p : Params) (maxSteps : ℤ) (start : ℝ × ℝ) (l : List ((ℝ × ℝ) × (ℝ × ℝ))),
    0 < g.dx → 0 < g.dy → LinearDisplay g F a b c d e f → (p.sign = 1 ∨ p.sign = -1) → 0 < p.step →
    trace g F p maxSteps start = some l → arc (l.map Prod.snd) ≤ p.maxLen

/-- C273, the part that holds: it is not longer than `max_length_px` and half a step.
Missing: the bound without the half step (false, see `C273_false`). -/
theorem C273_partial (g : Grid) (F : Fields) (a b c d e f : ℝ) (hdx : 0 < g.dx) (hdy : 0 < g.dy)
    (hF : LinearDisplay g F a b c d e f) (p : Params) (hs : p.sign = 1 ∨ p.sign = -1) (maxSteps : ℤ) (start : ℝ × ℝ)
    (l : List ((ℝ × ℝ) × (ℝ × ℝ))) (h : trace g F p maxSteps start = some l) :
    arc (l.map Prod.snd) ≤ p.maxLen + max p.step (35 / 100) / 2 := by
  have hA := sampleState_affine g F a b c d e f hdx hdy hF
  have hs' : p.sign * p.sign = 1 := by rcases hs with h | h <;> rw [h] <;> norm_num
  unfold trace traceWith at h
  rcases hst : sampleState g F start.1 start.2 with _ | st
  · rw [hst] at h; cases h
  rw [hst] at h
  dsimp only at h
  split_ifs at h with h1
  obtain rfl := Option.some.inj h
  obtain ⟨e1, -⟩ := hA.all _ _ _ hst
  obtain ⟨-, -, -, i4⟩ := loop_affine (g := g) hA p hs' (clampSteps maxSteps) ⟨start, none, 0⟩ st.disp e1 (by intro q hq; cases hq)
  simp only [List.map_cons]
  refine le_trans i4 ?_
  dsimp only
  split_ifs with h2
  · exfalso
    apply h1
    obtain ⟨c1, -⟩ := clampSteps_le maxSteps
    obtain ⟨m, hm⟩ : ∃ m, clampSteps maxSteps = m + 1 := ⟨clampSteps maxSteps - 1, by omega⟩
    rw [hm]
    unfold loop stepOnce
    dsimp only
    rw [if_pos h2]
    simp
  · linarith

/-! ### Uniform flow -/

/-- A grid of 101 by 101 nodes, one unit and one pixel apart. -/
noncomputable def gridW : Grid := ⟨101, 101, 0, 0, 1, 1⟩

/-- Uniform wind of speed one along the first axis, displayed as it is. -/
noncomputable def fieldsW : Fields :=
  ⟨fun _ => some 1, fun _ => some 0, fun k => some ((k % 101 : ℕ), (k / 101 : ℕ)), fun _ => true⟩

/-- Step of 3 pixels, a panel of 100 by 100 pixels. -/
noncomputable def paramsW (maxLen : ℝ) : Params := ⟨maxLen, 1, 3, 1, ⟨0, 0, 100, 100⟩⟩

theorem linearW : LinearDisplay gridW fieldsW 0 1 0 0 0 1 := by
  intro j hj i hi q hq
  have hq' := Option.some.inj hq
  rw [← hq']
  unfold gridW at hi ⊢
  dsimp only at hi ⊢
  have e1 : (j * 101 + i) % 101 = i := by omega
  have e2 : (j * 101 + i) / 101 = j := by omega
  rw [e1, e2]
  refine Prod.ext ?_ ?_ <;> dsimp only <;> ring

private theorem hyp_one : hyp 1 0 = 1 := by unfold hyp; norm_num

private theorem eps_lt : eps < 1 / 10 ^ 6 := by unfold eps; norm_num

theorem withinW {x y : ℝ} (h0 : 0 ≤ x) (h1 : x ≤ 100) (h2 : 0 ≤ y) (h3 : y ≤ 100) : gridW.within x y := by
  unfold gridW Grid.within Grid.xi Grid.yi
  norm_num
  exact ⟨h0, by linarith, h2, by linarith⟩

private theorem sampleW {x y : ℝ} (h0 : 0 ≤ x) (h1 : x ≤ 100) (h2 : 0 ≤ y) (h3 : y ≤ 100) :
    sampleState gridW fieldsW x y = some ⟨(x, y), (1, 0), 1, 0, 0, 1, 1⟩ := by
  have hw := withinW h0 h1 h2 h3
  have he := eps_lt
  have hW : Whole gridW fieldsW (fun _ _ => 1) (fun _ _ => 0) (fun j i => ((i : ℝ), (j : ℝ))) := by
    refine ⟨fun _ _ _ _ => rfl, fun _ _ _ _ => rfl, ?_, fun _ _ _ _ => rfl⟩
    intro j hj i hi
    unfold gridW at hi ⊢
    dsimp only at hi ⊢
    unfold fieldsW
    dsimp only
    have e1 : (j * 101 + i) % 101 = i := by omega
    have e2 : (j * 101 + i) / 101 = j := by omega
    rw [e1, e2]
  have hp1 : ∀ j i p q, patch (fun _ _ => 1) j i p q = 1 := by intro j i p q; unfold patch; ring
  have hp0 : ∀ j i p q, patch (fun _ _ => 0) j i p q = 0 := by intro j i p q; unfold patch; ring
  have hx : 2 ≤ gridW.nx := by unfold gridW; norm_num
  have hy : 2 ≤ gridW.ny := by unfold gridW; norm_num
  have hdx : 0 < gridW.dx := by unfold gridW; norm_num
  have hdy : 0 < gridW.dy := by unfold gridW; norm_num
  obtain ⟨st, hst, -⟩ := C270_affine gridW fieldsW _ _ _ hW hx hy hdx hdy 0 1 0 0 0 1
    (by intro j i; unfold gridW; dsimp only; refine Prod.ext ?_ ?_ <;> dsimp only <;> ring) x y hw
    (by norm_num; linarith) _ _ (cell_inCell hx hy hw) (by rw [hp1, hp0]; norm_num; rw [hyp_one]; linarith)
  obtain ⟨a1, a2, a3, a4, a5, a6⟩ := (sampleState_affine gridW fieldsW 0 1 0 0 0 1 hdx hdy linearW).all _ _ _ hst
  obtain ⟨-, j, i, -, -, -, -, b1, -, r, hr, b2, b3⟩ := C270_state gridW fieldsW _ _ _ hW hx hy hdx hdy x y st hst
  rw [hp1, hp0] at b1 b2 b3
  rw [a2, a3] at b2
  rw [a4, a5] at b3
  rw [hyp_one] at b1
  have d2 : st.dir.2 = 0 := by
    have : r * st.dir.2 = 0 := by linarith
    rcases mul_eq_zero.mp this with h | h
    · exact absurd h hr.ne'
    · exact h
  have d1 : st.dir.1 = 1 := by
    rw [d2] at a6
    have hp : 0 < st.dir.1 := by
      by_contra hn
      have := mul_nonpos_of_nonneg_of_nonpos hr.le (not_lt.mp hn)
      linarith
    nlinarith
  rw [hst]
  obtain ⟨disp, dir, j00, j01, j10, j11, speed⟩ := st
  dsimp only at *
  subst a2 a3 a4 a5 b1
  rw [a1, show dir = (1, 0) from Prod.ext d1 d2]
  congr 3 <;> ring

private theorem stepLenW : stepLen 3 1 1 = 3 := by
  have := eps_lt
  unfold stepLen
  dsimp only
  rw [if_neg (by linarith : ¬ (1 : ℝ) ≤ eps)]
  norm_num

private theorem clipW {s e : ℝ × ℝ} (h : 0 ≤ e.1 ∧ e.1 ≤ 100 ∧ 0 ≤ e.2 ∧ e.2 ≤ 100) : clip ⟨0, 0, 100, 100⟩ s e = (e, false) := by
  unfold clip
  rw [if_pos]
  exact h

private theorem toDataW (s : ℝ × ℝ) : toData 1 0 0 1 s = some s := by
  have := eps_lt
  unfold toData
  dsimp only
  rw [if_neg (by norm_num; linarith)]
  norm_num

/-- One step of the uniform flow. -/
private theorem stepW {maxLen x y t : ℝ} {prev : Option (ℝ × ℝ)} (hx0 : 0 ≤ x) (hx1 : x ≤ 100) (hy0 : 0 ≤ y) (hy1 : y ≤ 100)
    (hrem : 1 / 10 ^ 6 < maxLen - t) (x' x1 : ℝ) (hcorr : corrected prev (x, y) = (x', y)) (h1 : x1 = x' + min 3 (maxLen - t))
    (hx10 : 0 ≤ x1) (hx11 : x1 ≤ 100) (hfar : 2 / 10 < |x1 - x|) :
    stepOnce gridW (sampleState gridW fieldsW) (paramsW maxLen) ⟨(x, y), prev, t⟩ =
      some ⟨(x1, y), (x1, y), (x, y), false, |x1 - x|⟩ := by
  have he := eps_lt
  have hmin : 1 / 10 ^ 6 < min 3 (maxLen - t) := lt_min (by norm_num) hrem
  have hhyp : ∀ z : ℝ, hyp z 0 = |z| := by
    intro z; unfold hyp; rw [mul_zero, add_zero, ← sq, Real.sqrt_sq_eq_abs]
  unfold stepOnce
  dsimp only [paramsW]
  rw [if_neg (not_le.mpr hrem), sampleW hx0 hx1 hy0 hy1]
  dsimp only
  rw [stepLenW, if_neg (not_le.mpr hmin), hcorr]
  dsimp only
  have e1 : x' + 1 * 1 * min 3 (maxLen - t) = x1 := by rw [h1]; ring
  have e2 : y + 1 * 0 * min 3 (maxLen - t) = y := by ring
  rw [e1, e2, clipW ⟨hx10, hx11, hy0, hy1⟩, toDataW]
  dsimp only
  rw [show x + (x1 - x) = x1 by ring, show y + (y - y) = y by ring, if_neg (not_not.mpr (withinW hx10 hx11 hy0 hy1))]
  have hs : second gridW (sampleState gridW fieldsW) ⟨maxLen, 1, 3, 1, ⟨0, 0, 100, 100⟩⟩ (x, y) ⟨(x, y), (1, 0), 1, 0, 0, 1, 1⟩
      (maxLen - t) (x', y) (x1, y) ((x1, y), false) = some ((x1, y), ((x1, y), false)) := by
    unfold second
    dsimp only
    rw [sampleW hx10 hx11 hy0 hy1]
    dsimp only
    have n1 : (1 : ℝ) * (1 + 1) = 2 := by norm_num
    have n2 : (1 : ℝ) * (0 + 0) = 0 := by norm_num
    have n3 : |(2 : ℝ)| = 2 := abs_of_pos (by norm_num)
    rw [n1, n2, hhyp, n3, if_neg (by linarith)]
    have n4 : (1 : ℝ) / 2 * (1 + 1) = 1 := by norm_num
    have n5 : (1 : ℝ) / 2 * (0 + 0) = 0 := by norm_num
    rw [n4, n5, stepLenW]
    have e3 : x' + 2 / 2 * min 3 (maxLen - t) = x1 := by rw [h1]; ring
    have e4 : y + 0 / 2 * min 3 (maxLen - t) = y := by ring
    rw [e3, e4, clipW ⟨hx10, hx11, hy0, hy1⟩, toDataW]
    dsimp only
    rw [show x + (x1 - x) = x1 by ring, show y + (y - y) = y by ring, if_neg (not_not.mpr (withinW hx10 hx11 hy0 hy1))]
  rw [hs]
  dsimp only
  rw [sub_self, hhyp, if_neg (not_le.mpr hfar)]

/-- The branch of a uniform flow with a length just above one step: the second vertex lies 3 pixels downwind, the third
back at 2.1 pixels. -/
theorem traceW : trace gridW fieldsW (paramsW (31 / 10)) 512 (50, 50) =
    some [((50, 50), (50, 50)), ((53, 50), (53, 50)), ((521 / 10, 50), (521 / 10, 50))] := by
  have hc : clampSteps 512 = 512 := by decide
  unfold trace traceWith
  dsimp only
  rw [sampleW (by norm_num) (by norm_num) (by norm_num) (by norm_num), hc]
  have l1 : loop gridW (sampleState gridW fieldsW) (paramsW (31 / 10)) 512 ⟨(50, 50), none, 0⟩ =
      [((53, 50), (53, 50)), ((521 / 10, 50), (521 / 10, 50))] := by
    rw [show (512 : ℕ) = 509 + 1 + 1 + 1 from rfl]
    unfold loop
    rw [stepW (by norm_num) (by norm_num) (by norm_num) (by norm_num) (by norm_num) 50 53 rfl
      (by rw [min_eq_left (by norm_num)]; norm_num) (by norm_num) (by norm_num) (by norm_num)]
    dsimp only
    rw [if_neg (by simp)]
    congr 1
    unfold loop
    rw [stepW (by norm_num) (by norm_num) (by norm_num) (by norm_num) (by norm_num) 52 (521 / 10)
      (by unfold corrected; dsimp only; refine Prod.ext ?_ ?_ <;> norm_num)
      (by rw [min_eq_right (by norm_num)]; norm_num) (by norm_num) (by norm_num)
      (by rw [abs_of_neg (by norm_num)]; norm_num)]
    dsimp only
    rw [if_neg (by simp)]
    congr 1
    unfold loop stepOnce
    dsimp only [paramsW]
    rw [if_pos (by rw [abs_of_pos, abs_of_neg] <;> norm_num)]
  rw [l1]
  dsimp only
  rw [if_neg (by simp)]

/-- A branch of the uniform flow with length 5. -/
theorem traceD : trace gridW fieldsW (paramsW 5) 512 (50, 50) =
    some [((50, 50), (50, 50)), ((53, 50), (53, 50)), ((54, 50), (54, 50)), ((164 / 3, 50), (164 / 3, 50))] := by
  have hc : clampSteps 512 = 512 := by decide
  unfold trace traceWith
  dsimp only
  rw [sampleW (by norm_num) (by norm_num) (by norm_num) (by norm_num), hc]
  have l1 : loop gridW (sampleState gridW fieldsW) (paramsW 5) 512 ⟨(50, 50), none, 0⟩ =
      [((53, 50), (53, 50)), ((54, 50), (54, 50)), ((164 / 3, 50), (164 / 3, 50))] := by
    rw [show (512 : ℕ) = 508 + 1 + 1 + 1 + 1 from rfl]
    unfold loop
    rw [stepW (by norm_num) (by norm_num) (by norm_num) (by norm_num) (by norm_num) 50 53 rfl
      (by rw [min_eq_left (by norm_num)]; norm_num) (by norm_num) (by norm_num) (by norm_num)]
    dsimp only
    rw [if_neg (by simp)]
    congr 1
    unfold loop
    rw [stepW (by norm_num) (by norm_num) (by norm_num) (by norm_num) (by norm_num) 52 54
      (by unfold corrected; dsimp only; refine Prod.ext ?_ ?_ <;> norm_num)
      (by rw [min_eq_right (by norm_num)]; norm_num) (by norm_num) (by norm_num)
      (by norm_num)]
    dsimp only
    rw [if_neg (by simp)]
    congr 1
    unfold loop
    rw [stepW (by norm_num) (by norm_num) (by norm_num) (by norm_num) (by norm_num) (161 / 3) (164 / 3)
      (by unfold corrected; dsimp only; refine Prod.ext ?_ ?_ <;> norm_num)
      (by rw [min_eq_right (by norm_num)]; norm_num) (by norm_num) (by norm_num)
      (by rw [abs_of_pos (by norm_num)]; norm_num)]
    dsimp only
    rw [if_neg (by simp)]
    congr 1
    have a1 : |(53 : ℝ) - 50| = 3 := by norm_num
    have a2 : |(54 : ℝ) - 53| = 1 := by norm_num
    have a3 : |(164 / 3 : ℝ) - 54| = 2 / 3 := by rw [abs_of_pos (by norm_num)]; norm_num
    rw [a1, a2, a3]
    unfold loop
    have hnone : stepOnce gridW (sampleState gridW fieldsW) (paramsW 5) ⟨(164 / 3, 50), some (54, 50), 0 + 3 + 1 + 2 / 3⟩ = none := by
      have he := eps_lt
      have hhyp : ∀ z : ℝ, hyp z 0 = |z| := by
        intro z; unfold hyp; rw [mul_zero, add_zero, ← sq, Real.sqrt_sq_eq_abs]
      have hm : min (3 : ℝ) (5 - (0 + 3 + 1 + 2 / 3)) = 1 / 3 := by rw [min_eq_right (by norm_num)]; norm_num
      unfold stepOnce
      dsimp only [paramsW]
      rw [if_neg (by norm_num), sampleW (by norm_num) (by norm_num) (by norm_num) (by norm_num)]
      dsimp only
      rw [stepLenW, hm, if_neg (by norm_num)]
      unfold corrected
      dsimp only
      have e1 : (164 / 3 : ℝ) - (164 / 3 - 54) / 3 + 1 * 1 * (1 / 3) = 493 / 9 := by norm_num
      have e2 : (50 : ℝ) - (50 - 50) / 3 + 1 * 0 * (1 / 3) = 50 := by norm_num
      rw [e1, e2, clipW ⟨by norm_num, by norm_num, by norm_num, by norm_num⟩, toDataW]
      dsimp only
      have e3 : (164 / 3 : ℝ) + (493 / 9 - 164 / 3) = 493 / 9 := by norm_num
      have e4 : (50 : ℝ) + (50 - 50) = 50 := by norm_num
      rw [e3, e4, if_neg (not_not.mpr (withinW (by norm_num) (by norm_num) (by norm_num) (by norm_num)))]
      unfold second
      dsimp only
      rw [sampleW (by norm_num) (by norm_num) (by norm_num) (by norm_num)]
      dsimp only
      have n1 : (1 : ℝ) * (1 + 1) = 2 := by norm_num
      have n2 : (1 : ℝ) * (0 + 0) = 0 := by norm_num
      have n3 : |(2 : ℝ)| = 2 := abs_of_pos (by norm_num)
      have n4 : (1 : ℝ) / 2 * (1 + 1) = 1 := by norm_num
      have n5 : (1 : ℝ) / 2 * (0 + 0) = 0 := by norm_num
      rw [n1, n2, hhyp, n3, if_neg (by linarith), n4, n5, stepLenW, hm]
      have e5 : (164 / 3 : ℝ) - (164 / 3 - 54) / 3 + 2 / 2 * (1 / 3) = 493 / 9 := by norm_num
      have e6 : (50 : ℝ) - (50 - 50) / 3 + 0 / 2 * (1 / 3) = 50 := by norm_num
      rw [e5, e6, clipW ⟨by norm_num, by norm_num, by norm_num, by norm_num⟩, toDataW]
      dsimp only
      rw [e3, e4, if_neg (not_not.mpr (withinW (by norm_num) (by norm_num) (by norm_num) (by norm_num)))]
      dsimp only
      rw [sub_self, hhyp, if_pos (by rw [abs_of_pos (by norm_num)]; norm_num)]
    rw [hnone]
  rw [l1]
  dsimp only
  rw [if_neg (by simp)]

/-- C273 is false: in a uniform flow with steps of 3 pixels, the branch of length 3.1 is 3.9 pixels long. -/
theorem C273_false : ¬ C273_statement := by
  intro H
  have h1 := H gridW fieldsW 0 1 0 0 0 1 (paramsW (31 / 10)) 512 (50, 50) _ (by unfold gridW; norm_num) (by unfold gridW; norm_num)
    linearW (Or.inl rfl) (by unfold paramsW; norm_num) traceW
  simp only [List.map_cons, List.map_nil, arc, dist, sub_self] at h1
  have hhyp : ∀ z : ℝ, hyp z 0 = |z| := by
    intro z; unfold hyp; rw [mul_zero, add_zero, ← sq, Real.sqrt_sq_eq_abs]
  rw [hhyp, hhyp, abs_of_pos (by norm_num), abs_of_neg (by norm_num)] at h1
  unfold paramsW at h1
  norm_num at h1

/-- The full statement of C274: where the wind is the same everywhere, every vertex of a branch traced downwind lies
further downwind than the one before. -/
def C274_statement : Prop :=
  ∀ (g : Grid) (F : Fields) (u v : ℝ) (p : Params) (maxSteps : ℤ) (start : ℝ × ℝ) (l : List ((ℝ × ℝ) × (ℝ × ℝ))),
    0 < g.dx → 0 < g.dy → LinearDisplay g F 0 1 0 0 0 1 → (∀ k, F.u k = some u) → (∀ k, F.v k = some v) → p.sign = 1 →
    trace g F p maxSteps start = some l →
    List.IsChain (fun a b : ℝ × ℝ => 0 < u * (b.1 - a.1) + v * (b.2 - a.2)) (l.map Prod.snd)

private theorem uniform_dir {g : Grid} {F : Fields} {a b c d e f u v : ℝ} (hdx : 0 < g.dx) (hdy : 0 < g.dy)
    (hF : LinearDisplay g F a b c d e f) (hu : ∀ k, F.u k = some u) (hv : ∀ k, F.v k = some v) {x y : ℝ} {st : State}
    (h : sampleState g F x y = some st) :
    ∃ r, 0 < r ∧ r * st.dir.1 = b * u + c * v ∧ r * st.dir.2 = e * u + f * v := by
  obtain ⟨-, a2, a3, a4, a5, -⟩ := (sampleState_affine g F a b c d e f hdx hdy hF).all _ _ _ h
  unfold sampleState at h
  split_ifs at h with h1 h2
  dsimp only at h
  split_ifs at h with h3
  simp only [hu, hv] at h
  split at h
  swap
  · cases h
  rename_i uv vv p00 p01 p10 p11 eu ev h00 h01 h10 h11
  have e1 : uv = u := by
    have := Option.some.inj eu; rw [← this]; ring
  have e2 : vv = v := by
    have := Option.some.inj ev; rw [← this]; ring
  subst e1 e2
  unfold stateOf at h
  dsimp only at h
  split_ifs at h with h4 h5
  obtain rfl := Option.some.inj h
  dsimp only at a2 a3 a4 a5 ⊢
  have hp := lt_trans eps_pos (not_le.mp h5)
  refine ⟨_, hp, ?_, ?_⟩
  · rw [mul_div_cancel₀ _ hp.ne', a2, a3]
  · rw [mul_div_cancel₀ _ hp.ne', a4, a5]

/-- On the straight line through `s` along `m`. -/
def onLine (m s q : ℝ × ℝ) : Prop := m.1 * (q.2 - s.2) - m.2 * (q.1 - s.1) = 0

private theorem loop_line {g : Grid} {F : Fields} {a b c d e f u v : ℝ} (hdx : 0 < g.dx) (hdy : 0 < g.dy)
    (hF : LinearDisplay g F a b c d e f) (hu : ∀ k, F.u k = some u) (hv : ∀ k, F.v k = some v) (p : Params)
    (hs : p.sign * p.sign = 1) (s : ℝ × ℝ) (n : ℕ) (k : Cur)
    (hcur : onLine (b * u + c * v, e * u + f * v) s (a + b * k.data.1 + c * k.data.2, d + e * k.data.1 + f * k.data.2))
    (hprev : ∀ q, k.prev = some q → onLine (b * u + c * v, e * u + f * v) s q) :
    ∀ w ∈ loop g (sampleState g F) p n k, onLine (b * u + c * v, e * u + f * v) s w.2 := by
  have hA := sampleState_affine g F a b c d e f hdx hdy hF
  induction n generalizing k with
  | zero => simp [loop]
  | succ n ih =>
    unfold loop
    rcases h : stepOnce g (sampleState g F) p k with _ | r
    · simp
    obtain ⟨s1, s2, -⟩ := step_affine hA hs h
    obtain ⟨st, q, sp, j00, j01, j10, j11, ds, o⟩ := stepOnce_origin h
    obtain ⟨ρ, hρ, d1, d2⟩ := uniform_dir hdx hdy hF hu hv o.hst
    have hdir : (b * u + c * v) * q.2 - (e * u + f * v) * q.1 = 0 := by
      rcases o.kind with ⟨k1, -⟩ | ⟨x, y, nx, hn, -, k2, -⟩
      · rw [k1]; dsimp only; rw [← d1, ← d2]; ring
      · obtain ⟨ρ', hρ', d1', d2'⟩ := uniform_dir hdx hdy hF hu hv hn
        rw [k2]
        dsimp only
        generalize hyp _ _ = z
        have h1 : (b * u + c * v) * st.dir.2 - (e * u + f * v) * st.dir.1 = 0 := by rw [← d1, ← d2]; ring
        have h2 : (b * u + c * v) * nx.dir.2 - (e * u + f * v) * nx.dir.1 = 0 := by rw [← d1', ← d2']; ring
        have : (b * u + c * v) * (p.sign * (st.dir.2 + nx.dir.2) / z) - (e * u + f * v) * (p.sign * (st.dir.1 + nx.dir.1) / z) =
            p.sign / z * (((b * u + c * v) * st.dir.2 - (e * u + f * v) * st.dir.1) +
              ((b * u + c * v) * nx.dir.2 - (e * u + f * v) * nx.dir.1)) := by ring
        rw [this, h1, h2]; ring
    rw [← s1, o.cur] at hcur
    have hcorr : onLine (b * u + c * v, e * u + f * v) s (corrected k.prev st.disp) := by
      unfold corrected
      cases hp : k.prev with
      | none => exact hcur
      | some z =>
        have hz := hprev z hp
        unfold onLine at hz hcur ⊢
        dsimp only at hz hcur ⊢
        linarith
    have hdisp : onLine (b * u + c * v, e * u + f * v) s r.disp := by
      have e1 := congrArg Prod.fst o.disp
      dsimp only at e1
      obtain ⟨⟨t, -, -, ht⟩, -⟩ := C272_clip p.view (corrected k.prev st.disp)
        ((corrected k.prev st.disp).1 + q.1 * min (stepLen p.step sp p.scale) (p.maxLen - k.travelled),
          (corrected k.prev st.disp).2 + q.2 * min (stepLen p.step sp p.scale) (p.maxLen - k.travelled))
      rw [e1, ht]
      unfold onLine at hcorr ⊢
      dsimp only at hcorr ⊢
      linear_combination hcorr + min (stepLen p.step sp p.scale) (p.maxLen - k.travelled) * t * hdir
    dsimp only
    split_ifs
    · intro w hw; rw [List.mem_singleton] at hw; rw [hw]; exact hdisp
    · intro w hw
      rcases List.mem_cons.mp hw with rfl | hw
      · exact hdisp
      · refine ih ⟨r.data, some r.cur, k.travelled + r.len⟩ ?_ ?_ w hw
        · dsimp only; rw [← s2]; exact hdisp
        · intro z hz
          obtain rfl := Option.some.inj hz
          rw [o.cur]; exact hcur

/-- C274, the part that holds: where the wind is the same everywhere and the display map is linear, a branch is straight: all
vertices lie on the line through the start along the displayed wind. Missing: the order along that line (false, see `C274_false`). -/
theorem C274_partial (g : Grid) (F : Fields) (a b c d e f u v : ℝ) (hdx : 0 < g.dx) (hdy : 0 < g.dy)
    (hF : LinearDisplay g F a b c d e f) (hu : ∀ k, F.u k = some u) (hv : ∀ k, F.v k = some v) (p : Params)
    (hs : p.sign = 1 ∨ p.sign = -1) (maxSteps : ℤ) (start : ℝ × ℝ) (l : List ((ℝ × ℝ) × (ℝ × ℝ)))
    (h : trace g F p maxSteps start = some l) :
    ∀ w ∈ l, onLine (b * u + c * v, e * u + f * v) (a + b * start.1 + c * start.2, d + e * start.1 + f * start.2) w.2 := by
  have hA := sampleState_affine g F a b c d e f hdx hdy hF
  have hs' : p.sign * p.sign = 1 := by rcases hs with h | h <;> rw [h] <;> norm_num
  unfold trace traceWith at h
  rcases hst : sampleState g F start.1 start.2 with _ | st
  · rw [hst] at h; cases h
  rw [hst] at h
  dsimp only at h
  split_ifs at h with h1
  obtain rfl := Option.some.inj h
  obtain ⟨e1, -⟩ := hA.all _ _ _ hst
  intro w hw
  rcases List.mem_cons.mp hw with rfl | hw
  · rw [e1]; unfold onLine; ring
  · refine loop_line hdx hdy hF hu hv p hs' _ _ ⟨start, none, 0⟩ ?_ (by intro q hq; cases hq) w hw
    unfold onLine; ring

/-- C274: the first step of a branch in a uniform wind goes downwind (upwind for a branch traced backwards). -/
theorem C274_first (g : Grid) (F : Fields) (a b c d e f u v : ℝ) (hdx : 0 < g.dx) (hdy : 0 < g.dy)
    (hF : LinearDisplay g F a b c d e f) (hu : ∀ k, F.u k = some u) (hv : ∀ k, F.v k = some v) (p : Params)
    (hs : p.sign = 1 ∨ p.sign = -1) (maxSteps : ℤ) (start : ℝ × ℝ) (l : List ((ℝ × ℝ) × (ℝ × ℝ)))
    (h : trace g F p maxSteps start = some l) :
    ∃ q rest, l.map Prod.snd = (a + b * start.1 + c * start.2, d + e * start.1 + f * start.2) :: q :: rest ∧
      0 < p.sign * ((b * u + c * v) * (q.1 - (a + b * start.1 + c * start.2)) +
        (e * u + f * v) * (q.2 - (d + e * start.1 + f * start.2))) := by
  have hA := sampleState_affine g F a b c d e f hdx hdy hF
  have hs' : p.sign * p.sign = 1 := by rcases hs with h | h <;> rw [h] <;> norm_num
  unfold trace traceWith at h
  rcases hst : sampleState g F start.1 start.2 with _ | st
  · rw [hst] at h; cases h
  rw [hst] at h
  dsimp only at h
  split_ifs at h with h1
  obtain rfl := Option.some.inj h
  obtain ⟨e1, -⟩ := hA.all _ _ _ hst
  obtain ⟨c1, -⟩ := clampSteps_le maxSteps
  obtain ⟨n, hn⟩ : ∃ n, clampSteps maxSteps = n + 1 := ⟨clampSteps maxSteps - 1, by omega⟩
  rw [hn] at h1 ⊢
  unfold loop at h1 ⊢
  rcases hr : stepOnce g (sampleState g F) p ⟨start, none, 0⟩ with _ | r
  · rw [hr] at h1; simp at h1
  obtain ⟨st', q, sp, j00, j01, j10, j11, ds, o⟩ := stepOnce_origin hr
  have hst' : st' = st := by
    have := o.hst
    dsimp only at this
    rw [hst] at this
    exact (Option.some.inj this).symm
  subst hst'
  refine ⟨r.disp, _, by simp only [List.map_cons]; rw [← e1], ?_⟩
  have hpos := stepLen_pos p.step sp p.scale
  have hleft := o.left
  dsimp only at hleft
  have hmin : 0 < min (stepLen p.step sp p.scale) (p.maxLen - 0) := lt_min (by linarith) (by
    have : (0 : ℝ) < 1 / 10 ^ 6 := by norm_num
    linarith)
  obtain ⟨⟨t, t0, -, ht⟩, -⟩ := C272_clip p.view (corrected none st'.disp)
    ((corrected none st'.disp).1 + q.1 * min (stepLen p.step sp p.scale) (p.maxLen - 0),
      (corrected none st'.disp).2 + q.2 * min (stepLen p.step sp p.scale) (p.maxLen - 0))
  have hd := congrArg Prod.fst o.disp
  dsimp only at hd
  rw [ht] at hd
  dsimp only [corrected] at hd
  generalize min (stepLen p.step sp p.scale) (p.maxLen - 0) = len at hmin hd
  obtain ⟨ρ, hρ, d1, d2⟩ := uniform_dir hdx hdy hF hu hv o.hst
  obtain ⟨-, -, -, -, -, hunit⟩ := hA.all _ _ _ o.hst
  have hdot : 0 < p.sign * ((b * u + c * v) * q.1 + (e * u + f * v) * q.2) := by
    rcases o.kind with ⟨k1, -⟩ | ⟨x, y, nx, hn, k1, k2, -⟩
    · rw [k1]; dsimp only; rw [← d1, ← d2]
      have : p.sign * (ρ * st'.dir.1 * (p.sign * st'.dir.1) + ρ * st'.dir.2 * (p.sign * st'.dir.2)) = ρ := by
        linear_combination ρ * (st'.dir.1 * st'.dir.1 + st'.dir.2 * st'.dir.2) * hs' + ρ * hunit
      rw [this]; exact hρ
    · obtain ⟨ρ', hρ', d1', d2'⟩ := uniform_dir hdx hdy hF hu hv hn
      obtain ⟨-, -, -, -, -, hunit'⟩ := hA.all _ _ _ hn
      rw [k2]
      dsimp only
      have hz := lt_trans eps_pos k1
      generalize hyp (p.sign * (st'.dir.1 + nx.dir.1)) (p.sign * (st'.dir.2 + nx.dir.2)) = z at hz
      have : p.sign * ((b * u + c * v) * (p.sign * (st'.dir.1 + nx.dir.1) / z) + (e * u + f * v) * (p.sign * (st'.dir.2 + nx.dir.2) / z)) =
          (p.sign * p.sign) * (((b * u + c * v) * st'.dir.1 + (e * u + f * v) * st'.dir.2) +
            ((b * u + c * v) * nx.dir.1 + (e * u + f * v) * nx.dir.2)) / z := by ring
      rw [this, hs', one_mul]
      apply div_pos _ hz
      have x1 : (b * u + c * v) * st'.dir.1 + (e * u + f * v) * st'.dir.2 = ρ := by
        rw [← d1, ← d2]; linear_combination ρ * hunit
      have x2 : (b * u + c * v) * nx.dir.1 + (e * u + f * v) * nx.dir.2 = ρ' := by
        rw [← d1', ← d2']; linear_combination ρ' * hunit'
      rw [x1, x2]; linarith
  have htpos : 0 < t := by
    rcases t0.lt_or_eq with h | h
    · exact h
    · exfalso
      rw [← h] at hd
      have hfar := o.far
      rw [o.len, hd] at hfar
      dsimp only at hfar
      rw [show st'.disp.1 + (st'.disp.1 + q.1 * len - st'.disp.1) * 0 - st'.disp.1 = 0 by ring,
        show st'.disp.2 + (st'.disp.2 + q.2 * len - st'.disp.2) * 0 - st'.disp.2 = 0 by ring] at hfar
      unfold hyp at hfar
      norm_num at hfar
  have e1a := congrArg Prod.fst e1
  have e1b := congrArg Prod.snd e1
  dsimp only at e1a e1b
  rw [← e1a, ← e1b, hd]
  dsimp only
  have : p.sign * ((b * u + c * v) * (st'.disp.1 + (st'.disp.1 + q.1 * len - st'.disp.1) * t - st'.disp.1) +
      (e * u + f * v) * (st'.disp.2 + (st'.disp.2 + q.2 * len - st'.disp.2) * t - st'.disp.2)) =
      p.sign * ((b * u + c * v) * q.1 + (e * u + f * v) * q.2) * (len * t) := by ring
  rw [this]
  exact mul_pos hdot (mul_pos hmin htpos)

/-- C274 is false: the last step goes back upwind. -/
theorem C274_false : ¬ C274_statement := by
  intro H
  have h1 := H gridW fieldsW 1 0 (paramsW (31 / 10)) 512 (50, 50) _ (by unfold gridW; norm_num) (by unfold gridW; norm_num)
    linearW (fun _ => rfl) (fun _ => rfl) rfl traceW
  simp only [List.map_cons, List.map_nil, List.isChain_cons_cons, List.isChain_singleton] at h1
  norm_num at h1

end Skyborn.Plot.Curly
