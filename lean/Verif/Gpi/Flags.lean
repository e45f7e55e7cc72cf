/-
The error flag of gridded calls.
-/
import Verif.Gpi.Slices

namespace Skyborn.Gpi

open Classical

/-- The same number everywhere. -/
def flat (shape : List ℕ) (x : ℝ) : NDArr (Option ℝ) := ⟨shape, fun _ => some x⟩

/-- Two columns side by side, in three dimensions. -/
def two3 (n : ℕ) (f0 f1 : ℕ → ℝ) : NDArr (Option ℝ) := ⟨[n, 1, 2], fun i => some ((if i.getD 2 0 = 0 then f0 else f1) (i.headD 0 + 1))⟩

/-- Two columns side by side, in four dimensions. -/
def two4 (n : ℕ) (f0 f1 : ℕ → ℝ) : NDArr (Option ℝ) := ⟨[1, n, 1, 2], fun i => some ((if i.getD 3 0 = 0 then f0 else f1) (i.getD 1 0 + 1))⟩

theorem grid_ok {sst psl p t r : NDArr (Option ℝ)} {g : Grid} (actual : Option ℤ) (order : List (List ℕ)) (hg : prepareGrid sst psl p t r = .ok g)
    (h34 : t.shape.length = 3 ∨ t.shape.length = 4)
    (hp : ∀ idx ∈ (if t.shape.length = 4 then order else points2 (t.shape.getD 1 0) (t.shape.getD 2 0)), g.point 0 0.9 idx ≠ none) :
    ∃ out, potentialIntensity sst psl p t r actual order = .ok out := by
  unfold potentialIntensity
  rw [if_neg (by omega), if_pos h34, hg]
  show ∃ out, (g.all 0 0.9 _ _ >>= _) = _
  unfold Grid.all
  rw [if_neg]
  · exact ⟨_, rfl⟩
  · rintro ⟨idx, a, b⟩
    exact hp idx a b

theorem slice_two3 (n : ℕ) (f0 f1 : ℕ → ℝ) (x : ℕ) : Spec.slice (two3 n f0 f1) [0, x] = prof n (if x = 0 then f0 else f1) := by
  unfold Spec.slice two3 prof levelAxis
  simp

theorem slice_two4 (n : ℕ) (f0 f1 : ℕ → ℝ) (x : ℕ) : Spec.slice (two4 n f0 f1) [0, 0, x] = prof n (if x = 0 then f0 else f1) := by
  unfold Spec.slice two4 prof levelAxis
  simp

theorem flat_complete (shape : List ℕ) {x : ℝ} (h : -1e33 < x) : Spec.Complete (flat shape x) := by
  refine fun i _ => ⟨x, rfl, fun g => ?_⟩
  rw [g] at h
  unfold undef at h
  norm_num at h

theorem prof_complete {n : ℕ} {f : ℕ → ℝ} (h : ∀ k, -1e33 < f k) : Spec.Complete (prof n f) := by
  refine fun i _ => ⟨_, rfl, fun g => ?_⟩
  have := h (i.headD 0 + 1)
  rw [g] at this
  unfold undef at this
  norm_num at this

theorem two3_complete {n : ℕ} {f0 f1 : ℕ → ℝ} (h0 : ∀ k, -1e33 < f0 k) (h1 : ∀ k, -1e33 < f1 k) : Spec.Complete (two3 n f0 f1) := by
  refine fun i _ => ⟨_, rfl, fun g => ?_⟩
  have : -1e33 < (if i.getD 2 0 = 0 then f0 else f1) (i.headD 0 + 1) := by
    split_ifs
    · exact h0 _
    · exact h1 _
  rw [g] at this
  unfold undef at this
  norm_num at this

theorem two4_complete {n : ℕ} {f0 f1 : ℕ → ℝ} (h0 : ∀ k, -1e33 < f0 k) (h1 : ∀ k, -1e33 < f1 k) : Spec.Complete (two4 n f0 f1) := by
  refine fun i _ => ⟨_, rfl, fun g => ?_⟩
  have : -1e33 < (if i.getD 3 0 = 0 then f0 else f1) (i.getD 1 0 + 1) := by
    split_ifs
    · exact h0 _
    · exact h1 _
  rw [g] at this
  unfold undef at this
  norm_num at this

theorem prepared (sst psl : NDArr (Option ℝ)) (t r : NDArr (Option ℝ)) {n : ℕ} (p : ℕ → ℝ) (h1 : t.shape.getD (levelAxis t.shape.length) 0 = n)
    (h2 : sst.shape = surface t.shape) (h3 : psl.shape = surface t.shape) (h4 : t.shape = r.shape) : ∃ g, prepareGrid sst psl (prof n p) t r = .ok g := by
  unfold prepareGrid prof
  dsimp only
  rw [if_neg (by push Not; exact ⟨h1, h2, h3, h4⟩)]
  exact ⟨_, rfl⟩

/-- Two columns with the same levels, over the same sea: the call computes both. -/
theorem two3_call {c0 c1 : Column} {q : ℝ} {res0 res1 : Res} (order : List (List ℕ)) (hn : 1 ≤ c0.n) (e1 : c1.n = c0.n) (e2 : c1.p = c0.p) (e3 : c1.sst = c0.sst)
    (e4 : c1.psl = c0.psl) (ho : c0.p c0.n ≤ c0.p 1) (hs : 278.15 < c0.sst) (hq : c0.psl = q * 0.01) (hq0 : 0 < q) (s0 : c0.source = 0 ∧ c0.ckcd = 0.9)
    (s1 : c1.source = 0 ∧ c1.ckcd = 0.9) (hp : ∀ k, -1e33 < c0.p k) (ht : ∀ k, -1e33 < c0.t k ∧ -1e33 < c1.t k) (hr : ∀ k, -1e33 < c0.r k ∧ -1e33 < c1.r k)
    (h0 : core c0 = some res0) (h1 : core c1 = some res1) :
    ∃ out, potentialIntensity (flat [1, 2] c0.sst) (flat [1, 2] q) (prof c0.n c0.p) (two3 c0.n c0.t c1.t) (two3 c0.n c0.r c1.r) none order = .ok out ∧
      out.flag = res1.flag ∧ out.vmax [0, 0] = post res0.vmax ∧ out.vmax [0, 1] = post res1.vmax := by
  have p0 := profile_of hn ho hs hq h0
  have p1 := profile_of (c := c1) (by rw [e1]; exact hn) (by rw [e1, e2]; exact ho) (by rw [e3]; exact hs) (by rw [e4]; exact hq) h1
  rw [e1, e2, e3, s1.1, s1.2] at p1
  rw [s0.1, s0.2] at p0
  obtain ⟨g, hg⟩ := prepared (n := c0.n) (flat [1, 2] c0.sst) (flat [1, 2] q) (two3 c0.n c0.t c1.t) (two3 c0.n c0.r c1.r) c0.p rfl rfl rfl rfl
  have hm := complete_missing hg (flat_complete _ (by linarith)) (flat_complete _ (by linarith)) (prof_complete hp) (two3_complete (fun k => (ht k).1) fun k => (ht k).2)
    (two3_complete (fun k => (hr k).1) fun k => (hr k).2)
  have hn0 : (prof c0.n c0.p).shape ≠ [0] := by
    show [c0.n] ≠ [0]
    simp only [ne_eq, List.cons.injEq, and_true]
    omega
  have k0 : g.point 0 0.9 [0, 0] = some (res0, some res0.flag) := by
    rcases point_profile hg (Or.inl rfl) hn0 hm (idx := [0, 0]) ⟨by show 0 < 1; norm_num, by show 0 < 2; norm_num, trivial⟩ (s := c0.sst) (q := q) rfl rfl 0 0.9 with
      ⟨a, _⟩ | ⟨res, a, b⟩
    · rw [slice_two3, slice_two3, if_pos rfl, if_pos rfl, p0] at a
      cases a
    · rw [slice_two3, slice_two3, if_pos rfl, if_pos rfl, p0] at a
      cases a
      rw [b, if_neg (not_le.mpr hs)]
  have k1 : g.point 0 0.9 [0, 1] = some (res1, some res1.flag) := by
    rcases point_profile hg (Or.inl rfl) hn0 hm (idx := [0, 1]) ⟨by show 0 < 1; norm_num, by show 1 < 2; norm_num, trivial⟩ (s := c0.sst) (q := q) rfl rfl 0 0.9 with
      ⟨a, _⟩ | ⟨res, a, b⟩
    · rw [slice_two3, slice_two3, if_neg (by norm_num), if_neg (by norm_num), p1] at a
      cases a
    · rw [slice_two3, slice_two3, if_neg (by norm_num), if_neg (by norm_num), p1] at a
      cases a
      rw [b, if_neg (not_le.mpr hs)]
  have hpts : points2 1 2 = [[0, 0], [0, 1]] := rfl
  obtain ⟨out, ho'⟩ := grid_ok none order hg (Or.inl rfl) (by
    rw [if_neg (show ¬ (two3 c0.n c0.t c1.t).shape.length = 4 by show ¬ 3 = 4; norm_num)]
    show ∀ idx ∈ points2 1 2, _
    rw [hpts]
    intro idx hi
    simp only [List.mem_cons, List.not_mem_nil, or_false] at hi
    rcases hi with rfl | rfl
    · rw [k0]; simp
    · rw [k1]; simp)
  refine ⟨out, ho', ?_⟩
  obtain ⟨g', hg', _, _, d1, d2⟩ := call_inv (by show 3 ≠ 1; norm_num) (fun h => by change 3 = 4 at h; omega) ho'
  rw [hg] at hg'
  cases hg'
  refine ⟨?_, ?_, ?_⟩
  · rw [d2, if_neg (show ¬ (two3 c0.n c0.t c1.t).shape.length = 4 by show ¬ 3 = 4; norm_num)]
    show gridFlag 3 g.missing ((points2 1 2).map _) = _
    rw [hpts]
    simp only [List.map_cons, List.map_nil, k0, k1]
    rfl
  · obtain ⟨res, f, a, _, b⟩ := d1 [0, 0] ⟨by show 0 < 1; norm_num, by show 0 < 2; norm_num, trivial⟩
    rw [k0] at a
    cases a
    exact b
  · obtain ⟨res, f, a, _, b⟩ := d1 [0, 1] ⟨by show 0 < 1; norm_num, by show 1 < 2; norm_num, trivial⟩
    rw [k1] at a
    cases a
    exact b

/-- The columns of `windy`, with no vapour at the lowest level. -/
noncomputable def arid : Column := ⟨3, (windy 0 0.9).t, (windy 0 0.9).p, fun _ => 0, 303, 97000 * 0.01, 0, 0.9⟩

theorem windy_range (k : ℕ) : 0 < (windy 0 0.9).p k ∧ 0 < (windy 0 0.9).t k ∧ 0 ≤ (windy 0 0.9).r k := by
  refine ⟨?_, ?_, ?_⟩
  · show (0 : ℝ) < if k = 1 then 971 else if k = 2 then 970 else 50
    split_ifs <;> norm_num
  · show (0 : ℝ) < if k = 1 then 300 else if k = 2 then 301 else 200
    split_ifs <;> norm_num
  · show (0 : ℝ) ≤ if k = 1 then 0.001 else 0
    split_ifs <;> norm_num

theorem arid_core : core arid = some (arid.early (undef, undef) 0) :=
  core_dry (by show 3 ≠ 0; norm_num) (fun i _ _ => (windy_range i).1) (Or.inl (by show (0 : ℝ) < _; norm_num))

/-- C196, full statement for three dimensions: the flag is 1 only if every point over warm water was computed with success. False: it is the flag of the last
point (here the first of two points failed). -/
theorem C196_three_false : ¬ ∀ (sst psl p t r : NDArr (Option ℝ)) (actual : Option ℤ) (order : List (List ℕ)) (out : Intensity), t.shape.length = 3 →
    potentialIntensity sst psl p t r actual order = .ok out → Spec.Complete sst → Spec.Complete psl → Spec.Complete p → Spec.Complete t → Spec.Complete r →
    out.flag = 1 → ∀ idx, InB out.shape idx → ∀ s q out', sst.get idx = some s → 278.15 < s → psl.get idx = some q →
      potentialIntensity (num s) (num q) p (Spec.slice t idx) (Spec.slice r idx) none [] = .ok out' → out'.flag = 1 := by
  intro H
  obtain ⟨res, w1, w2, _⟩ := windy_core 0 0.9
  have hb : ∀ {x : ℝ}, 0 ≤ x → -1e33 < x := fun h => by linarith
  obtain ⟨out, ho, hf, _⟩ := two3_call (c0 := arid) (c1 := windy 0 0.9) (q := 97000) [] (by show 1 ≤ 3; norm_num) rfl rfl rfl rfl (by show (50 : ℝ) ≤ 971; norm_num)
    (by show (278.15 : ℝ) < 303; norm_num) rfl (by norm_num) ⟨rfl, rfl⟩ ⟨rfl, rfl⟩ (fun k => hb (windy_range k).1.le)
    (fun k => ⟨hb (windy_range k).2.1.le, hb (windy_range k).2.1.le⟩) (fun k => ⟨hb le_rfl, hb (windy_range k).2.2⟩) arid_core w1
  have hc := call_of (c := arid) (q := 97000) (by show 1 ≤ 3; norm_num) (by show (50 : ℝ) ≤ 971; norm_num) (by show (278.15 : ℝ) < 303; norm_num) rfl rfl rfl arid_core []
  have hshape : out.shape = [1, 2] := (call_inv (by show 3 ≠ 1; norm_num) (fun h => by change 3 = 4 at h; omega) ho).choose_spec.2.1
  have := H _ _ _ _ _ _ _ out rfl ho (flat_complete _ (hb (by show (0 : ℝ) ≤ 303; norm_num))) (flat_complete _ (by norm_num)) (prof_complete fun k => hb (windy_range k).1.le)
    (two3_complete (fun k => hb (windy_range k).2.1.le) fun k => hb (windy_range k).2.1.le) (two3_complete (fun k => hb le_rfl) fun k => hb (windy_range k).2.2)
    (hf.trans w2) [0, 0] (by rw [hshape]; exact ⟨by norm_num, by norm_num, trivial⟩) 303 97000 _ rfl (by norm_num) rfl (by
      rw [slice_two3, slice_two3, if_pos rfl, if_pos rfl]
      exact hc)
  change (0 : ℕ) = 1 at this
  omega

/-- The flag of the last element that has one. -/
theorem last_flag (init : ℕ) (l : List (Option ℕ)) : lastFlag init l = ((l.filterMap id).getLast?).getD init := by
  unfold lastFlag
  induction l generalizing init with
  | nil => rfl
  | cons x l ih =>
    rw [List.foldl_cons, ih]
    cases x with
    | none => rfl
    | some c =>
      show (l.filterMap id).getLast?.getD c = (c :: l.filterMap id).getLast?.getD init
      rw [List.getLast?_cons]
      rfl

/-- C196, what holds in three dimensions: the flag is that of the last point over warm water in the order of the loops (latitude fastest), 0 if there is none. -/
theorem C196_three_partial {sst psl p t r : NDArr (Option ℝ)} {actual : Option ℤ} {order : List (List ℕ)} {out : Intensity} (hd : t.shape.length = 3)
    (h : potentialIntensity sst psl p t r actual order = .ok out) (hn : p.shape ≠ [0])
    (h1 : Spec.Complete sst) (h2 : Spec.Complete psl) (h3 : Spec.Complete p) (h4 : Spec.Complete t) (h5 : Spec.Complete r) :
    ∃ f : List ℕ → ℕ, (∀ idx, InB out.shape idx → ∃ s q out', sst.get idx = some s ∧ psl.get idx = some q ∧
        potentialIntensity (num s) (num q) p (Spec.slice t idx) (Spec.slice r idx) none [] = .ok out' ∧ f idx = out'.flag) ∧
      out.flag = (((((List.range (t.shape.getD 2 0)).flatMap fun x => (List.range (t.shape.getD 1 0)).map fun y => [y, x]).filter
        fun idx => decide (∃ s, sst.get idx = some s ∧ 278.15 < s)).map f).getLast?).getD 0 := by
  obtain ⟨g, hg, e1, h34, e2, e3⟩ := call_inv (by omega) (fun h => by omega) h
  obtain ⟨n, g1, g2, g3, g4, g5, _⟩ := grid_fields hg
  have hmis := complete_missing hg h1 h2 h3 h4 h5
  have key : ∀ idx, InB out.shape idx → ∃ s q res, sst.get idx = some s ∧ psl.get idx = some q ∧
      profileCall (num s) (num q) p (Spec.slice t idx) (Spec.slice r idx) none 0 0.9 = .ok res ∧
      g.point 0 0.9 idx = some (res, if s ≤ 278.15 then none else some res.flag) := by
    intro idx hi
    rw [e1] at hi
    obtain ⟨s, hs', _⟩ := h1 idx (by rw [g3]; exact hi)
    obtain ⟨q, hq', _⟩ := h2 idx (by rw [g4]; exact hi)
    obtain ⟨res, f, hp, _⟩ := e2 idx hi
    rcases point_profile hg h34 hn hmis hi hs' hq' 0 0.9 with ⟨_, d⟩ | ⟨res', a, d⟩
    · rw [hp] at d; cases d
    · exact ⟨s, q, res', hs', hq', a, d⟩
  refine ⟨fun idx => ((g.point 0 0.9 idx).map fun x => x.1.flag).getD 0, fun idx hi => ?_, ?_⟩
  · obtain ⟨s, q, res, a, b, c, d⟩ := key idx hi
    refine ⟨s, q, ⟨[], fun _ => post res.pmin, fun _ => post res.vmax, res.flag⟩, a, b, ?_, ?_⟩
    · unfold potentialIntensity
      rw [if_pos (show (Spec.slice t idx).shape.length = 1 from rfl), c]
      rfl
    · dsimp only
      rw [d]
      rfl
  · rw [e3, if_neg (by omega)]
    unfold gridFlag
    rw [if_neg (by omega), hmis, last_flag]
    show _ = ((((points2 (t.shape.getD 1 0) (t.shape.getD 2 0)).filter _).map _).getLast?).getD 0
    have hmem : ∀ idx ∈ points2 (t.shape.getD 1 0) (t.shape.getD 2 0), InB out.shape idx := by
      intro idx hi
      rw [mem_points2, ← surface3 hd, ← e1] at hi
      exact hi
    have : ∀ l : List (List ℕ), (∀ idx ∈ l, InB out.shape idx) → ((l.map fun idx => (g.point 0 0.9 idx).bind Prod.snd).filterMap id) =
        (l.filter fun idx => decide (∃ s, sst.get idx = some s ∧ 278.15 < s)).map fun idx => ((g.point 0 0.9 idx).map fun x => x.1.flag).getD 0 := by
      intro l
      induction l with
      | nil => intro _; rfl
      | cons a l ih =>
        intro hl
        obtain ⟨s, q, res, b, _, _, d⟩ := key a (hl a List.mem_cons_self)
        rw [List.map_cons, List.filterMap_cons, List.filter_cons, d]
        by_cases k : s ≤ 278.15
        · rw [if_pos k, if_neg]
          · exact ih fun idx hi => hl idx (List.mem_cons_of_mem _ hi)
          · rw [decide_eq_true_eq]
            rintro ⟨s', h', h''⟩
            rw [b] at h'
            cases h'
            linarith
        · rw [if_neg k, if_pos]
          · rw [List.map_cons, d]
            exact congrArg (res.flag :: ·) (ih fun idx hi => hl idx (List.mem_cons_of_mem _ hi))
          · rw [decide_eq_true_eq]
            exact ⟨s, b, not_le.mp k⟩
    rw [this _ hmem]
    rfl

end Skyborn.Gpi
