/-
The error flag of four-dimensional calls, and examples of gridded calls.
-/
import Verif.Gpi.Flags

namespace Skyborn.Gpi

open Classical

theorem two_points {idx : List ℕ} (h : InB [1, 1, 2] idx) : idx = [0, 0, 0] ∨ idx = [0, 0, 1] := by
  match idx, h with
  | [a, b, c], ⟨h1, h2, h3, _⟩ =>
    obtain rfl : a = 0 := by omega
    obtain rfl : b = 0 := by omega
    rcases Nat.lt_succ_iff_lt_or_eq.mp h3 with h | h
    · left
      rw [show c = 0 by omega]
    · right
      rw [h]

theorem schedule_two : Spec.Schedule [1, 1, 2] [[0, 0, 0], [0, 0, 1]] ∧ Spec.Schedule [1, 1, 2] [[0, 0, 1], [0, 0, 0]] := by
  have k0 : InB [1, 1, 2] [0, 0, 0] := ⟨by norm_num, by norm_num, by norm_num, trivial⟩
  have k1 : InB [1, 1, 2] [0, 0, 1] := ⟨by norm_num, by norm_num, by norm_num, trivial⟩
  constructor
  · intro idx
    constructor
    · intro h
      simp only [List.mem_cons, List.not_mem_nil, or_false] at h
      rcases h with rfl | rfl
      · exact k0
      · exact k1
    · intro h
      rcases two_points h with rfl | rfl <;> simp
  · intro idx
    constructor
    · intro h
      simp only [List.mem_cons, List.not_mem_nil, or_false] at h
      rcases h with rfl | rfl
      · exact k1
      · exact k0
    · intro h
      rcases two_points h with rfl | rfl <;> simp

/-- Two columns with the same levels, over the same sea: the call computes both. -/
theorem two4_call {c0 c1 : Column} {q : ℝ} {res0 res1 : Res} {order : List (List ℕ)} (hsch : Spec.Schedule [1, 1, 2] order) (hn : 1 ≤ c0.n) (e1 : c1.n = c0.n) (e2 : c1.p = c0.p) (e3 : c1.sst = c0.sst)
    (e4 : c1.psl = c0.psl) (ho : c0.p c0.n ≤ c0.p 1) (hs : 278.15 < c0.sst) (hq : c0.psl = q * 0.01) (hq0 : 0 < q) (s0 : c0.source = 0 ∧ c0.ckcd = 0.9)
    (s1 : c1.source = 0 ∧ c1.ckcd = 0.9) (hp : ∀ k, -1e33 < c0.p k) (ht : ∀ k, -1e33 < c0.t k ∧ -1e33 < c1.t k) (hr : ∀ k, -1e33 < c0.r k ∧ -1e33 < c1.r k)
    (h0 : core c0 = some res0) (h1 : core c1 = some res1) :
    ∃ out, potentialIntensity (flat [1, 1, 2] c0.sst) (flat [1, 1, 2] q) (prof c0.n c0.p) (two4 c0.n c0.t c1.t) (two4 c0.n c0.r c1.r) none order = .ok out ∧
      out.shape = [1, 1, 2] ∧ out.flag = stickyFlag (order.map fun idx => some (if idx = [0, 0, 0] then res0.flag else res1.flag)) ∧ out.vmax [0, 0, 0] = post res0.vmax ∧ out.vmax [0, 0, 1] = post res1.vmax := by
  have p0 := profile_of hn ho hs hq h0
  have p1 := profile_of (c := c1) (by rw [e1]; exact hn) (by rw [e1, e2]; exact ho) (by rw [e3]; exact hs) (by rw [e4]; exact hq) h1
  rw [e1, e2, e3, s1.1, s1.2] at p1
  rw [s0.1, s0.2] at p0
  obtain ⟨g, hg⟩ := prepared (n := c0.n) (flat [1, 1, 2] c0.sst) (flat [1, 1, 2] q) (two4 c0.n c0.t c1.t) (two4 c0.n c0.r c1.r) c0.p rfl rfl rfl rfl
  have hm := complete_missing hg (flat_complete _ (by linarith)) (flat_complete _ (by linarith)) (prof_complete hp) (two4_complete (fun k => (ht k).1) fun k => (ht k).2)
    (two4_complete (fun k => (hr k).1) fun k => (hr k).2)
  have hn0 : (prof c0.n c0.p).shape ≠ [0] := by
    show [c0.n] ≠ [0]
    simp only [ne_eq, List.cons.injEq, and_true]
    omega
  have k0 : g.point 0 0.9 [0, 0, 0] = some (res0, some res0.flag) := by
    rcases point_profile hg (Or.inr rfl) hn0 hm (idx := [0, 0, 0]) ⟨by show 0 < 1; norm_num, by show 0 < 1; norm_num, by show 0 < 2; norm_num, trivial⟩ (s := c0.sst) (q := q) rfl rfl 0 0.9 with
      ⟨a, _⟩ | ⟨res, a, b⟩
    · rw [slice_two4, slice_two4, if_pos rfl, if_pos rfl, p0] at a
      cases a
    · rw [slice_two4, slice_two4, if_pos rfl, if_pos rfl, p0] at a
      cases a
      rw [b, if_neg (not_le.mpr hs)]
  have k1 : g.point 0 0.9 [0, 0, 1] = some (res1, some res1.flag) := by
    rcases point_profile hg (Or.inr rfl) hn0 hm (idx := [0, 0, 1]) ⟨by show 0 < 1; norm_num, by show 0 < 1; norm_num, by show 1 < 2; norm_num, trivial⟩ (s := c0.sst) (q := q) rfl rfl 0 0.9 with
      ⟨a, _⟩ | ⟨res, a, b⟩
    · rw [slice_two4, slice_two4, if_neg (by norm_num), if_neg (by norm_num), p1] at a
      cases a
    · rw [slice_two4, slice_two4, if_neg (by norm_num), if_neg (by norm_num), p1] at a
      cases a
      rw [b, if_neg (not_le.mpr hs)]
  have hmem : ∀ idx ∈ order, idx = [0, 0, 0] ∨ idx = [0, 0, 1] := fun idx hi => two_points ((hsch idx).mp hi)
  obtain ⟨out, ho'⟩ := grid_ok none order hg (Or.inr rfl) (by
    rw [if_pos (show (two4 c0.n c0.t c1.t).shape.length = 4 from rfl)]
    intro idx hi
    rcases hmem idx hi with rfl | rfl
    · rw [k0]; simp
    · rw [k1]; simp)
  obtain ⟨g', hg', d0, _, d1, d2⟩ := call_inv (t := two4 c0.n c0.t c1.t) (by show 4 ≠ 1; norm_num) (fun _ => hsch) ho'
  refine ⟨out, ho', d0, ?_⟩
  rw [hg] at hg'
  cases hg'
  refine ⟨?_, ?_, ?_⟩
  · rw [d2, if_pos (show (two4 c0.n c0.t c1.t).shape.length = 4 from rfl)]
    show stickyFlag _ = _
    congr 1
    apply List.map_congr_left
    intro idx hi
    rcases hmem idx hi with rfl | rfl
    · rw [k0]; rfl
    · rw [k1]; rfl
  · obtain ⟨res, f, a, _, b⟩ := d1 [0, 0, 0] ⟨by show 0 < 1; norm_num, by show 0 < 1; norm_num, by show 0 < 2; norm_num, trivial⟩
    rw [k0] at a
    cases a
    exact b
  · obtain ⟨res, f, a, _, b⟩ := d1 [0, 0, 1] ⟨by show 0 < 1; norm_num, by show 0 < 1; norm_num, by show 1 < 2; norm_num, trivial⟩
    rw [k1] at a
    cases a
    exact b

/-- Saturated air under a level whose temperature is not positive. -/
noncomputable def sick : Column :=
  ⟨3, fun k => if k = 1 then 300 else -1, fun k => if k = 1 then 1000 else if k = 2 then 500 else 50, fun _ => 0.03, 303, 101000 * 0.01, 0, 0.9⟩

/-- The same levels with dry air. -/
noncomputable def dry : Column := { sick with r := fun _ => 0 }

theorem sick_range (k : ℕ) : 0 < sick.p k ∧ -2 < sick.t k := by
  constructor
  · show (0 : ℝ) < if k = 1 then 1000 else if k = 2 then 500 else 50
    split_ifs <;> norm_num
  · show (-2 : ℝ) < if k = 1 then 300 else -1
    split_ifs <;> norm_num

theorem sick_core : core sick = some (sick.early (undef, undef) 2) := by
  refine core_broken ?_ (fun i _ _ => (sick_range i).1) rfl rfl rfl ?_ ?_
  · show 2 ≤ max 1 (nearest (fun k => if k = 1 then (1000 : ℝ) else if k = 2 then 500 else 50) 3 - 1)
    have : nearest (fun k => if k = 1 then (1000 : ℝ) else if k = 2 then 500 else 50) 3 = 3 := by
      rw [nearest, nearest, nearest]
      norm_num
    rw [this]
    norm_num
  · show (50 : ℝ) ≤ 500 ∧ (500 : ℝ) < 1000
    norm_num
  · show (-1 : ℝ) ≤ 0
    norm_num

theorem dry_core : core dry = some (dry.early (undef, undef) 0) :=
  core_dry (by show 3 ≠ 0; norm_num) (fun i _ _ => (sick_range i).1) (Or.inl (by show (0 : ℝ) < _; norm_num))

/-- C196, full statement for four dimensions: the flag does not depend on the order in which the threads come to the points. False: of two points that fail with
different codes the last one decides. -/
theorem C196_schedule_false : ¬ ∀ (sst psl p t r : NDArr (Option ℝ)) (actual : Option ℤ) (order order' : List (List ℕ)) (out out' : Intensity), t.shape.length = 4 →
    Spec.Schedule (surface t.shape) order → Spec.Schedule (surface t.shape) order' → Spec.Complete sst → Spec.Complete psl → Spec.Complete p → Spec.Complete t →
    Spec.Complete r → potentialIntensity sst psl p t r actual order = .ok out → potentialIntensity sst psl p t r actual order' = .ok out' → out.flag = out'.flag := by
  intro H
  have hb : ∀ {x : ℝ}, -2 < x → -1e33 < x := fun h => by linarith
  have call : ∀ order, Spec.Schedule [1, 1, 2] order → _ := fun order hs =>
    two4_call (c0 := dry) (c1 := sick) (q := 101000) (order := order) hs (by show 1 ≤ 3; norm_num) rfl rfl rfl rfl (by show (50 : ℝ) ≤ 1000; norm_num)
      (by show (278.15 : ℝ) < 303; norm_num) rfl (by norm_num) ⟨rfl, rfl⟩ ⟨rfl, rfl⟩ (fun k => by have := (sick_range k).1; show _ < sick.p k; linarith)
      (fun k => ⟨hb (sick_range k).2, hb (sick_range k).2⟩) (fun k => ⟨by show (-1e33 : ℝ) < 0; norm_num, by show (-1e33 : ℝ) < 0.03; norm_num⟩) dry_core sick_core
  obtain ⟨out, a1, _, a2, _⟩ := call _ schedule_two.1
  obtain ⟨out', b1, _, b2, _⟩ := call _ schedule_two.2
  have := H _ _ _ (two4 3 dry.t sick.t) _ _ _ _ out out' rfl schedule_two.1 schedule_two.2 (flat_complete _ (by show (-1e33 : ℝ) < 303; norm_num)) (flat_complete _ (by norm_num))
    (prof_complete fun k => by have := (sick_range k).1; show _ < sick.p k; linarith) (two4_complete (fun k => hb (sick_range k).2) fun k => hb (sick_range k).2)
    (two4_complete (fun k => by show (-1e33 : ℝ) < 0; norm_num) fun k => by show (-1e33 : ℝ) < 0.03; norm_num) a1 b1
  rw [a2, b2] at this
  simp only [List.map_cons, List.map_nil] at this
  rw [if_pos trivial, if_neg (by simp)] at this
  change stickyFlag [some 0, some 2] = stickyFlag [some 2, some 0] at this
  unfold stickyFlag stickyStep at this
  simp at this

/-- Four dimensions: a point with wind beside a dry one; the hypotheses of C191, C194 (no point is cold), C195 and C196 are met. -/
example : ∃ out v, potentialIntensity (flat [1, 1, 2] 303) (flat [1, 1, 2] 97000) (prof 3 (windy 0 0.9).p) (two4 3 arid.t (windy 0 0.9).t) (two4 3 arid.r (windy 0 0.9).r) none
      [[0, 0, 1], [0, 0, 0]] = .ok out ∧ Spec.Schedule [1, 1, 2] [[0, 0, 1], [0, 0, 0]] ∧ out.shape = [1, 1, 2] ∧ InB out.shape [0, 0, 1] ∧ out.flag = 0 ∧
      out.vmax [0, 0, 0] = some 0 ∧ out.vmax [0, 0, 1] = some v ∧ 0 < v ∧
      Spec.Complete (two4 3 arid.t (windy 0 0.9).t) ∧ Spec.Complete (two4 3 arid.r (windy 0 0.9).r) ∧ Spec.Complete (prof 3 (windy 0 0.9).p) ∧
      Spec.Complete (flat [1, 1, 2] 303) ∧ Spec.Complete (flat [1, 1, 2] 97000) := by
  obtain ⟨res, w1, w2, w3, _⟩ := windy_core 0 0.9
  have hb : ∀ {x : ℝ}, 0 ≤ x → -1e33 < x := fun h => by linarith
  obtain ⟨out, a1, a2, a3, a4, a5⟩ := two4_call (c0 := arid) (c1 := windy 0 0.9) (q := 97000) schedule_two.2 (by show 1 ≤ 3; norm_num) rfl rfl rfl rfl
    (by show (50 : ℝ) ≤ 971; norm_num) (by show (278.15 : ℝ) < 303; norm_num) rfl (by norm_num) ⟨rfl, rfl⟩ ⟨rfl, rfl⟩ (fun k => hb (windy_range k).1.le)
    (fun k => ⟨hb (windy_range k).2.1.le, hb (windy_range k).2.1.le⟩) (fun k => ⟨hb le_rfl, hb (windy_range k).2.2⟩) arid_core w1
  refine ⟨out, res.vmax, a1, schedule_two.2, a2, ?_, ?_, ?_, ?_, w3, ?_, ?_, prof_complete fun k => hb (windy_range k).1.le, flat_complete _ (by norm_num),
    flat_complete _ (by norm_num)⟩
  · rw [a2]
    exact ⟨by norm_num, by norm_num, by norm_num, trivial⟩
  · rw [a3]
    simp only [List.map_cons, List.map_nil]
    rw [if_pos trivial, if_neg (by simp), w2]
    show stickyFlag [some 1, some 0] = 0
    unfold stickyFlag stickyStep
    simp
  · rw [a4]
    show post 0 = _
    exact post_of_pos le_rfl
  · rw [a5]
    exact post_of_pos w3.le
  · exact two4_complete (fun k => hb (windy_range k).2.1.le) fun k => hb (windy_range k).2.1.le
  · exact two4_complete (fun k => hb le_rfl) fun k => hb (windy_range k).2.2

/-- Water of 3 °C (C194). -/
theorem cold_call (s q : ℝ) (hs : s ≤ 278.15) : ∃ out, potentialIntensity (num s) (num q) (prof 3 sick.p) (prof 3 sick.t) (prof 3 sick.r) none [] = .ok out ∧ scalar (num s) = .ok s ∧
    out.flag = 0 := by
  have hu : ¬ upside (clean (prof 3 sick.p)) := not_upside (by norm_num) (by show (50 : ℝ) ≤ 1000; norm_num)
  have e2 : prepareProfile (prof 3 sick.p) (prof 3 sick.t) (prof 3 sick.r) none = .ok (fun k => sick.p (k - 1 + 1), fun k => sick.t (k - 1 + 1), fun k => sick.r (k - 1 + 1), 3) := by
    unfold prepareProfile
    show (if [3] = [] then _ else _) = _
    rw [if_neg (by simp)]
    have g1 : ¬ ((prof 3 sick.t).shape.getD 0 0 ≠ 3 ∨ (prof 3 sick.r).shape.getD 0 0 ≠ 3) := by
      push Not
      exact ⟨rfl, rfl⟩
    rw [if_neg g1, if_neg (show ¬ (prof 3 sick.t).shape ≠ (prof 3 sick.r).shape by push Not; rfl)]
    dsimp only
    rw [if_neg hu, if_neg hu, if_neg hu]
    rw [if_neg]
    · rfl
    · push Not
      constructor
      · show (1 : ℤ) ≤ 3
        norm_num
      · exact le_refl (3 : ℤ)
  have h : profileCall (num s) (num q) (prof 3 sick.p) (prof 3 sick.t) (prof 3 sick.r) none 0 0.9 = .ok (skipped (lnRatio 0.9) 0) := by
    unfold profileCall
    have e1 : ∀ x, scalar (num x) = .ok x := fun x => rfl
    rw [e1, e1]
    rw [e2]
    show (match profile s q (fun k => sick.p (k - 1 + 1)) (fun k => sick.t (k - 1 + 1)) (fun k => sick.r (k - 1 + 1)) 3 0 0.9 with
      | none => _
      | some res => _) = _
    have e3 : profile s q (fun k => sick.p (k - 1 + 1)) (fun k => sick.t (k - 1 + 1)) (fun k => sick.r (k - 1 + 1)) 3 0 0.9 = some (skipped (lnRatio 0.9) 0) := by
      unfold profile
      rw [if_pos (by norm_num at hs ⊢; linarith)]
    rw [e3]
  refine ⟨⟨[], fun _ => post undef, fun _ => post undef, 0⟩, ?_, rfl, rfl⟩
  unfold potentialIntensity
  rw [if_pos (show (prof 3 sick.t).shape.length = 1 from rfl), h]
  rfl

end Skyborn.Gpi
