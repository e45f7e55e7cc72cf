/-
Calls with missing data: examples, and what does not hold.
-/
import Verif.Gpi.Missing

namespace Skyborn.Gpi

open Classical

/-- One column on a grid of one point. -/
def cell (n : ℕ) (f : ℕ → Option ℝ) : NDArr (Option ℝ) := ⟨[n, 1, 1], fun i => f (i.headD 0 + 1)⟩

/-- One value on a grid of one point. -/
def one (x : Option ℝ) : NDArr (Option ℝ) := ⟨[1, 1], fun _ => x⟩

theorem one_point {idx : List ℕ} (h : InB [1, 1] idx) : idx = [0, 0] := by
  match idx, h with
  | [a, b], ⟨h1, h2, _⟩ =>
    obtain rfl : a = 0 := by omega
    obtain rfl : b = 0 := by omega
    rfl

/-- The call for one point of which something is missing. -/
theorem cell_call {n : ℕ} {p : ℕ → ℝ} {t r : ℕ → Option ℝ} {sst psl : Option ℝ} {res : Res} {f : Option ℕ} (hn : 1 ≤ n) (ho : p n ≤ p 1)
    (hm : sst = none ∨ psl = none ∨ ∃ k, 1 ≤ k ∧ k ≤ n ∧ t k = none)
    (hp : pointMissing n p (sst.getD undef) (psl.getD undef) (fun k => (t k).getD undef) (fun k => (r k).getD undef) 0 0.9 = some (res, f)) :
    ∃ out, potentialIntensity (one sst) (one psl) (prof n p) (cell n t) (cell n r) none [] = .ok out ∧ out.shape = [1, 1] ∧ out.flag = f.getD 1 ∧
      out.pmin [0, 0] = post res.pmin ∧ out.vmax [0, 0] = post res.vmax := by
  obtain ⟨g, hg⟩ := prepared (n := n) (one sst) (one psl) (cell n t) (cell n r) p rfl rfl rfl rfl
  have hu := not_upside hn ho
  have key : g.missing = true ∧ g.point 0 0.9 [0, 0] = some (res, f) := by
    obtain ⟨n', g1, g2, g3, g4, g5, rfl⟩ := grid_fields hg
    obtain rfl : n = n' := by
      have : [n] = [n'] := g1
      simpa using this
    have hmis : decide (hasMissing (clean (one sst)) ∨ hasMissing (clean (one psl)) ∨ hasMissing (clean (prof n p)) ∨ hasMissing (clean (cell n t)) ∨ hasMissing (clean (cell n r))) = true := by
      rw [decide_eq_true_eq]
      rcases hm with hm | hm | ⟨k, a, b, hm⟩
      · left
        refine ⟨[0, 0], ⟨by norm_num, by norm_num, trivial⟩, ?_⟩
        show sst.getD undef = undef
        rw [hm]
        rfl
      · right; left
        refine ⟨[0, 0], ⟨by norm_num, by norm_num, trivial⟩, ?_⟩
        show psl.getD undef = undef
        rw [hm]
        rfl
      · right; right; right; left
        refine ⟨[k - 1, 0, 0], ⟨by show k - 1 < n; omega, by show 0 < 1; norm_num, by show 0 < 1; norm_num, trivial⟩, ?_⟩
        show (t (k - 1 + 1)).getD undef = undef
        rw [show k - 1 + 1 = k by omega, hm]
        rfl
    refine ⟨hmis, ?_⟩
    unfold Grid.point
    dsimp only
    rw [if_pos hmis, if_neg hu, if_neg hu, if_neg hu, ← hp]
    refine pointMissing_same _ _ _ _ ?_ ?_ ?_
    · intro k a b
      show p (k - 1 + 1) = p k
      rw [show k - 1 + 1 = k by omega]
    · intro k a b
      show (t (k - 1 + 1)).getD undef = _
      rw [show k - 1 + 1 = k by omega]
    · intro k a b
      show (r (k - 1 + 1)).getD undef = _
      rw [show k - 1 + 1 = k by omega]
  have hpts : points2 1 1 = [[0, 0]] := rfl
  obtain ⟨out, ho'⟩ := grid_ok none [] hg (Or.inl rfl) (by
    rw [if_neg (show ¬ (cell n t).shape.length = 4 by show ¬ 3 = 4; norm_num)]
    show ∀ idx ∈ points2 1 1, _
    rw [hpts]
    intro idx hi
    simp only [List.mem_cons, List.not_mem_nil, or_false] at hi
    rw [hi, key.2]
    simp)
  obtain ⟨g', hg', d0, _, d1, d2⟩ := call_inv (t := cell n t) (by show 3 ≠ 1; norm_num) (fun h => by change 3 = 4 at h; omega) ho'
  rw [hg] at hg'
  cases hg'
  refine ⟨out, ho', d0, ?_, ?_⟩
  · rw [d2, if_neg (show ¬ (cell n t).shape.length = 4 by show ¬ 3 = 4; norm_num), key.1]
    show gridFlag 3 true ((points2 1 1).map _) = _
    rw [hpts]
    simp only [List.map_cons, List.map_nil, key.2]
    show lastFlag 1 [f] = _
    rfl
  · obtain ⟨res', f', a, b, c⟩ := d1 [0, 0] ⟨by show 0 < 1; norm_num, by show 0 < 1; norm_num, trivial⟩
    rw [key.2] at a
    cases a
    exact ⟨b, c⟩

/-- Levels that are all known: the column of the solver. -/
theorem pointMissing_full {c : Column} {q : ℝ} {res : Res} (hn : 1 ≤ c.n) (hs : 278.15 < c.sst) (hq : c.psl = q * 0.01) (h : core c = some res)
    (hk : ∀ k, 1 ≤ k → k ≤ c.n → c.t k ≠ undef ∧ c.r k ≠ undef) : pointMissing c.n c.p c.sst q c.t c.r c.source c.ckcd = some (res, some res.flag) := by
  unfold pointMissing
  have h1 : c.sst ≠ undef := by
    intro h
    rw [h] at hs
    unfold undef at hs
    norm_num at hs
  rw [if_neg h1, if_neg (by norm_num at hs ⊢; linarith), validStart_at (hk 1 le_rfl hn) c.n 1 le_rfl (by omega) (fun i a b => by omega), if_neg (by omega)]
  dsimp only
  rw [core_same (c' := c) (c := ⟨c.n - 1 + 1, fun i => maskT c.t c.r (i + 1 - 1), fun i => c.p (i + 1 - 1), fun i => maskR c.t c.r (i + 1 - 1), c.sst, q * 0.01, c.source, c.ckcd⟩)
    (by show c.n - 1 + 1 = c.n; omega) (fun i _ _ => rfl) ?_ ?_ rfl hq.symm rfl rfl, h]
  · rfl
  · intro i a b
    change i ≤ c.n - 1 + 1 at b
    show maskT c.t c.r (i + 1 - 1) = c.t i
    rw [Nat.add_sub_cancel]
    exact if_pos (hk i a (by omega))
  · intro i a b
    change i ≤ c.n - 1 + 1 at b
    show maskR c.t c.r (i + 1 - 1) = c.r i
    rw [Nat.add_sub_cancel]
    exact if_pos (hk i a (by omega))

theorem core_map {c c' : Column} {res : Res} {f : Option ℕ} (h : core c' = some res) (hf : some res.flag = f) (hn : c.n = c'.n) (hp : Agree c.n c.p c'.p) (ht : Agree c.n c.t c'.t)
    (hr : Agree c.n c.r c'.r) (h1 : c.sst = c'.sst) (h2 : c.psl = c'.psl) (h3 : c.source = c'.source) (h4 : c.ckcd = c'.ckcd) :
    (core c).map (fun res => (res, some res.flag)) = some (res, f) := by
  rw [core_same hn hp ht hr h1 h2 h3 h4, h, ← hf]
  rfl

theorem maskT_gone {t r : ℕ → ℝ} {k : ℕ} (h : t k = undef) : maskT t r k = undef + 273.15 := if_neg fun g => g.1 h
theorem maskR_gone {t r : ℕ → ℝ} {k : ℕ} (h : t k = undef) : maskR t r k = undef * 0.001 := if_neg fun g => g.1 h
theorem maskT_kept {t r : ℕ → ℝ} {k : ℕ} (h : t k ≠ undef) (h' : r k ≠ undef) : maskT t r k = t k := if_pos ⟨h, h'⟩
theorem maskR_kept {t r : ℕ → ℝ} {k : ℕ} (h : t k ≠ undef) (h' : r k ≠ undef) : maskR t r k = r k := if_pos ⟨h, h'⟩

theorem ne_undef {x : ℝ} (h : -1e33 < x) : x ≠ undef := by
  intro e
  rw [e] at h
  unfold undef at h
  norm_num at h

/-- C197, full statement for the pressure: where the sea level pressure is missing the results are NaN. False: dry air over warm water, and a minimum pressure of
−9.99e31 mb. -/
theorem C197_pressure_false : ¬ ∀ (sst psl p t r : NDArr (Option ℝ)) (actual : Option ℤ) (order : List (List ℕ)) (out : Intensity) (idx : List ℕ), t.shape.length = 3 →
    potentialIntensity sst psl p t r actual order = .ok out → InB out.shape idx → psl.get idx = none → out.pmin idx = none := by
  intro H
  have hc : core { dry with psl := undef * 0.01 } = some (Column.early { dry with psl := undef * 0.01 } (undef, undef) 0) :=
    core_dry (by show 3 ≠ 0; norm_num) (fun i _ _ => (sick_range i).1) (Or.inl (by show (0 : ℝ) < _; norm_num))
  have hp := pointMissing_full (c := { dry with psl := undef * 0.01 }) (q := undef) (by show 1 ≤ 3; norm_num) (by show (278.15 : ℝ) < 303; norm_num) rfl hc
    (fun k _ _ => ⟨ne_undef (by have := (sick_range k).2; show _ < sick.t k; linarith), ne_undef (by show (-1e33 : ℝ) < 0; norm_num)⟩)
  obtain ⟨out, h1, h2, _, h3, _⟩ := cell_call (n := 3) (p := dry.p) (t := fun k => some (dry.t k)) (r := fun k => some (dry.r k)) (sst := some 303) (psl := none) (by norm_num)
    (by show (50 : ℝ) ≤ 1000; norm_num) (Or.inr (Or.inl rfl)) hp
  have := H _ _ _ _ _ _ _ out [0, 0] rfl h1 (by rw [h2]; exact ⟨by norm_num, by norm_num, trivial⟩) rfl
  rw [h3] at this
  change post (undef * 0.01) = none at this
  unfold post undef at this
  rw [if_neg (by norm_num [abs_of_pos, abs_of_neg])] at this
  cases this

/-- C197, full statement for the profiles: where a level between known ones is missing the results are NaN. False: saturated air below a missing level, and the
"result" is the sea level pressure, no wind. -/
theorem C197_interior_false : ¬ ∀ (sst psl p t r : NDArr (Option ℝ)) (actual : Option ℤ) (order : List (List ℕ)) (out : Intensity) (idx : List ℕ) (l : ℕ), t.shape.length = 3 →
    potentialIntensity sst psl p t r actual order = .ok out → InB out.shape idx → InB t.shape (l :: idx) → t.get (l :: idx) = none → out.pmin idx = none ∧ out.vmax idx = none := by
  intro H
  let c : Column := ⟨3, fun k => if k = 2 then undef + 273.15 else 300, sick.p, fun k => if k = 2 then undef * 0.001 else 0.03, 303, 101000 * 0.01, 0, 0.9⟩
  have hc : core c = some (c.early (undef, undef) 2) := by
    refine core_broken ?_ (fun i _ _ => (sick_range i).1) rfl rfl rfl ?_ ?_
    · show 2 ≤ max 1 (nearest (fun k => if k = 1 then (1000 : ℝ) else if k = 2 then 500 else 50) 3 - 1)
      have : nearest (fun k => if k = 1 then (1000 : ℝ) else if k = 2 then 500 else 50) 3 = 3 := by
        rw [nearest, nearest, nearest]
        norm_num
      rw [this]
      norm_num
    · show (50 : ℝ) ≤ 500 ∧ (500 : ℝ) < 1000
      norm_num
    · show undef + 273.15 ≤ 0
      unfold undef
      norm_num
  have n300 : (300 : ℝ) ≠ undef := ne_undef (by norm_num)
  have n3 : (0.03 : ℝ) ≠ undef := ne_undef (by norm_num)
  have hp : pointMissing 3 sick.p ((some 303 : Option ℝ).getD undef) ((some 101000 : Option ℝ).getD undef) (fun k => ((fun k => if k = 2 then none else some 300 : ℕ → Option ℝ) k).getD undef)
      (fun k => ((fun _ => some 0.03 : ℕ → Option ℝ) k).getD undef) 0 0.9 = some (c.early (undef, undef) 2, some 2) := by
    unfold pointMissing
    rw [if_neg (ne_undef (by show (-1e33 : ℝ) < 303; norm_num)), if_neg (by show ¬ (303 : ℝ) + -273.15 ≤ 5; norm_num), validStart_at (k := 1) ⟨by show (300 : ℝ) ≠ undef; exact n300, by show (0.03 : ℝ) ≠ undef; exact n3⟩
      3 1 le_rfl (by norm_num) (fun i a b => by omega), if_neg (by norm_num)]
    dsimp only
    refine core_map hc ?_ (by rfl) (fun i _ _ => by rfl) ?_ ?_ (by rfl) (by rfl) (by rfl) (by rfl)
    · rfl
    · intro i a b
      dsimp only
      rw [Nat.add_sub_cancel]
      by_cases e : i = 2
      · subst e
        exact maskT_gone (by rfl)
      · have h300 : (if i = 2 then none else some 300 : Option ℝ).getD undef = 300 := by
          rw [if_neg e]
          rfl
        refine (maskT_kept (by rw [h300]; exact n300) (by exact n3)).trans ?_
        rw [h300]
        exact (if_neg e).symm
    · intro i a b
      dsimp only
      rw [Nat.add_sub_cancel]
      by_cases e : i = 2
      · subst e
        exact maskR_gone (by rfl)
      · have h300 : (if i = 2 then none else some 300 : Option ℝ).getD undef = 300 := by
          rw [if_neg e]
          rfl
        refine (maskR_kept (by rw [h300]; exact n300) (by exact n3)).trans ?_
        dsimp only [c]
        exact (if_neg e).symm
  obtain ⟨out, h1, h2, _, _, h3⟩ := cell_call (n := 3) (p := sick.p) (by norm_num) (by show (50 : ℝ) ≤ 1000; norm_num) (Or.inr (Or.inr ⟨2, by norm_num, by norm_num, rfl⟩)) hp
  have := (H _ _ _ _ _ _ _ out [0, 0] 1 rfl h1 (by rw [h2]; exact ⟨by norm_num, by norm_num, trivial⟩) ⟨by show 1 < 3; norm_num, by show 0 < 1; norm_num, by show 0 < 1; norm_num, trivial⟩ rfl).2
  rw [h3] at this
  change post 0 = none at this
  rw [post_of_pos le_rfl] at this
  cases this

/-- `windy` over a level whose temperature is missing. -/
noncomputable def raisedP (k : ℕ) : ℝ := if k = 1 then 1000 else (windy 0 0.9).p (k - 1)
@[inherit_doc raisedP] noncomputable def raisedT (k : ℕ) : Option ℝ := if k = 1 then none else some ((windy 0 0.9).t (k - 1))
@[inherit_doc raisedP] noncomputable def raisedR (k : ℕ) : ℝ := if k = 1 then 0.001 else (windy 0 0.9).r (k - 1)

theorem raised_call : ∃ out v, potentialIntensity (one (some 303)) (one (some 97000)) (prof 4 raisedP) (cell 4 raisedT) (cell 4 fun k => some (raisedR k)) none [] = .ok out ∧
    out.shape = [1, 1] ∧ out.flag = 1 ∧ out.vmax [0, 0] = some v ∧ 0 < v := by
  obtain ⟨res, w1, w2, w3, _⟩ := windy_core 0 0.9
  have hb : ∀ {x : ℝ}, 0 ≤ x → x ≠ undef := fun h => ne_undef (by linarith)
  have known : ∀ i, 2 ≤ i → (raisedT i).getD undef ≠ undef ∧ raisedR i ≠ undef := by
    intro i h
    unfold raisedT raisedR
    rw [if_neg (by omega), if_neg (by omega)]
    exact ⟨hb (windy_range _).2.1.le, hb (windy_range _).2.2⟩
  have hp : pointMissing 4 raisedP ((some 303 : Option ℝ).getD undef) ((some 97000 : Option ℝ).getD undef) (fun k => (raisedT k).getD undef)
      (fun k => ((fun k => some (raisedR k)) k : Option ℝ).getD undef) 0 0.9 = some (res, some 1) := by
    unfold pointMissing
    rw [if_neg (ne_undef (by show (-1e33 : ℝ) < 303; norm_num)), if_neg (by show ¬ (303 : ℝ) + -273.15 ≤ 5; norm_num), validStart_at (k := 2) (known 2 le_rfl)
      4 1 (by norm_num) (by norm_num) (fun i a b => by
        obtain rfl : i = 1 := by omega
        rintro ⟨h, _⟩
        exact h rfl), if_neg (by norm_num)]
    dsimp only
    refine core_map w1 ?_ (by rfl) ?_ ?_ ?_ (by rfl) (by rfl) (by rfl) (by rfl)
    · rw [w2]
    · intro i a b
      dsimp only
      unfold raisedP
      rw [if_neg (by omega), show i + 2 - 1 - 1 = i by omega]
    · intro i a b
      dsimp only
      refine (maskT_kept (known _ (by omega)).1 (known _ (by omega)).2).trans ?_
      unfold raisedT
      rw [if_neg (by omega), show i + 2 - 1 - 1 = i by omega]
      rfl
    · intro i a b
      dsimp only
      refine (maskR_kept (known _ (by omega)).1 (known _ (by omega)).2).trans ?_
      show raisedR _ = _
      unfold raisedR
      rw [if_neg (by omega), show i + 2 - 1 - 1 = i by omega]
  obtain ⟨out, h1, h2, h3, _, h4⟩ := cell_call (n := 4) (p := raisedP) (by norm_num) (by
    show (if 4 = 1 then (1000 : ℝ) else (windy 0 0.9).p 3) ≤ if 1 = 1 then 1000 else _
    rw [if_neg (by norm_num), if_pos rfl]
    show (50 : ℝ) ≤ 1000
    norm_num) (Or.inr (Or.inr ⟨1, by norm_num, by norm_num, rfl⟩)) hp
  exact ⟨out, res.vmax, h1, h2, h3, by rw [h4]; exact post_of_pos w3.le, w3⟩

/-- C195 without its assumption that nothing is missing is false: here the profile call takes the missing level for cold air and gives no wind. -/
theorem C197_profile_false : ¬ ∀ (sst psl p t r : NDArr (Option ℝ)) (actual : Option ℤ) (order : List (List ℕ)) (out out' : Intensity) (idx : List ℕ) (s q : ℝ), t.shape.length = 3 →
    potentialIntensity sst psl p t r actual order = .ok out → InB out.shape idx → sst.get idx = some s → psl.get idx = some q →
    potentialIntensity (num s) (num q) p (Spec.slice t idx) (Spec.slice r idx) none [] = .ok out' → out.vmax idx = out'.vmax [] := by
  intro H
  obtain ⟨out, v, h1, h2, _, h3, h4⟩ := raised_call
  let c : Column := ⟨4, fun k => (raisedT k).getD undef, raisedP, raisedR, 303, 97000 * 0.01, 0, 0.9⟩
  have hc : core c = some (c.early (undef, undef) 0) := by
    refine core_dry (by show 4 ≠ 0; norm_num) (fun i _ _ => ?_) (Or.inr ?_)
    · show 0 < raisedP i
      unfold raisedP
      split_ifs
      · norm_num
      · exact (windy_range _).1
    · show undef < 200
      unfold undef
      norm_num
  have hp : profileCall (num 303) (num 97000) (prof 4 raisedP) (Spec.slice (cell 4 raisedT) [0, 0]) (Spec.slice (cell 4 fun k => some (raisedR k)) [0, 0]) none 0 0.9 = .ok (c.early (undef, undef) 0) := by
    have hf : Spec.SurfaceFirst (Spec.drop 0 (prof 4 raisedP)) := by
      refine not_upside (n := 4) (f := raisedP) (by norm_num) ?_
      show (if 4 = 1 then (1000 : ℝ) else (windy 0 0.9).p 3) ≤ if 1 = 1 then 1000 else _
      rw [if_neg (by norm_num), if_pos rfl]
      show (50 : ℝ) ≤ 1000
      norm_num
    have := drop_call (p := prof 4 raisedP) (t := Spec.slice (cell 4 raisedT) [0, 0]) (r := Spec.slice (cell 4 fun k => some (raisedR k)) [0, 0]) (n := 4) (k := 0) rfl rfl rfl (by norm_num) hf
      303 97000 0 0.9
    have e : profile 303 97000 (fun i => ((prof 4 raisedP).get [i - 1 + 0]).getD undef) (fun i => ((Spec.slice (cell 4 raisedT) [0, 0]).get [i - 1 + 0]).getD undef)
        (fun i => ((Spec.slice (cell 4 fun k => some (raisedR k)) [0, 0]).get [i - 1 + 0]).getD undef) (4 - 0) 0 0.9 = some (c.early (undef, undef) 0) := by
      unfold profile
      rw [if_neg (by norm_num), ← hc]
      refine core_same rfl ?_ ?_ ?_ rfl rfl rfl rfl
      · intro i a b
        show raisedP (i - 1 + 1) = raisedP i
        rw [show i - 1 + 1 = i by omega]
      · intro i a b
        show (raisedT (i - 1 + 1)).getD undef = (raisedT i).getD undef
        rw [show i - 1 + 1 = i by omega]
      · intro i a b
        show raisedR (i - 1 + 1) = raisedR i
        rw [show i - 1 + 1 = i by omega]
    rw [e] at this
    exact this
  have hcall : potentialIntensity (num 303) (num 97000) (prof 4 raisedP) (Spec.slice (cell 4 raisedT) [0, 0]) (Spec.slice (cell 4 fun k => some (raisedR k)) [0, 0]) none [] =
      .ok ⟨[], fun _ => post (97000 * 0.01), fun _ => post 0, 0⟩ := by
    unfold potentialIntensity
    rw [if_pos (show (Spec.slice (cell 4 raisedT) [0, 0]).shape.length = 1 from rfl), hp]
    rfl
  have := H _ _ _ _ _ _ _ out _ [0, 0] 303 97000 rfl h1 (by rw [h2]; exact ⟨by norm_num, by norm_num, trivial⟩) rfl rfl hcall
  rw [h3] at this
  change some v = post 0 at this
  rw [post_of_pos le_rfl] at this
  cases this
  exact lt_irrefl _ h4

/-- The hypotheses of C197_gap are met: the missing level is left out, and there is a wind. -/
example : ∃ out v, potentialIntensity (one (some 303)) (one (some 97000)) (prof 4 raisedP) (cell 4 raisedT) (cell 4 fun k => some (raisedR k)) none [] = .ok out ∧
    Spec.SurfaceFirst (prof 4 raisedP) ∧ Spec.SurfaceFirst (Spec.drop 1 (prof 4 raisedP)) ∧ InB out.shape [0, 0] ∧
    (∀ l, l < 1 → ¬ Spec.Known ((Spec.slice (cell 4 raisedT) [0, 0]).get [l])) ∧ (∀ l, 1 ≤ l → l < 4 → Spec.Known ((Spec.slice (cell 4 raisedT) [0, 0]).get [l])) ∧
    out.vmax [0, 0] = some v ∧ 0 < v := by
  obtain ⟨out, v, h1, h2, _, h3, h4⟩ := raised_call
  refine ⟨out, v, h1, not_upside (by norm_num) ?_, ?_, by rw [h2]; exact ⟨by norm_num, by norm_num, trivial⟩, fun l hl => ?_, fun l a b => ?_, h3, h4⟩
  · show (if 4 = 1 then (1000 : ℝ) else (windy 0 0.9).p 3) ≤ if 1 = 1 then 1000 else _
    rw [if_neg (by norm_num), if_pos rfl]
    show (50 : ℝ) ≤ 1000
    norm_num
  · rintro ⟨_, h⟩
    change (971 : ℝ) < 50 at h
    norm_num at h
  · obtain rfl : l = 0 := by omega
    rw [known_iff, not_not]
    rfl
  · rw [known_iff]
    show (raisedT (l + 1)).getD undef ≠ undef
    unfold raisedT
    rw [if_neg (by omega)]
    exact ne_undef (by have := (windy_range (l + 1 - 1)).2.1; show _ < (windy 0 0.9).t (l + 1 - 1); linarith)

end Skyborn.Gpi
