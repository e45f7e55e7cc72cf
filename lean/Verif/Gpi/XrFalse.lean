/-
C244, C245: where the labels are not followed.
-/
import Verif.Gpi.XrProps
import Verif.Gpi.Flags4

namespace Skyborn.Gpi.Xr

open WindXr
open Trop.Xr (lower contains)

/-! ### Specification -/

/-- The winds are those of the profile calls for the columns above the points. -/
def Spec.Right (sst psl p t r : PArr) (lev : String) (out : Labelled Intensity) : Prop :=
  ∀ f : String → ℕ, (∀ d ∈ out.dims, f d < WindXr.Spec.size t d) → ∀ s q res, WindXr.Spec.at sst f = some s → WindXr.Spec.at psl f = some q →
    Gpi.potentialIntensity (num s) (num q) p.data (Spec.column t lev f) (Spec.column r lev f) none [] = .ok res → out.vars.vmax (out.dims.map f) = res.vmax []

/-- The arguments are whole: proper labels, no units to convert, no missing values. -/
def Spec.Plain (a : PArr) : Prop := WindXr.Spec.Proper a ∧ a.attrs = [] ∧ Gpi.Spec.Complete a.data

/-- Another name for a dimension. -/
def Spec.rename (old new : String) (a : PArr) : PArr :=
  { a with dims := a.dims.map fun d => if d = old then new else d
           coords := a.coords.map fun c => { c with name := if c.name = old then new else c.name } }

/-! ### Calls -/

/-- A gridded call without missing values succeeds if every profile call does. -/
theorem grid_call {sst psl p t r : NDArr (Option ℝ)} {n : ℕ} {order : List (List ℕ)} (hp : p.shape = [n]) (hn : n ≠ 0) (h34 : t.shape.length = 3 ∨ t.shape.length = 4)
    (ht : t.shape.getD (levelAxis t.shape.length) 0 = n) (hs : sst.shape = surface t.shape) (hq : psl.shape = surface t.shape) (hr : t.shape = r.shape)
    (hsch : t.shape.length = 4 → Gpi.Spec.Schedule (surface t.shape) order) (c1 : Gpi.Spec.Complete sst) (c2 : Gpi.Spec.Complete psl) (c3 : Gpi.Spec.Complete p)
    (c4 : Gpi.Spec.Complete t) (c5 : Gpi.Spec.Complete r)
    (hall : ∀ idx, InB (surface t.shape) idx → ∀ s q, sst.get idx = some s → psl.get idx = some q →
      ∃ res, potentialIntensity (num s) (num q) p (Gpi.Spec.slice t idx) (Gpi.Spec.slice r idx) none [] = .ok res) :
    ∃ out, potentialIntensity sst psl p t r none order = .ok out := by
  obtain ⟨g, hg⟩ : ∃ g, prepareGrid sst psl p t r = .ok g := by
    unfold prepareGrid
    rw [hp]
    dsimp only
    rw [if_neg (by push Not; exact ⟨ht, hs, hq, hr⟩)]
    exact ⟨_, rfl⟩
  refine grid_ok none order hg h34 fun idx hi => ?_
  have hi' : InB (surface t.shape) idx := by
    by_cases c : t.shape.length = 4
    · rw [if_pos c] at hi
      exact (hsch c idx).mp hi
    · rw [if_neg c, mem_points2] at hi
      rw [surface3 (h34.resolve_right c)]
      exact hi
  obtain ⟨s, hs', -⟩ := c1 idx (by rw [hs]; exact hi')
  obtain ⟨q, hq', -⟩ := c2 idx (by rw [hq]; exact hi')
  obtain ⟨res, hres⟩ := hall idx hi' s q hs' hq'
  obtain ⟨res', hres', -⟩ := pi_profile (t := Gpi.Spec.slice t idx) rfl hres
  have hn0 : p.shape ≠ [0] := by rw [hp]; simpa using hn
  rcases point_profile hg h34 hn0 (complete_missing hg c1 c2 c3 c4 c5) hi' hs' hq' 0 0.9 with ⟨a, -⟩ | ⟨x, -, b⟩
  · rw [hres'] at a; cases a
  · rw [b]; simp

/-- The columns of the examples: pressure, temperature, vapour. -/
noncomputable def pw : ℕ → ℝ := (windy 0 0.9).p
/-- Temperature. -/
noncomputable def tw : ℕ → ℝ := (windy 0 0.9).t
/-- Vapour. -/
noncomputable def rw' : ℕ → ℝ := (windy 0 0.9).r

theorem above_undef {x : ℝ} (h : 0 ≤ x) : x ≠ undef := by
  intro g
  unfold undef at g
  norm_num at g
  linarith

/-- Cold water. -/
theorem cold_prof {s q : ℝ} (hs : s ≤ 278.15) : potentialIntensity (num s) (num q) (prof 3 pw) (prof 3 tw) (prof 3 rw') none [] =
    .ok ⟨[], fun _ => post undef, fun _ => post undef, 0⟩ := by
  have hu : ¬ upside (clean (prof 3 pw)) := not_upside (by norm_num) (by show (50 : ℝ) ≤ 971; norm_num)
  have e2 : prepareProfile (prof 3 pw) (prof 3 tw) (prof 3 rw') none = .ok (fun k => pw (k - 1 + 1), fun k => tw (k - 1 + 1), fun k => rw' (k - 1 + 1), 3) := by
    unfold prepareProfile
    show (if [3] = [] then _ else _) = _
    rw [if_neg (by simp)]
    have g1 : ¬ ((prof 3 tw).shape.getD 0 0 ≠ 3 ∨ (prof 3 rw').shape.getD 0 0 ≠ 3) := by
      push Not
      exact ⟨rfl, rfl⟩
    rw [if_neg g1, if_neg (show ¬ (prof 3 tw).shape ≠ (prof 3 rw').shape by push Not; rfl)]
    dsimp only
    rw [if_neg hu, if_neg hu, if_neg hu]
    rw [if_neg]
    · rfl
    · push Not
      constructor
      · show (1 : ℤ) ≤ 3
        norm_num
      · exact le_refl (3 : ℤ)
  have h : profileCall (num s) (num q) (prof 3 pw) (prof 3 tw) (prof 3 rw') none 0 0.9 = .ok (skipped (lnRatio 0.9) 0) := by
    unfold profileCall
    have e1 : ∀ x, scalar (num x) = .ok x := fun x => rfl
    rw [e1, e1, e2]
    show (match profile s q (fun k => pw (k - 1 + 1)) (fun k => tw (k - 1 + 1)) (fun k => rw' (k - 1 + 1)) 3 0 0.9 with
      | none => _
      | some res => _) = _
    have e3 : profile s q (fun k => pw (k - 1 + 1)) (fun k => tw (k - 1 + 1)) (fun k => rw' (k - 1 + 1)) 3 0 0.9 = some (skipped (lnRatio 0.9) 0) := by
      unfold profile
      rw [if_pos (by norm_num at hs ⊢; linarith)]
    rw [e3]
  unfold potentialIntensity
  rw [if_pos (show (prof 3 tw).shape.length = 1 from rfl), h]
  rfl

/-- Dry air. -/
theorem arid_call : ∃ out, potentialIntensity (num 303) (num 97000) (prof 3 pw) (prof 3 tw) (prof 3 fun _ => 0) none [] = .ok out ∧ out.vmax [] = some 0 :=
  ⟨_, call_of (c := arid) (q := 97000) (by show 1 ≤ 3; norm_num) (by show (50 : ℝ) ≤ 971; norm_num) (by show (278.15 : ℝ) < 303; norm_num) rfl rfl rfl arid_core [],
    post_of_pos le_rfl⟩

/-- An array without coordinates and attributes. -/
def cube (dims : List String) (shape : List ℕ) (g : List ℕ → ℝ) : PArr := ⟨dims, ⟨shape, fun i => some (g i)⟩, [], none, []⟩

theorem cube_plain {dims : List String} {shape : List ℕ} {g : List ℕ → ℝ} (hd : dims.Nodup) (hl : shape.length = dims.length) (hg : ∀ i, 0 ≤ g i) :
    Spec.Plain (cube dims shape g) :=
  ⟨⟨hd, hl, (fun c hc => absurd hc (by simp [cube])), List.nodup_nil⟩, rfl, fun i _ => ⟨g i, rfl, above_undef (hg i)⟩⟩

theorem cube_reading (g : Spec.Arg) (dims : List String) (shape : List ℕ) (v : List ℕ → ℝ) : Spec.Reading g (cube dims shape v) fun x => x := Or.inl ⟨rfl, rfl⟩

theorem cube_through (dims : List String) (shape : List ℕ) (v : List ℕ → ℝ) : Spec.through (fun x => x) (cube dims shape v) = cube dims shape v := rfl

/-- The levels. -/
noncomputable def levels : PArr := cube ["level"] [3] fun i => pw (i.headD 0 + 1)

/-- Every sequence of three indices. -/
def order3 (a b c : ℕ) : List (List ℕ) := (List.range a).flatMap fun i => (List.range b).flatMap fun j => (List.range c).map fun k => [i, j, k]

theorem order3_schedule (a b c : ℕ) : Gpi.Spec.Schedule [a, b, c] (order3 a b c) := by
  intro idx
  unfold order3
  simp only [List.mem_flatMap, List.mem_range, List.mem_map]
  constructor
  · rintro ⟨i, hi, j, hj, k, hk, rfl⟩
    exact ⟨hi, hj, hk, trivial⟩
  · intro h
    match idx, h with
    | [i, j, k], ⟨h1, h2, h3, _⟩ => exact ⟨i, h1, j, h2, k, h3, rfl⟩

/-! ### The surface fields -/

/-- Water of 270 K where the first index is 1 and the second 0. -/
noncomputable def seaT : PArr := cube ["lon", "lat"] [2, 2] fun i => if i = [1, 0] then 270 else 303
/-- Pressure at sea level. -/
noncomputable def pslT : PArr := cube ["lat", "lon"] [2, 2] fun _ => 97000
/-- The same column everywhere. -/
noncomputable def airT : PArr := cube ["level", "lat", "lon"] [3, 2, 2] fun i => tw (i.headD 0 + 1)
/-- Its vapour. -/
noncomputable def wetT : PArr := cube ["level", "lat", "lon"] [3, 2, 2] fun i => rw' (i.headD 0 + 1)

theorem is_word {words : List String} {s : String} (h : words.any (fun v => decide (v.toList = lower s)) = true) : Spec.Is words s := by
  obtain ⟨v, hv, e⟩ := List.any_eq_true.mp h
  exact ⟨v, hv, by simpa using e⟩

theorem calledT : Spec.Called ["level", "lat", "lon"] "level" none :=
  ⟨"lon", "lat", by decide, is_word (by decide +kernel), is_word (by decide +kernel), is_word (by decide +kernel), fun s hs => by cases hs⟩

theorem colsT (f : String → ℕ) : Spec.column airT "level" f = prof 3 tw ∧ Spec.column wetT "level" f = prof 3 rw' := by
  constructor <;> rfl

theorem windy_wind : ∃ out v, potentialIntensity (num 303) (num 97000) (prof 3 pw) (prof 3 tw) (prof 3 rw') none [] = .ok out ∧ out.vmax [] = some v ∧ 0 < v := by
  obtain ⟨out, v, h1, -, h3, h4⟩ := windy_call
  exact ⟨out, v, h1, h3, h4⟩

/-- C244, full statement: the values at a point of the result are those of the profile call for the column above the point. False for surface fields whose dimensions
are in another order than those of the temperature: they are not brought into the same order (here longitude before latitude; the water is cold at one point,
the result is missing at another). -/
theorem C244_surface_false : ¬ ∀ (sst psl p t r : PArr) (lev : String) (order : List (List ℕ)) (out : Labelled Intensity), Spec.Plain sst → Spec.Plain psl → Spec.Plain p →
    Spec.Plain t → Spec.Plain r → Spec.Called t.dims lev none → r.dims.Perm t.dims → sst.dims.Perm (Spec.above t.dims lev) → psl.dims.Perm (Spec.above t.dims lev) →
    potentialIntensityX sst psl p t r order = .ok out → Spec.Right sst psl p t r lev out := by
  intro H
  have w := windy_range
  have pt : Spec.Plain airT := cube_plain (by decide) rfl fun i => (w _).2.1.le
  have pr : Spec.Plain wetT := cube_plain (by decide) rfl fun i => (w _).2.2
  have ps : Spec.Plain seaT := cube_plain (by decide) rfl fun i => by split_ifs <;> norm_num
  have pq : Spec.Plain pslT := cube_plain (by decide) rfl fun i => by norm_num
  have pp : Spec.Plain levels := cube_plain (by decide) rfl fun i => (w _).1.le
  obtain ⟨t', r', ha, hcall⟩ := gridded_eq (sst := seaT) (psl := pslT) (p := levels) (t := airT) (r := wetT) (cube_reading .sst _ _ _) (cube_reading .psl _ _ _) (cube_reading .levels _ _ _)
    (cube_reading .temperature _ _ _) (cube_reading .mixing _ _ _) pt.1 pr.1 calledT (List.Perm.refl _) rfl rfl (fun s hs => by cases hs)
  obtain ⟨hcall, -⟩ := hcall []
  have ha' : Arranged airT wetT "level" 3 t' r' := ha
  have hsh : t'.shape = [3, 2, 2] := ha'.tsh
  have hshr : r'.shape = [3, 2, 2] := ha'.rsh
  have hidx : ∀ idx, InB [2, 2] idx → ∃ f : String → ℕ, idx = ["lat", "lon"].map f := by
    intro idx hi
    have := InB.len hi
    exact ⟨_, (exists_assign (dims := ["lat", "lon"]) (by decide) this).symm⟩
  have hsl : ∀ f : String → ℕ, Gpi.Spec.slice t' (["lat", "lon"].map f) = prof 3 tw ∧ Gpi.Spec.slice r' (["lat", "lon"].map f) = prof 3 rw' := fun f =>
    ⟨(ha'.slice_t f).trans (colsT f).1, (ha'.slice_r f (hsh.trans hshr.symm)).trans (colsT f).2⟩
  have d4 : Gpi.Spec.Complete t' := complete_of pt.1 (List.Perm.refl _) ha'.tsh ha'.tget pt.2.2
  have d5 : Gpi.Spec.Complete r' := complete_of pr.1 (List.Perm.refl _) ha'.rsh ha'.rget pr.2.2
  obtain ⟨wo, v, w1, w2, w3⟩ := windy_wind
  have hall : ∀ idx, InB [2, 2] idx → ∀ s q, seaT.data.get idx = some s → pslT.data.get idx = some q →
      ∃ res, potentialIntensity (num s) (num q) levels.data (Gpi.Spec.slice t' idx) (Gpi.Spec.slice r' idx) none [] = .ok res := by
    intro idx hi s q h1 h2
    obtain ⟨f, rfl⟩ := hidx idx hi
    rw [(hsl f).1, (hsl f).2]
    obtain rfl : (97000 : ℝ) = q := by injection h2
    change some (if _ then (270 : ℝ) else 303) = some s at h1
    injection h1 with h1
    by_cases c : ["lat", "lon"].map f = [1, 0]
    · rw [if_pos c] at h1
      rw [← h1]
      exact ⟨_, cold_prof (by norm_num)⟩
    · rw [if_neg c] at h1
      rw [← h1]
      exact ⟨_, w1⟩
  obtain ⟨o, ho⟩ := grid_call (order := []) (sst := seaT.data) (psl := pslT.data) (p := levels.data) (t := t') (r := r') (n := 3) rfl (by norm_num) (Or.inl (by rw [hsh]; rfl))
    (by rw [hsh]; rfl) (by rw [hsh]; rfl) (by rw [hsh]; rfl) (by rw [hsh, hshr]) (fun h => by rw [hsh] at h; simp at h) ps.2.2 pq.2.2 pp.2.2 d4 d5
    (by rw [hsh]; exact hall)
  have hd1 : t'.shape.length ≠ 1 := by rw [hsh]; simp
  have hsch : t'.shape.length = 4 → Gpi.Spec.Schedule (surface t'.shape) [] := fun h => by rw [hsh] at h; simp at h
  have hosh : o.shape = [2, 2] := by
    obtain ⟨g, -, e1, -⟩ := call_inv hd1 hsch ho
    rw [e1, hsh]; rfl
  have hok : potentialIntensityX seaT pslT levels airT wetT [] = .ok ⟨["lat", "lon"], ["lat", "lon"].map (coordOf airT), o⟩ := by
    rw [hcall]
    rw [show potentialIntensity (Spec.through (fun x => x) seaT).data (Spec.through (fun x => x) pslT).data (Spec.through (fun x => x) levels).data t' r' none [] = .ok o from ho]
    show dataset _ _ o.shape o = _
    unfold dataset
    rw [hosh]
    rfl
  have hR := H seaT pslT levels airT wetT "level" [] _ ps pq pp pt pr calledT (List.Perm.refl _) (by decide) (by decide) hok
  have hv := hR (fun d => if d = "lat" then 1 else 0) (by
    intro d hd
    change d ∈ ["lat", "lon"] at hd
    simp only [List.mem_cons, List.not_mem_nil, or_false] at hd
    rcases hd with rfl | rfl
    · show 1 < 2; norm_num
    · show 0 < 2; norm_num) 303 97000 wo (by
      show some (if [0, 1] = [1, 0] then (270 : ℝ) else 303) = _
      simp) rfl (by rw [(colsT _).1, (colsT _).2]; exact w1)
  obtain ⟨-, s, q, res, k1, k2, k3, -, k5⟩ := C195_slices hd1 hsch ho (by show [3] ≠ [0]; simp) ps.2.2 pq.2.2 pp.2.2 d4 d5 (idx := [1, 0])
    (by rw [hosh]; exact ⟨by norm_num, by norm_num, trivial⟩)
  have hs : s = 270 := by
    change some (if ([1, 0] : List ℕ) = [1, 0] then (270 : ℝ) else 303) = some s at k1
    simpa using k1.symm
  obtain rfl : (97000 : ℝ) = q := by injection k2
  have hsl' := hsl fun d => if d = "lat" then 1 else 0
  change Gpi.Spec.slice t' [1, 0] = _ ∧ Gpi.Spec.slice r' [1, 0] = _ at hsl'
  rw [hsl'.1, hsl'.2, hs] at k3
  have k3' := k3.symm.trans (cold_prof (s := 270) (q := 97000) (by norm_num))
  injection k3' with k3'
  change o.vmax [1, 0] = wo.vmax [] at hv
  rw [hv, k3', w2] at k5
  change some v = post undef at k5
  rw [post_undef] at k5
  cases k5

/-! ### The time -/

/-- Warm water. -/
noncomputable def seaF : PArr := cube ["lat", "time", "lon"] [2, 2, 1] fun _ => 303
/-- Pressure at sea level. -/
noncomputable def pslF : PArr := cube ["lat", "time", "lon"] [2, 2, 1] fun _ => 97000
/-- The same temperatures everywhere. -/
noncomputable def airF : PArr := cube ["lat", "time", "level", "lon"] [2, 2, 3, 1] fun i => tw (i.getD 2 0 + 1)
/-- Vapour at the first latitude and the second time only. -/
noncomputable def wetF : PArr := cube ["lat", "time", "level", "lon"] [2, 2, 3, 1] fun i => if i.getD 0 0 = 0 ∧ i.getD 1 0 = 1 then rw' (i.getD 2 0 + 1) else 0

theorem calledF : Spec.Called ["lat", "time", "level", "lon"] "level" (some "time") :=
  ⟨"lon", "lat", by decide, is_word (by decide +kernel), is_word (by decide +kernel), is_word (by decide +kernel), fun s hs => by
    obtain rfl : "time" = s := by simpa using hs
    exact is_word (by decide +kernel)⟩

theorem colsF (f : String → ℕ) : Spec.column airF "level" f = prof 3 tw ∧ Spec.column wetF "level" f = prof 3 (if f "lat" = 0 ∧ f "time" = 1 then rw' else fun _ => 0) := by
  refine ⟨rfl, ?_⟩
  show (⟨[3], fun i => some (if f "lat" = 0 ∧ f "time" = 1 then rw' (i.headD 0 + 1) else 0)⟩ : NDArr (Option ℝ)) = _
  unfold prof
  congr 1
  funext i
  split_ifs <;> rfl

/-- C244, full statement again. False where there is a time that is not the first dimension of the surface fields, although all arrays agree on the order: the
computation takes place with the time first, but its values are labelled in the original order. -/
theorem C244_time_false : ¬ ∀ (sst psl p t r : PArr) (lev time : String) (order : List (List ℕ)) (out : Labelled Intensity), Spec.Plain sst → Spec.Plain psl →
    Spec.Plain p → Spec.Plain t → Spec.Plain r → Spec.Called t.dims lev (some time) → r.dims = t.dims → sst.dims = Spec.above t.dims lev → psl.dims = Spec.above t.dims lev →
    potentialIntensityX sst psl p t r order = .ok out → Spec.Right sst psl p t r lev out := by
  intro H
  have w := windy_range
  have pt : Spec.Plain airF := cube_plain (by decide) rfl fun i => (w _).2.1.le
  have pr : Spec.Plain wetF := cube_plain (by decide) rfl fun i => by
    split_ifs
    · exact (w _).2.2
    · exact le_rfl
  have ps : Spec.Plain seaF := cube_plain (by decide) rfl fun i => by norm_num
  have pq : Spec.Plain pslF := cube_plain (by decide) rfl fun i => by norm_num
  have pp : Spec.Plain levels := cube_plain (by decide) rfl fun i => (w _).1.le
  have hperm : ["time", "level", "lat", "lon"].Perm ["lat", "time", "level", "lon"] := by decide
  obtain ⟨t', a1, a2, a3⟩ := needed (a := airF) pt.1 hperm
  obtain ⟨r', b1, b2, b3⟩ := needed (a := wetF) pr.1 hperm
  have hsh : t'.data.shape = [2, 3, 2, 1] := a2
  have hshr : r'.data.shape = [2, 3, 2, 1] := b2
  have hprep : prepareGridded seaF pslF airF wetF = .ok (["lat", "time", "lon"], t', r') := by
    have hdet := (detect_called (dims := ["lat", "time", "level", "lon"]) (by decide) calledF).1
    unfold prepareGridded
    rw [if_neg (by decide), if_neg (by decide), show airF.dims = ["lat", "time", "level", "lon"] from rfl, hdet]
    simp only [bind, Except.bind, pure, Except.pure]
    have e : (if (["lat", "time", "level", "lon"] : List String).length = 3 then (["lat", "time", "level", "lon"] : List String).getD (List.idxOf "level" ["lat", "time", "level", "lon"]) "" ::
        (["lat", "time", "level", "lon"] : List String).filter (fun d => d ≠ (["lat", "time", "level", "lon"] : List String).getD (List.idxOf "level" ["lat", "time", "level", "lon"]) "") else
        (["lat", "time", "level", "lon"] : List String).getD ((Option.map (fun a => List.idxOf a ["lat", "time", "level", "lon"]) (some "time")).getD 0) "" ::
        (["lat", "time", "level", "lon"] : List String).getD (List.idxOf "level" ["lat", "time", "level", "lon"]) "" ::
        ((["lat", "time", "level", "lon"] : List String).filter (fun d => d ≠ (["lat", "time", "level", "lon"] : List String).getD (List.idxOf "level" ["lat", "time", "level", "lon"]) "")).filter
          (fun d => d ≠ (["lat", "time", "level", "lon"] : List String).getD ((Option.map (fun a => List.idxOf a ["lat", "time", "level", "lon"]) (some "time")).getD 0) "")) =
        ["time", "level", "lat", "lon"] := by decide +kernel
    rw [e, a1, b1]
    rfl
  have hsl : ∀ a b : ℕ, Gpi.Spec.slice t'.data [a, b, 0] = prof 3 tw ∧ Gpi.Spec.slice r'.data [a, b, 0] = prof 3 (if b = 0 ∧ a = 1 then rw' else fun _ => 0) := by
    intro a b
    have hg : ∀ i : List ℕ, ([a, b, 0] : List ℕ).insertIdx 1 (i.headD 0) = ["time", "level", "lat", "lon"].map fun d => if d = "time" then a else if d = "level" then i.headD 0 else
        if d = "lat" then b else 0 := fun i => rfl
    constructor
    · unfold Gpi.Spec.slice
      rw [hsh]
      show (⟨[3], fun i => t'.data.get (([a, b, 0] : List ℕ).insertIdx 1 (i.headD 0))⟩ : NDArr (Option ℝ)) = _
      simp only [hg, a3]
      rfl
    · unfold Gpi.Spec.slice
      rw [hshr]
      show (⟨[3], fun i => r'.data.get (([a, b, 0] : List ℕ).insertIdx 1 (i.headD 0))⟩ : NDArr (Option ℝ)) = _
      simp only [hg, b3]
      show (⟨[3], fun i => some (if b = 0 ∧ a = 1 then rw' (i.headD 0 + 1) else 0)⟩ : NDArr (Option ℝ)) = _
      unfold prof
      congr 1
      funext i
      split_ifs <;> rfl
  have d4 : Gpi.Spec.Complete t'.data := complete_of pt.1 hperm a2 a3 pt.2.2
  have d5 : Gpi.Spec.Complete r'.data := complete_of pr.1 hperm b2 b3 pr.2.2
  obtain ⟨wo, v, w1, w2, w3⟩ := windy_wind
  obtain ⟨ao, v1, v2⟩ := arid_call
  have hsch : Gpi.Spec.Schedule (surface t'.data.shape) (order3 2 2 1) := by rw [hsh]; exact order3_schedule 2 2 1
  obtain ⟨o, ho⟩ := grid_call (order := order3 2 2 1) (sst := seaF.data) (psl := pslF.data) (p := levels.data) (t := t'.data) (r := r'.data) (n := 3) rfl (by norm_num)
    (Or.inr (by rw [hsh]; rfl)) (by rw [hsh]; rfl) (by rw [hsh]; rfl) (by rw [hsh]; rfl) (by rw [hsh, hshr]) (fun _ => hsch) ps.2.2 pq.2.2 pp.2.2 d4 d5 (by
      rw [hsh]
      intro idx hi s q h1 h2
      change InB [2, 2, 1] idx at hi
      match idx, hi with
      | [a, b, c], ⟨_, _, hc, _⟩ =>
        obtain rfl : c = 0 := by omega
        obtain rfl : (303 : ℝ) = s := by injection h1
        obtain rfl : (97000 : ℝ) = q := by injection h2
        rw [(hsl a b).1, (hsl a b).2]
        by_cases c : b = 0 ∧ a = 1
        · rw [if_pos c]; exact ⟨_, w1⟩
        · rw [if_neg c]; exact ⟨_, v1⟩)
  have hd1 : t'.data.shape.length ≠ 1 := by rw [hsh]; simp
  have hosh : o.shape = [2, 2, 1] := by
    obtain ⟨g, -, e1, -⟩ := call_inv hd1 (fun _ => hsch) ho
    rw [e1, hsh]; rfl
  have hok : potentialIntensityX seaF pslF levels airF wetF (order3 2 2 1) = .ok ⟨["lat", "time", "lon"], ["lat", "time", "lon"].map (coordOf airF), o⟩ := by
    unfold potentialIntensityX
    rw [checked_ok (sst := seaF) (psl := pslF) (p := levels) (t := airF) (r := wetF) (cube_reading .sst _ _ _) (cube_reading .psl _ _ _) (cube_reading .levels _ _ _)
      (cube_reading .temperature _ _ _) (cube_reading .mixing _ _ _)]
    simp only [bind, Except.bind]
    rw [show Spec.through (fun x => x) airF = airF from rfl, show Spec.through (fun x => x) wetF = wetF from rfl, show Spec.through (fun x => x) seaF = seaF from rfl,
      show Spec.through (fun x => x) pslF = pslF from rfl, show Spec.through (fun x => x) levels = levels from rfl, if_neg (by decide), if_neg (by decide), hprep]
    dsimp only
    rw [ho]
    dsimp only
    unfold dataset
    rw [hosh]
    rfl
  have hR := H seaF pslF levels airF wetF "level" "time" _ _ ps pq pp pt pr calledF rfl rfl rfl hok
  have hv := hR (fun d => if d = "time" then 1 else 0) (by
    intro d hd
    change d ∈ ["lat", "time", "lon"] at hd
    simp only [List.mem_cons, List.not_mem_nil, or_false] at hd
    rcases hd with rfl | rfl | rfl
    · show 0 < 2; norm_num
    · show 1 < 2; norm_num
    · show 0 < 1; norm_num) 303 97000 wo rfl rfl (by
      rw [(colsF _).1, (colsF _).2, if_pos (by constructor <;> rfl)]
      exact w1)
  obtain ⟨-, s, q, res, k1, k2, k3, -, k5⟩ := C195_slices hd1 (fun _ => hsch) ho (by show [3] ≠ [0]; simp) ps.2.2 pq.2.2 pp.2.2 d4 d5 (idx := [0, 1, 0])
    (by rw [hosh]; exact ⟨by norm_num, by norm_num, by norm_num, trivial⟩)
  obtain rfl : (303 : ℝ) = s := by injection k1
  obtain rfl : (97000 : ℝ) = q := by injection k2
  rw [(hsl 0 1).1, (hsl 0 1).2, if_neg (by norm_num)] at k3
  have k3' := k3.symm.trans v1
  injection k3' with k3'
  change o.vmax [0, 1, 0] = wo.vmax [] at hv
  rw [hv, k3', w2, v2] at k5
  injection k5 with k5
  linarith

/-! ### Names -/

/-- The arrays of the next example: two times, one latitude, one longitude. -/
noncomputable def seaY : PArr := cube ["time", "lat", "lon"] [2, 1, 1] fun _ => 303
/-- Pressure at sea level. -/
noncomputable def pslY : PArr := cube ["time", "lat", "lon"] [2, 1, 1] fun _ => 97000
/-- Temperature. -/
noncomputable def airY : PArr := cube ["time", "level", "lat", "lon"] [2, 3, 1, 1] fun i => tw (i.getD 1 0 + 1)
/-- Vapour. -/
noncomputable def wetY : PArr := cube ["time", "level", "lat", "lon"] [2, 3, 1, 1] fun i => rw' (i.getD 1 0 + 1)

theorem calledY : Spec.Called ["time", "level", "lat", "lon"] "level" (some "time") :=
  ⟨"lon", "lat", by decide, is_word (by decide +kernel), is_word (by decide +kernel), is_word (by decide +kernel), fun s hs => by
    obtain rfl : "time" = s := by simpa using hs
    exact is_word (by decide +kernel)⟩

/-- A call that meets the conditions of C244. -/
theorem okY : Spec.Plain seaY ∧ Spec.Plain pslY ∧ Spec.Plain levels ∧ Spec.Plain airY ∧ Spec.Plain wetY ∧
    ∃ out, potentialIntensityX seaY pslY levels airY wetY (order3 2 1 1) = .ok out := by
  have w := windy_range
  have pt : Spec.Plain airY := cube_plain (by decide) rfl fun i => (w _).2.1.le
  have pr : Spec.Plain wetY := cube_plain (by decide) rfl fun i => (w _).2.2
  have ps : Spec.Plain seaY := cube_plain (by decide) rfl fun i => by norm_num
  have pq : Spec.Plain pslY := cube_plain (by decide) rfl fun i => by norm_num
  have pp : Spec.Plain levels := cube_plain (by decide) rfl fun i => (w _).1.le
  refine ⟨ps, pq, pp, pt, pr, ?_⟩
  obtain ⟨t', r', ha, hcall⟩ := gridded_eq (sst := seaY) (psl := pslY) (p := levels) (t := airY) (r := wetY) (cube_reading .sst _ _ _) (cube_reading .psl _ _ _)
    (cube_reading .levels _ _ _) (cube_reading .temperature _ _ _) (cube_reading .mixing _ _ _) pt.1 pr.1 calledY (List.Perm.refl _) rfl rfl (fun s hs => by
      obtain rfl : "time" = s := by simpa using hs
      rfl)
  obtain ⟨hcall, -⟩ := hcall (order3 2 1 1)
  have ha' : Arranged airY wetY "level" 4 t' r' := ha
  have hsh : t'.shape = [2, 3, 1, 1] := ha'.tsh
  have hshr : r'.shape = [2, 3, 1, 1] := ha'.rsh
  have hsl : ∀ f : String → ℕ, Gpi.Spec.slice t' (["time", "lat", "lon"].map f) = prof 3 tw ∧ Gpi.Spec.slice r' (["time", "lat", "lon"].map f) = prof 3 rw' := fun f =>
    ⟨ha'.slice_t f, ha'.slice_r f (hsh.trans hshr.symm)⟩
  have d4 : Gpi.Spec.Complete t' := complete_of pt.1 (List.Perm.refl _) ha'.tsh ha'.tget pt.2.2
  have d5 : Gpi.Spec.Complete r' := complete_of pr.1 (List.Perm.refl _) ha'.rsh ha'.rget pr.2.2
  obtain ⟨wo, v, w1, -⟩ := windy_wind
  have hsch : Gpi.Spec.Schedule (surface t'.shape) (order3 2 1 1) := by rw [hsh]; exact order3_schedule 2 1 1
  obtain ⟨o, ho⟩ := grid_call (order := order3 2 1 1) (sst := seaY.data) (psl := pslY.data) (p := levels.data) (t := t') (r := r') (n := 3) rfl (by norm_num)
    (Or.inr (by rw [hsh]; rfl)) (by rw [hsh]; rfl) (by rw [hsh]; rfl) (by rw [hsh]; rfl) (by rw [hsh, hshr]) (fun _ => hsch) ps.2.2 pq.2.2 pp.2.2 d4 d5 (by
      rw [hsh]
      intro idx hi s q h1 h2
      change InB [2, 1, 1] idx at hi
      have hl := InB.len hi
      obtain ⟨f, rfl⟩ : ∃ f : String → ℕ, idx = ["time", "lat", "lon"].map f := ⟨_, (exists_assign (dims := ["time", "lat", "lon"]) (by decide) hl).symm⟩
      obtain rfl : (303 : ℝ) = s := by injection h1
      obtain rfl : (97000 : ℝ) = q := by injection h2
      rw [(hsl f).1, (hsl f).2]
      exact ⟨_, w1⟩)
  have hosh : o.shape = [2, 1, 1] := by
    obtain ⟨g, -, e1, -⟩ := call_inv (by rw [hsh]; simp) (fun _ => hsch) ho
    rw [e1, hsh]; rfl
  rw [hcall]
  rw [show potentialIntensity (Spec.through (fun x => x) seaY).data (Spec.through (fun x => x) pslY).data (Spec.through (fun x => x) levels).data t' r' none (order3 2 1 1) = .ok o
    from ho]
  refine ⟨⟨["time", "lat", "lon"], ["time", "lat", "lon"].map (coordOf airY), o⟩, ?_⟩
  show dataset _ _ o.shape o = _
  unfold dataset
  rw [hosh]
  rfl

/-- C245, full statement: a dimension may have any of the names the functions list for its kind. False for the times `year` and `yr`: they contain a `y`
and are taken for the latitude. -/
theorem C245_false : ¬ ∀ (sst psl p t r : PArr) (time name : String) (order : List (List ℕ)) (out : Labelled Intensity), name ∈ timeNames → time ∈ t.dims →
    Spec.Is Spec.timeWords time → name ∉ t.dims → potentialIntensityX sst psl p t r order = .ok out →
    ∃ out', potentialIntensityX (Spec.rename time name sst) (Spec.rename time name psl) p (Spec.rename time name t) (Spec.rename time name r) order = .ok out' := by
  intro H
  obtain ⟨ps, pq, pp, pt, pr, out, ho⟩ := okY
  obtain ⟨out', ho'⟩ := H seaY pslY levels airY wetY "time" "year" _ out (by decide) (by decide) (is_word (by decide +kernel)) (by decide) ho
  unfold potentialIntensityX at ho'
  rw [checked_ok (sst := Spec.rename "time" "year" seaY) (psl := Spec.rename "time" "year" pslY) (p := levels) (t := Spec.rename "time" "year" airY)
    (r := Spec.rename "time" "year" wetY) (f1 := fun x => x) (f2 := fun x => x) (f3 := fun x => x) (f4 := fun x => x) (f5 := fun x => x) (Or.inl ⟨rfl, rfl⟩) (Or.inl ⟨rfl, rfl⟩)
    (Or.inl ⟨rfl, rfl⟩) (Or.inl ⟨rfl, rfl⟩) (Or.inl ⟨rfl, rfl⟩)] at ho'
  simp only [bind, Except.bind] at ho'
  have hdims : (Spec.through (fun x => x) (Spec.rename "time" "year" airY)).dims = ["year", "level", "lat", "lon"] := rfl
  rw [if_neg (by rw [hdims]; decide), if_neg (by rw [hdims]; decide)] at ho'
  have hdet : detect ["year", "level", "lat", "lon"] = .error .value := by
    have k1 : found ["year", "level", "lat", "lon"] .lev = some 1 := by decide +kernel
    have k2 : found ["year", "level", "lat", "lon"] .time = none := by decide +kernel
    unfold detect
    rw [k1, k2]
    dsimp only
    rw [if_neg (by simp), if_pos (by simp)]
  have hprep : prepareGridded (Spec.through (fun x => x) (Spec.rename "time" "year" seaY)) (Spec.through (fun x => x) (Spec.rename "time" "year" pslY))
      (Spec.through (fun x => x) (Spec.rename "time" "year" airY)) (Spec.through (fun x => x) (Spec.rename "time" "year" wetY)) = .error .value := by
    unfold prepareGridded
    rw [hdims, hdet, if_neg (by decide), if_neg (by decide)]
    rfl
  rw [hprep] at ho'
  cases ho'

/-- Every word of the lists but `year` and `yr` is understood, in small or capital letters: with dimensions so called a call with arrays in the usual order fails only
where the array function or the assembly of the result does. -/
theorem C245_names_partial {sst psl p t r : PArr} (h1 : Spec.Plain sst) (h2 : Spec.Plain psl) (h3 : Spec.Plain p) (h4 : Spec.Plain t) (h5 : Spec.Plain r) {lev : String}
    {time : Option String} (hc : Spec.Called t.dims lev time) (hrd : r.dims.Perm t.dims) (hs : sst.dims = Spec.above t.dims lev) (hq : psl.dims = Spec.above t.dims lev)
    (htime : ∀ s ∈ time, (Spec.above t.dims lev).head? = some s) {order : List (List ℕ)}
    (hsch : time ≠ none → Gpi.Spec.Schedule ((Spec.above t.dims lev).map (WindXr.Spec.size t)) order)
    (hsz : ∀ d ∈ t.dims, WindXr.Spec.size r d = WindXr.Spec.size t d) (hss : ∀ d ∈ sst.dims, WindXr.Spec.size sst d = WindXr.Spec.size t d)
    (hsq : ∀ d ∈ psl.dims, WindXr.Spec.size psl d = WindXr.Spec.size t d) (hp : p.data.shape = [WindXr.Spec.size t lev]) (hn : WindXr.Spec.size t lev ≠ 0)
    (hall : ∀ f : String → ℕ, (∀ d ∈ Spec.above t.dims lev, f d < WindXr.Spec.size t d) → ∀ s q, WindXr.Spec.at sst f = some s → WindXr.Spec.at psl f = some q →
      ∃ res, Gpi.potentialIntensity (num s) (num q) p.data (Spec.column t lev f) (Spec.column r lev f) none [] = .ok res) :
    ∃ out, potentialIntensityX sst psl p t r order = .ok out := by
  have rd : ∀ (g : Spec.Arg) {a : PArr}, Spec.Plain a → Spec.Reading g a fun x => x := fun g a h => Or.inl ⟨by rw [h.2.1]; rfl, rfl⟩
  have td : ∀ a : PArr, (Spec.through (fun x => x) a).data = a.data := fun a => by
    show (⟨a.data.shape, fun i => (a.data.get i).map fun x => x⟩ : NDArr (Option ℝ)) = a.data
    simp
  have te : ∀ {a : PArr}, Spec.Plain a → Spec.through (fun x => x) a = a := fun {a} h => by
    have := h.2.1
    rw [← map_id_data]
    obtain ⟨_, _, _, _, at'⟩ := a
    subst this
    rfl
  obtain ⟨-, hlev, -, hlen⟩ := detect_called h4.1.dims hc
  obtain ⟨t', r', ha, hcall⟩ := gridded_eq (rd .sst h1) (rd .psl h2) (rd .levels h3) (rd .temperature h4) (rd .mixing h5) h4.1 h5.1 hc hrd (by rw [hs]) (by rw [hq]) htime
  rw [te h4, te h5] at ha
  have hrk := ha.rank
  have hpt := above_perm h4.1.dims hlev ha.axis
  have hshape : t'.shape = r'.shape := by
    rw [ha.tsh, ha.rsh]
    exact List.map_congr_left fun d hd => (hsz d (hpt.mem_iff.mp hd)).symm
  have hsurf := ha.surf
  have hsch' : t'.shape.length = 4 → Gpi.Spec.Schedule (surface t'.shape) order := by
    intro e
    rw [hsurf]
    apply hsch
    rintro rfl
    rw [hrk, hlen] at e
    simp at e
  obtain ⟨o, ho⟩ := grid_call (order := order) (sst := sst.data) (psl := psl.data) (p := p.data) (t := t') (r := r') (n := WindXr.Spec.size t lev) hp hn
    (by rw [hrk]; exact ha.dims) (by
      rw [hrk, ha.tsh, map_insert', insertIdx_getD _ _ _ _ (by rw [List.length_map]; exact ha.axis)])
    (by rw [hsurf, shape_eq h1.1, ← hs]; exact List.map_congr_left hss) (by rw [hsurf, shape_eq h2.1, ← hq]; exact List.map_congr_left hsq) hshape hsch' h1.2.2 h2.2.2 h3.2.2
    (complete_of h4.1 hpt ha.tsh ha.tget h4.2.2) (complete_of h5.1 (hpt.trans hrd.symm) ha.rsh ha.rget h5.2.2) (by
      rw [hsurf]
      intro idx hi s q k1 k2
      have hl := InB.len hi
      rw [List.length_map] at hl
      obtain ⟨f, rfl⟩ : ∃ f : String → ℕ, idx = (Spec.above t.dims lev).map f := ⟨_, (exists_assign (h4.1.dims.filter _) hl).symm⟩
      rw [ha.slice_t f, ha.slice_r f hshape]
      refine hall f (inB_map.mp hi) s q ?_ ?_
      · rw [← k1, ← hs]; rfl
      · rw [← k2, ← hq]; rfl)
  have hosh : o.shape = (Spec.above t.dims lev).map (WindXr.Spec.size t) := by
    obtain ⟨g, -, e1, -⟩ := call_inv (by rw [hrk]; have := ha.dims; omega) hsch' ho
    rw [e1, hsurf]
  rw [(hcall order).1, td, td, td, ho]
  refine ⟨⟨Spec.above t.dims lev, (Spec.above t.dims lev).map (coordOf t), o⟩, ?_⟩
  show dataset _ _ o.shape o = _
  unfold dataset
  rw [if_pos]
  rw [hosh, List.map_map]
  exact List.map_congr_left fun d _ => (coordOf_length h4.1 d).symm

/-- The hypotheses of C244 and C245 met. -/
example : Spec.Called airY.dims "level" (some "time") ∧ Spec.above airY.dims "level" = seaY.dims ∧ Spec.Plain airY ∧ Spec.Plain seaY ∧
    ∃ out, potentialIntensityX seaY pslY levels airY wetY (order3 2 1 1) = .ok out :=
  ⟨calledY, rfl, okY.2.2.2.1, okY.1, okY.2.2.2.2.2⟩

/-- A labelled profile with a wind. -/
example : ∃ out v, potentialIntensityX (cube [] [] fun _ => 303) (cube [] [] fun _ => 97000) levels (cube ["level"] [3] fun i => tw (i.headD 0 + 1))
    (cube ["level"] [3] fun i => rw' (i.headD 0 + 1)) [] = .ok out ∧ out.vars.vmax [] = some v ∧ 0 < v := by
  obtain ⟨wo, v, w1, w2, w3⟩ := windy_wind
  refine ⟨⟨[], [], wo⟩, v, ?_, w2, w3⟩
  rw [C244_profile (cube_reading .sst _ _ _) (cube_reading .psl _ _ _) (p := levels) (cube_reading .levels _ _ _)
    (t := cube ["level"] [3] fun i => tw (i.headD 0 + 1)) (cube_reading .temperature _ _ _) (cube_reading .mixing _ _ _)
    (cube_plain (by decide) rfl fun i => (windy_range _).2.1.le).1 (lev := "level") (is_word (by decide +kernel)) rfl rfl rfl rfl rfl]
  rw [show Gpi.potentialIntensity (Spec.through (fun x => x) (cube [] [] fun _ => 303)).data (Spec.through (fun x => x) (cube [] [] fun _ => 97000)).data
    (Spec.through (fun x => x) levels).data (Spec.through (fun x => x) (cube ["level"] [3] fun i => tw (i.headD 0 + 1))).data
    (Spec.through (fun x => x) (cube ["level"] [3] fun i => rw' (i.headD 0 + 1))).data none [] = .ok wo from w1]
  rfl

end Skyborn.Gpi.Xr
