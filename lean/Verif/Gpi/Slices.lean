/-
Gridded calls and profile calls.
-/
import Verif.Gpi.Results

namespace Skyborn.Gpi

open Classical

/-! ### Specification -/

/-- The profile above the point `idx`. -/
def Spec.slice (a : NDArr (Option ℝ)) (idx : List ℕ) : NDArr (Option ℝ) :=
  ⟨[a.shape.getD (levelAxis a.shape.length) 0], fun i => a.get (idx.insertIdx (levelAxis a.shape.length) (i.headD 0))⟩

/-- No element of the array is NaN or the missing value. -/
def Spec.Complete (a : NDArr (Option ℝ)) : Prop := ∀ i, InB a.shape i → ∃ x, a.get i = some x ∧ x ≠ undef

/-! ### Lemmas -/

theorem insertIdx_set {α : Type} (l : List α) (i : ℕ) (x y : α) (h : i ≤ l.length) : (l.insertIdx i x).set i y = l.insertIdx i y := by
  induction l generalizing i with
  | nil =>
    obtain rfl : i = 0 := by simpa using h
    rfl
  | cons a l ih =>
    cases i with
    | zero => rfl
    | succ i =>
      simp only [List.insertIdx_succ_cons, List.set_cons_succ]
      rw [ih i (by simpa using h)]

theorem insertIdx_getD {α : Type} (l : List α) (i : ℕ) (x d : α) (h : i ≤ l.length) : (l.insertIdx i x).getD i d = x := by
  induction l generalizing i with
  | nil =>
    obtain rfl : i = 0 := by simpa using h
    rfl
  | cons a l ih =>
    cases i with
    | zero => rfl
    | succ i =>
      simp only [List.insertIdx_succ_cons, List.getD_cons_succ]
      exact ih i (by simpa using h)

theorem InB.len {s i : List ℕ} (h : InB s i) : i.length = s.length := by
  induction s generalizing i with
  | nil =>
    cases i with
    | nil => rfl
    | cons _ _ => exact h.elim
  | cons n s ih =>
    cases i with
    | nil => exact h.elim
    | cons a i => exact congrArg (· + 1) (ih h.2)

theorem surface_len {s : List ℕ} (h : s.length = 3 ∨ s.length = 4) : (surface s).length + 1 = s.length := by
  unfold surface levelAxis
  rcases h with h | h
  · rw [h, List.length_eraseIdx_of_lt (by rw [h]; norm_num)]
    omega
  · rw [h, List.length_eraseIdx_of_lt (by rw [h]; norm_num)]
    omega

theorem axis_le {s : List ℕ} (h : s.length = 3 ∨ s.length = 4) : levelAxis s.length ≤ (surface s).length := by
  have := surface_len h
  unfold levelAxis
  rcases h with h | h <;> rw [h] <;> norm_num <;> omega

theorem not_missing {a : NDArr (Option ℝ)} (h : Spec.Complete a) : ¬ hasMissing (clean a) := by
  rintro ⟨i, hi, he⟩
  obtain ⟨x, hx, hne⟩ := h i hi
  change (a.get i).getD undef = undef at he
  rw [hx] at he
  exact hne he

theorem clean_slice (a : NDArr (Option ℝ)) (idx : List ℕ) (k : ℕ) (hl : idx.length + 1 = a.shape.length) : (clean a).get (column idx k) = (clean (Spec.slice a idx)).get [k - 1] := by
  unfold clean column Spec.slice
  dsimp only
  rw [hl]
  rfl

theorem flip_slice (a : NDArr (Option ℝ)) (idx : List ℕ) (k : ℕ) (hl : idx.length + 1 = a.shape.length) (hle : levelAxis a.shape.length ≤ idx.length) :
    (flipAxis (levelAxis a.shape.length) (clean a)).get (column idx k) = (flipAxis 0 (clean (Spec.slice a idx))).get [k - 1] := by
  unfold flipAxis column Spec.slice
  dsimp only
  rw [hl, insertIdx_set _ _ _ _ hle, insertIdx_getD _ _ _ _ hle]
  rfl

/-- The profile above a point is accepted if the grid is. -/
theorem slice_prepared {p t r : NDArr (Option ℝ)} {n : ℕ} (hp : p.shape = [n]) (hn : 1 ≤ n) (ht : t.shape.getD (levelAxis t.shape.length) 0 = n) (htr : t.shape = r.shape)
    {idx : List ℕ} (hl : idx.length + 1 = t.shape.length) (hle : levelAxis t.shape.length ≤ idx.length) :
    prepareProfile p (Spec.slice t idx) (Spec.slice r idx) none = .ok
      (fun k => (if upside (clean p) then flipAxis 0 (clean p) else clean p).get [k - 1],
       fun k => (if upside (clean p) then flipAxis (levelAxis t.shape.length) (clean t) else clean t).get (column idx k),
       fun k => (if upside (clean p) then flipAxis (levelAxis t.shape.length) (clean r) else clean r).get (column idx k), n) := by
  unfold prepareProfile
  rw [hp]
  have s1 : (Spec.slice t idx).shape = [n] := by
    show [t.shape.getD _ 0] = [n]
    rw [ht]
  have s2 : (Spec.slice r idx).shape = [n] := by
    show [r.shape.getD _ 0] = [n]
    rw [← htr, ht]
  dsimp only
  rw [s1, s2, if_neg (by simp), if_neg (by simp), if_neg (by simp), if_neg (by simp only [Option.getD_none]; omega)]
  have e : ∀ f : Prop, ∀ a : NDArr (Option ℝ), a.shape = t.shape → (fun k => (if f then flipAxis 0 (clean (Spec.slice a idx)) else clean (Spec.slice a idx)).get [k - 1]) =
      fun k => (if f then flipAxis (levelAxis t.shape.length) (clean a) else clean a).get (column idx k) := by
    intro f a ha
    funext k
    by_cases c : f
    · rw [if_pos c, if_pos c, ← ha, flip_slice a idx k (by rw [ha]; exact hl) (by rw [ha]; exact hle)]
    · rw [if_neg c, if_neg c, clean_slice a idx k (by rw [ha]; exact hl)]
  rw [e _ t rfl, e _ r htr.symm]
  rfl

/-- A point without missing values is the profile call for it. -/
theorem point_profile {sst psl p t r : NDArr (Option ℝ)} {g : Grid} (hg : prepareGrid sst psl p t r = .ok g) (h34 : t.shape.length = 3 ∨ t.shape.length = 4)
    (hn : p.shape ≠ [0]) (hm : g.missing = false) {idx : List ℕ} (hi : InB (surface t.shape) idx) {s q : ℝ} (hs : sst.get idx = some s) (hq : psl.get idx = some q)
    (source : ℕ) (ckcd : ℝ) :
    (profileCall (num s) (num q) p (Spec.slice t idx) (Spec.slice r idx) none source ckcd = .error .unmodelled ∧ g.point source ckcd idx = none) ∨
    ∃ res, profileCall (num s) (num q) p (Spec.slice t idx) (Spec.slice r idx) none source ckcd = .ok res ∧
      g.point source ckcd idx = some (res, if s ≤ 278.15 then none else some res.flag) := by
  obtain ⟨n, g1, g2, g3, g4, g5, rfl⟩ := grid_fields hg
  have hl : idx.length + 1 = t.shape.length := by rw [InB.len hi, surface_len h34]
  have hle : levelAxis t.shape.length ≤ idx.length := by
    have := axis_le h34
    rw [InB.len hi]
    exact this
  have hn1 : 1 ≤ n := by
    rcases Nat.eq_zero_or_pos n with rfl | h
    · exact absurd g1 hn
    · exact h
  have hprep := slice_prepared g1 hn1 g2 g5 hl hle
  unfold profileCall
  have e1 : ∀ x, scalar (num x) = .ok x := fun x => rfl
  rw [e1, e1]
  show ((prepareProfile p (Spec.slice t idx) (Spec.slice r idx) none >>= _) = _ ∧ _) ∨ ∃ res, (prepareProfile p (Spec.slice t idx) (Spec.slice r idx) none >>= _) = _ ∧ _
  rw [hprep]
  unfold Grid.point
  dsimp only at hm ⊢
  rw [hm, if_neg (show ¬ (false = true) by simp)]
  have es : (clean sst).get idx = s := by
    show (sst.get idx).getD undef = s
    rw [hs]; rfl
  have eq : (clean psl).get idx = q := by
    show (psl.get idx).getD undef = q
    rw [hq]; rfl
  rw [es, eq]
  generalize (fun k => (if upside (clean p) then flipAxis 0 (clean p) else clean p).get [k - 1]) = p'
  generalize (fun k => (if upside (clean p) then flipAxis (levelAxis t.shape.length) (clean t) else clean t).get (column idx k)) = t'
  generalize (fun k => (if upside (clean p) then flipAxis (levelAxis t.shape.length) (clean r) else clean r).get (column idx k)) = r'
  have hcold : s + -273.15 ≤ 5 ↔ s ≤ 278.15 := by
    constructor
    · intro h
      norm_num at h ⊢
      linarith
    · intro h
      norm_num at h ⊢
      linarith
  unfold pointPlain
  show ((match profile s q p' t' r' n source ckcd with
      | none => Except.error Err.unmodelled
      | some res => .ok res) = Except.error Err.unmodelled ∧ _) ∨ ∃ res, (match profile s q p' t' r' n source ckcd with
      | none => Except.error Err.unmodelled
      | some res => .ok res) = Except.ok res ∧ _
  unfold profile
  by_cases c : s + -273.15 ≤ 5
  · rw [if_pos c, if_pos c]
    right
    refine ⟨_, rfl, ?_⟩
    rw [if_pos (hcold.mp c)]
  · rw [if_neg c, if_neg c]
    cases core ⟨n, t', p', r', s, q * 0.01, source, ckcd⟩ with
    | none => exact Or.inl ⟨rfl, rfl⟩
    | some res =>
      right
      refine ⟨res, rfl, ?_⟩
      rw [if_neg (fun h => c (hcold.mpr h))]
      rfl

theorem complete_missing {sst psl p t r : NDArr (Option ℝ)} {g : Grid} (hg : prepareGrid sst psl p t r = .ok g) (h1 : Spec.Complete sst) (h2 : Spec.Complete psl)
    (h3 : Spec.Complete p) (h4 : Spec.Complete t) (h5 : Spec.Complete r) : g.missing = false := by
  obtain ⟨n, _, _, _, _, _, rfl⟩ := grid_fields hg
  show decide _ = false
  rw [decide_eq_false_iff_not]
  push Not
  exact ⟨not_missing h1, not_missing h2, not_missing h3, not_missing h4, not_missing h5⟩

/-! ### Theorems -/

/-- C195: without missing values the values of a gridded call at a point are those of the profile call for the profile above the point. -/
theorem C195_slices {sst psl p t r : NDArr (Option ℝ)} {actual : Option ℤ} {order : List (List ℕ)} {out : Intensity} (hd : t.shape.length ≠ 1)
    (hs : t.shape.length = 4 → Spec.Schedule (surface t.shape) order) (h : potentialIntensity sst psl p t r actual order = .ok out) (hn : p.shape ≠ [0])
    (h1 : Spec.Complete sst) (h2 : Spec.Complete psl) (h3 : Spec.Complete p) (h4 : Spec.Complete t) (h5 : Spec.Complete r) {idx : List ℕ} (hi : InB out.shape idx) :
    out.shape = surface t.shape ∧ ∃ s q out', sst.get idx = some s ∧ psl.get idx = some q ∧
      potentialIntensity (num s) (num q) p (Spec.slice t idx) (Spec.slice r idx) none [] = .ok out' ∧ out.pmin idx = out'.pmin [] ∧ out.vmax idx = out'.vmax [] := by
  obtain ⟨g, hg, e1, h34, e2, _⟩ := call_inv hd hs h
  refine ⟨e1, ?_⟩
  rw [e1] at hi
  obtain ⟨res, f, hp, k1, k2⟩ := e2 idx hi
  obtain ⟨n, g1, g2, g3, g4, g5, _⟩ := grid_fields hg
  obtain ⟨s, hs', _⟩ := h1 idx (by rw [g3]; exact hi)
  obtain ⟨q, hq', _⟩ := h2 idx (by rw [g4]; exact hi)
  refine ⟨s, q, ?_⟩
  rcases point_profile hg h34 hn (complete_missing hg h1 h2 h3 h4 h5) hi hs' hq' 0 0.9 with ⟨_, b⟩ | ⟨res', a, b⟩
  · rw [hp] at b
    cases b
  · rw [hp] at b
    cases b
    refine ⟨⟨[], fun _ => post res.pmin, fun _ => post res.vmax, res.flag⟩, hs', hq', ?_, k1, k2⟩
    unfold potentialIntensity
    rw [if_pos (show (Spec.slice t idx).shape.length = 1 from rfl), a]
    rfl

/-- The flag that keeps the last code other than 1. -/
theorem sticky_one (l : List (Option ℕ)) : stickyFlag l = 1 ↔ ∀ c, some c ∈ l → c = 1 := by
  have h : ∀ (l : List (Option ℕ)) (f : ℕ), (l.foldl stickyStep f) = 1 ↔ (f = 1 ∧ ∀ c, some c ∈ l → c = 1) ∨ (f ≠ 1 ∧ False) := by
    intro l
    induction l with
    | nil =>
      intro f
      constructor
      · exact fun h => Or.inl ⟨h, fun c hc => by cases hc⟩
      · rintro (h | h)
        · exact h.1
        · exact h.2.elim
    | cons x l ih =>
      intro f
      rw [List.foldl_cons, ih]
      unfold stickyStep
      cases x with
      | none =>
        simp only [List.mem_cons, and_false, or_false]
        constructor
        · rintro ⟨a, b⟩
          exact ⟨a, fun c hc => b c (hc.resolve_left (by simp))⟩
        · rintro ⟨a, b⟩
          exact ⟨a, fun c hc => b c (Or.inr hc)⟩
      | some c =>
        simp only [List.mem_cons, and_false, or_false]
        by_cases g : c = 1
        · rw [if_neg (not_not.mpr g)]
          constructor
          · rintro ⟨a, b⟩
            refine ⟨a, fun d hd => ?_⟩
            rcases hd with hd | hd
            · cases hd; exact g
            · exact b d hd
          · rintro ⟨a, b⟩
            exact ⟨a, fun d hd => b d (Or.inr hd)⟩
        · rw [if_pos g]
          constructor
          · rintro ⟨a, _⟩
            exact absurd a g
          · rintro ⟨_, b⟩
            exact absurd (b c (Or.inl rfl)) g
  have := h l 1
  unfold stickyFlag
  rw [this]
  simp

/-- C196, four dimensions: whatever the order in which the points are computed, the flag is 1 exactly if the profile call of every point over warm water has
flag 1. -/
theorem C196_four {sst psl p t r : NDArr (Option ℝ)} {actual : Option ℤ} {order : List (List ℕ)} {out : Intensity} (hd : t.shape.length = 4)
    (hs : Spec.Schedule (surface t.shape) order) (h : potentialIntensity sst psl p t r actual order = .ok out) (hn : p.shape ≠ [0])
    (h1 : Spec.Complete sst) (h2 : Spec.Complete psl) (h3 : Spec.Complete p) (h4 : Spec.Complete t) (h5 : Spec.Complete r) :
    out.flag = 1 ↔ ∀ idx, InB out.shape idx → ∀ s q out', sst.get idx = some s → 278.15 < s → psl.get idx = some q →
      potentialIntensity (num s) (num q) p (Spec.slice t idx) (Spec.slice r idx) none [] = .ok out' → out'.flag = 1 := by
  obtain ⟨g, hg, e1, h34, e2, e3⟩ := call_inv (by omega) (fun _ => hs) h
  obtain ⟨n, g1, g2, g3, g4, g5, _⟩ := grid_fields hg
  have hmis := complete_missing hg h1 h2 h3 h4 h5
  have hprof : ∀ {s q idx out'}, potentialIntensity (num s) (num q) p (Spec.slice t idx) (Spec.slice r idx) none [] = .ok out' →
      ∃ res, profileCall (num s) (num q) p (Spec.slice t idx) (Spec.slice r idx) none 0 0.9 = .ok res ∧ out'.flag = res.flag := by
    intro s q idx out' ho
    obtain ⟨res, a, rfl⟩ := pi_profile (t := Spec.slice t idx) rfl ho
    exact ⟨res, a, rfl⟩
  rw [e3, if_pos hd]
  unfold gridFlag
  rw [if_pos hd, sticky_one, e1]
  constructor
  · intro H idx hi s q out' hs' hw hq' ho
    obtain ⟨res, a, b⟩ := hprof ho
    rw [b]
    apply H
    rw [List.mem_map]
    refine ⟨idx, (hs idx).mpr hi, ?_⟩
    rcases point_profile hg h34 hn hmis hi hs' hq' 0 0.9 with ⟨c, _⟩ | ⟨res', c, d⟩
    · rw [a] at c
      cases c
    · rw [a] at c
      cases c
      rw [d, if_neg (not_le.mpr hw)]
      rfl
  · intro H c hc
    rw [List.mem_map] at hc
    obtain ⟨idx, hi, hc⟩ := hc
    have hi := (hs idx).mp hi
    obtain ⟨s, hs', _⟩ := h1 idx (by rw [g3]; exact hi)
    obtain ⟨q, hq', _⟩ := h2 idx (by rw [g4]; exact hi)
    rcases point_profile hg h34 hn hmis hi hs' hq' 0 0.9 with ⟨_, d⟩ | ⟨res', a, d⟩
    · rw [d] at hc
      cases hc
    · rw [d] at hc
      change (if s ≤ 278.15 then none else some res'.flag) = some c at hc
      by_cases k : s ≤ 278.15
      · rw [if_pos k] at hc
        cases hc
      · rw [if_neg k] at hc
        cases hc
        refine H idx hi s q ⟨[], fun _ => post res'.pmin, fun _ => post res'.vmax, res'.flag⟩ hs' (not_le.mp k) hq' ?_
        unfold potentialIntensity
        rw [if_pos (show (Spec.slice t idx).shape.length = 1 from rfl), a]
        rfl

end Skyborn.Gpi
