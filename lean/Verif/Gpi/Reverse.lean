/-
The order of the levels.
-/
import Verif.Gpi.Flags4

namespace Skyborn.Gpi

open Classical

/-! ### Specification -/

/-- The array with one axis reversed. -/
def Spec.reverse {α : Type} (axis : ℕ) (a : NDArr α) : NDArr α := ⟨a.shape, fun i => a.get (i.set axis (a.shape.getD axis 0 - 1 - i.getD axis 0))⟩

/-- The same outcome: the same exception, or the same flag, shape and values. -/
def Spec.Same : Except Err Intensity → Except Err Intensity → Prop
  | .ok a, .ok b => a.shape = b.shape ∧ a.flag = b.flag ∧ ∀ i, InB a.shape i → a.pmin i = b.pmin i ∧ a.vmax i = b.vmax i
  | .error e, .error e' => e = e'
  | _, _ => False

@[inherit_doc Spec.Same] def Spec.SameLog : Except Err Decomposition → Except Err Decomposition → Prop
  | .ok a, .ok b => a.shape = b.shape ∧ a.flag = b.flag ∧ a.lnckcd = b.lnckcd ∧ ∀ i, InB a.shape i → a.pmin i = b.pmin i ∧ a.vmax i = b.vmax i ∧ a.t0 i = b.t0 i ∧
      a.otl i = b.otl i ∧ a.lnpi i = b.lnpi i ∧ a.lneff i = b.lneff i ∧ a.lndiseq i = b.lndiseq i
  | .error e, .error e' => e = e'
  | _, _ => False

/-! ### Points of equal grids -/

/-- Two prepared grids whose points with index in `shape` have the same data. -/
structure GridSame (shape : List ℕ) (g g' : Grid) : Prop where
  n : g.n = g'.n
  missing : g.missing = g'.missing
  sea : ∀ idx, InB shape idx → g.sst.get idx = g'.sst.get idx ∧ g.psl.get idx = g'.psl.get idx
  air : ∀ idx, InB shape idx → Agree g.n (fun k => g.p.get [k - 1]) (fun k => g'.p.get [k - 1]) ∧
    Agree g.n (fun k => g.t.get (column idx k)) (fun k => g'.t.get (column idx k)) ∧ Agree g.n (fun k => g.r.get (column idx k)) (fun k => g'.r.get (column idx k))

theorem near_le {p : ℕ → ℝ} {n : ℕ} (hn : 1 ≤ n) : max 1 (nearest p n - 1) ≤ n := by
  have := nearest_bounds p n
  omega

/-- All levels agree. -/
theorem core_same {c c' : Column} (hn : c.n = c'.n) (hp : Agree c.n c.p c'.p) (ht : Agree c.n c.t c'.t) (hr : Agree c.n c.r c'.r) (h1 : c.sst = c'.sst) (h2 : c.psl = c'.psl)
    (h3 : c.source = c'.source) (h4 : c.ckcd = c'.ckcd) : core c = core c' := by
  by_cases h0 : c.n = 0
  · unfold core
    rw [if_pos (Or.inl h0), if_pos (Or.inl (hn ▸ h0))]
  · exact core_congr hn hp (ht.mono (near_le (by omega))) (hr.mono (near_le (by omega))) h1 h2 h3 h4

theorem validStart_same {t r t' r' : ℕ → ℝ} (left : ℕ) : ∀ k, (∀ i, k ≤ i → i < k + left → t i = t' i ∧ r i = r' i) → validStart t r left k = validStart t' r' left k := by
  induction left with
  | zero => intro k _; rfl
  | succ m ih =>
    intro k h
    unfold validStart
    obtain ⟨a, b⟩ := h k le_rfl (by omega)
    rw [a, b, ih (k + 1) fun i x y => h i (by omega) (by omega)]

theorem validStart_bounds (t r : ℕ → ℝ) (left : ℕ) : ∀ k, k ≤ validStart t r left k ∧ validStart t r left k ≤ k + left := by
  induction left with
  | zero => intro k; exact ⟨le_rfl, le_rfl⟩
  | succ m ih =>
    intro k
    unfold validStart
    have := ih (k + 1)
    split_ifs <;> omega

theorem pointPlain_same {n : ℕ} {p t r p' t' r' : ℕ → ℝ} (sst psl : ℝ) (source : ℕ) (ckcd : ℝ) (hp : Agree n p p') (ht : Agree n t t') (hr : Agree n r r') :
    pointPlain n p sst psl t r source ckcd = pointPlain n p' sst psl t' r' source ckcd := by
  unfold pointPlain
  rw [core_same (c := ⟨n, t, p, r, sst, psl * 0.01, source, ckcd⟩) (c' := ⟨n, t', p', r', sst, psl * 0.01, source, ckcd⟩) rfl hp ht hr rfl rfl rfl rfl]

theorem pointMissing_same {n : ℕ} {p t r p' t' r' : ℕ → ℝ} (sst psl : ℝ) (source : ℕ) (ckcd : ℝ) (hp : Agree n p p') (ht : Agree n t t') (hr : Agree n r r') :
    pointMissing n p sst psl t r source ckcd = pointMissing n p' sst psl t' r' source ckcd := by
  unfold pointMissing
  have hv : validStart t r n 1 = validStart t' r' n 1 := validStart_same n 1 fun i a b => ⟨ht i a (by omega), hr i a (by omega)⟩
  rw [← hv]
  by_cases h1 : sst = undef
  · rw [if_pos h1, if_pos h1]
  rw [if_neg h1, if_neg h1]
  by_cases h2 : sst + -273.15 ≤ 5
  · rw [if_pos h2, if_pos h2]
  rw [if_neg h2, if_neg h2]
  by_cases h3 : validStart t r n 1 > n
  · rw [if_pos h3, if_pos h3]
  rw [if_neg h3, if_neg h3]
  dsimp only
  have hb := validStart_bounds t r n 1
  generalize validStart t r n 1 = v at *
  have sh : ∀ {f g : ℕ → ℝ}, Agree n f g → Agree (n - v + 1) (fun i => f (i + v - 1)) fun i => g (i + v - 1) := fun h i a b => h _ (by omega) (by omega)
  have ma : Agree n (maskT t r) (maskT t' r') ∧ Agree n (maskR t r) (maskR t' r') := by
    constructor
    · intro i a b
      unfold maskT
      rw [ht i a b, hr i a b]
    · intro i a b
      unfold maskR
      rw [ht i a b, hr i a b]
  rw [core_same (c := ⟨n - v + 1, fun i => maskT t r (i + v - 1), fun i => p (i + v - 1), fun i => maskR t r (i + v - 1), sst, psl * 0.01, source, ckcd⟩)
    (c' := ⟨n - v + 1, fun i => maskT t' r' (i + v - 1), fun i => p' (i + v - 1), fun i => maskR t' r' (i + v - 1), sst, psl * 0.01, source, ckcd⟩) rfl (sh hp) (sh ma.1) (sh ma.2)
    rfl rfl rfl rfl]

theorem GridSame.point {shape : List ℕ} {g g' : Grid} (h : GridSame shape g g') {idx : List ℕ} (hi : InB shape idx) (source : ℕ) (ckcd : ℝ) :
    g.point source ckcd idx = g'.point source ckcd idx := by
  obtain ⟨a1, a2⟩ := h.sea idx hi
  obtain ⟨b1, b2, b3⟩ := h.air idx hi
  unfold Grid.point
  rw [← h.missing, ← h.n, ← a1, ← a2]
  split_ifs
  · exact pointMissing_same _ _ _ _ b1 b2 b3
  · exact pointPlain_same _ _ _ _ b1 b2 b3

theorem GridSame.all {shape : List ℕ} {g g' : Grid} (h : GridSame shape g g') (source : ℕ) (ckcd : ℝ) {order : List (List ℕ)} (ho : ∀ idx ∈ order, InB shape idx)
    (flag : List (Option ℕ) → ℕ) : (∃ e, g.all source ckcd order flag = .error e ∧ g'.all source ckcd order flag = .error e) ∨
      ∃ f f' e, g.all source ckcd order flag = .ok (f, e) ∧ g'.all source ckcd order flag = .ok (f', e) ∧ ∀ idx, InB shape idx → f idx = f' idx := by
  unfold Grid.all
  have hx : (∃ idx ∈ order, g.point source ckcd idx = none) ↔ ∃ idx ∈ order, g'.point source ckcd idx = none := by
    constructor
    · rintro ⟨i, a, b⟩
      exact ⟨i, a, by rw [← h.point (ho i a)]; exact b⟩
    · rintro ⟨i, a, b⟩
      exact ⟨i, a, by rw [h.point (ho i a)]; exact b⟩
  by_cases c : ∃ idx ∈ order, g.point source ckcd idx = none
  · left
    exact ⟨_, if_pos c, if_pos (hx.mp c)⟩
  · right
    rw [if_neg c, if_neg (fun g => c (hx.mpr g))]
    refine ⟨_, fun idx => ((g'.point source ckcd idx).map Prod.fst).getD (skipped undef 0), _, rfl, ?_, fun idx hi => ?_⟩
    · congr 3
      exact List.map_congr_left fun idx hi => by rw [h.point (ho idx hi)]
    · dsimp only
      rw [h.point hi]

theorem pi_same {sst psl p t r sst' psl' p' t' r' : NDArr (Option ℝ)} (actual : Option ℤ) {order : List (List ℕ)} (hd : t.shape.length ≠ 1) (ht : t'.shape = t.shape)
    (hs : t.shape.length = 4 → Spec.Schedule (surface t.shape) order)
    (h : (∃ e, prepareGrid sst psl p t r = .error e ∧ prepareGrid sst' psl' p' t' r' = .error e) ∨
      ∃ g g', prepareGrid sst psl p t r = .ok g ∧ prepareGrid sst' psl' p' t' r' = .ok g' ∧ GridSame (surface t.shape) g g') :
    Spec.Same (potentialIntensity sst psl p t r actual order) (potentialIntensity sst' psl' p' t' r' actual order) := by
  unfold potentialIntensity
  rw [ht, if_neg hd, if_neg hd]
  by_cases h34 : t.shape.length = 3 ∨ t.shape.length = 4
  · rw [if_pos h34, if_pos h34]
    rcases h with ⟨e, a, b⟩ | ⟨g, g', a, b, hg⟩
    · rw [a, b]
      rfl
    · rw [a, b]
      show Spec.Same (g.all 0 0.9 _ _ >>= _) (g'.all 0 0.9 _ _ >>= _)
      rw [← hg.missing]
      rcases hg.all 0 0.9 (order := if t.shape.length = 4 then order else points2 (t.shape.getD 1 0) (t.shape.getD 2 0)) (fun idx hi => by
          by_cases h4 : t.shape.length = 4
          · rw [if_pos h4] at hi
            exact (hs h4 idx).mp hi
          · rw [if_neg h4, mem_points2, ← surface3 (by omega)] at hi
            exact hi) (gridFlag t.shape.length g.missing) with ⟨e, c, d⟩ | ⟨f, f', e, c, d, k⟩
      · rw [c, d]
        rfl
      · rw [c, d]
        refine ⟨rfl, rfl, fun i hi => ?_⟩
        dsimp only
        rw [k i hi]
        exact ⟨rfl, rfl⟩
  · rw [if_neg h34, if_neg h34]
    rfl

theorem log_same {sst psl p t r sst' psl' p' t' r' : NDArr (Option ℝ)} (ckcd : ℝ) (source : String) {order : List (List ℕ)} (hd : t.shape.length ≠ 1) (ht : t'.shape = t.shape)
    (hs : Spec.Schedule (surface t.shape) order)
    (h : (∃ e, prepareGrid sst psl p t r = .error e ∧ prepareGrid sst' psl' p' t' r' = .error e) ∨
      ∃ g g', prepareGrid sst psl p t r = .ok g ∧ prepareGrid sst' psl' p' t' r' = .ok g' ∧ GridSame (surface t.shape) g g') :
    Spec.SameLog (piLogDecomposition sst psl p t r ckcd source order) (piLogDecomposition sst' psl' p' t' r' ckcd source order) := by
  unfold piLogDecomposition
  rw [ht, if_neg hd, if_neg hd]
  by_cases h34 : t.shape.length = 3 ∨ t.shape.length = 4
  · rw [if_pos h34, if_pos h34]
    rcases h with ⟨e, a, b⟩ | ⟨g, g', a, b, hg⟩
    · rw [a, b]
      rfl
    · rw [a, b]
      cases hsrc : sourceFlag source with
      | error e => rfl
      | ok src =>
        show Spec.SameLog (g.all src (ratioUsed t.shape.length g.missing ckcd) _ _ >>= _) (g'.all src (ratioUsed t.shape.length g'.missing ckcd) _ _ >>= _)
        rw [← hg.missing]
        rcases hg.all src (ratioUsed t.shape.length g.missing ckcd) (order := order) (fun idx hi => (hs idx).mp hi) stickyFlag with ⟨e, c, d⟩ | ⟨f, f', e, c, d, k⟩
        · rw [c, d]
          rfl
        · rw [c, d]
          refine ⟨rfl, rfl, rfl, fun i hi => ?_⟩
          dsimp only
          rw [k i hi]
          exact ⟨rfl, rfl, rfl, rfl, rfl, rfl, rfl⟩
  · rw [if_neg h34, if_neg h34]
    rfl

/-! ### Reversed levels -/

theorem set_set_id {α : Type} (l : List α) (i : ℕ) (x d : α) (h : i < l.length) : (l.set i x).set i (l.getD i d) = l := by
  rw [List.set_set]
  induction l generalizing i with
  | nil => rfl
  | cons a l ih =>
    cases i with
    | zero => rfl
    | succ i => exact congrArg (a :: ·) (ih i (by simpa using h))

theorem getD_set {α : Type} (l : List α) (i : ℕ) (x d : α) (h : i < l.length) : (l.set i x).getD i d = x := by
  induction l generalizing i with
  | nil => simp at h
  | cons a l ih =>
    cases i with
    | zero => rfl
    | succ i => exact ih i (by simpa using h)

theorem InB.get_lt {s i : List ℕ} (h : InB s i) {ax : ℕ} (ha : ax < s.length) : i.getD ax 0 < s.getD ax 0 := by
  induction s generalizing i ax with
  | nil => simp at ha
  | cons n s ih =>
    cases i with
    | nil => exact h.elim
    | cons a i =>
      cases ax with
      | zero => exact h.1
      | succ ax => exact ih h.2 (by simpa using ha)

theorem InB.set' {s i : List ℕ} (h : InB s i) {ax v : ℕ} (hv : v < s.getD ax 0) : InB s (i.set ax v) := by
  induction s generalizing i ax with
  | nil => simp at hv
  | cons n s ih =>
    cases i with
    | nil => exact h.elim
    | cons a i =>
      cases ax with
      | zero => exact ⟨hv, h.2⟩
      | succ ax => exact ⟨h.1, ih h.2 hv⟩

/-- Reversing an axis keeps missing values. -/
theorem missing_reverse (axis : ℕ) (a : NDArr (Option ℝ)) : hasMissing (clean (Spec.reverse axis a)) ↔ hasMissing (clean a) := by
  by_cases hax : axis < a.shape.length
  · constructor
    · rintro ⟨i, hi, h⟩
      have := InB.get_lt hi hax
      exact ⟨_, InB.set' hi (ax := axis) (v := a.shape.getD axis 0 - 1 - i.getD axis 0) (by change _ < a.shape.getD axis 0; change _ < a.shape.getD axis 0 at this; omega), h⟩
    · rintro ⟨i, hi, h⟩
      have hl := InB.get_lt hi hax
      change _ < a.shape.getD axis 0 at hl
      have hil := InB.len hi
      change _ = a.shape.length at hil
      refine ⟨i.set axis (a.shape.getD axis 0 - 1 - i.getD axis 0), InB.set' hi (by change _ < a.shape.getD axis 0; omega), ?_⟩
      show (a.get ((i.set axis _).set axis (a.shape.getD axis 0 - 1 - (i.set axis _).getD axis 0))).getD undef = undef
      rw [getD_set _ _ _ _ (by omega), show a.shape.getD axis 0 - 1 - (a.shape.getD axis 0 - 1 - i.getD axis 0) = i.getD axis 0 by omega, set_set_id _ _ _ _ (by omega)]
      exact h
  · constructor
    · rintro ⟨i, hi, h⟩
      refine ⟨i, hi, ?_⟩
      change (a.get (i.set axis _)).getD undef = undef at h
      have hil := InB.len hi
      change _ = a.shape.length at hil
      rw [List.set_eq_of_length_le (by omega)] at h
      exact h
    · rintro ⟨i, hi, h⟩
      refine ⟨i, hi, ?_⟩
      show (a.get (i.set axis _)).getD undef = undef
      have hil := InB.len hi
      change _ = a.shape.length at hil
      rw [List.set_eq_of_length_le (by omega)]
      exact h

/-- The levels of an array, reversed and put back. -/
theorem reverse_column (a : NDArr (Option ℝ)) {idx : List ℕ} {k : ℕ} (hl : idx.length + 1 = a.shape.length) (hax : levelAxis a.shape.length ≤ idx.length) (h1 : 1 ≤ k)
    (h2 : k ≤ a.shape.getD (levelAxis a.shape.length) 0) :
    (flipAxis (levelAxis a.shape.length) (clean (Spec.reverse (levelAxis a.shape.length) a))).get (column idx k) = (clean a).get (column idx k) := by
  unfold column
  rw [hl]
  show (a.get ((List.set _ _ _).set _ _)).getD undef = (a.get _).getD undef
  congr 2
  change (List.set (idx.insertIdx (levelAxis a.shape.length) (k - 1)) (levelAxis a.shape.length) (a.shape.getD (levelAxis a.shape.length) 0 - 1 -
    (idx.insertIdx (levelAxis a.shape.length) (k - 1)).getD (levelAxis a.shape.length) 0)).set (levelAxis a.shape.length) (a.shape.getD (levelAxis a.shape.length) 0 - 1 -
      (List.set (idx.insertIdx (levelAxis a.shape.length) (k - 1)) (levelAxis a.shape.length) (a.shape.getD (levelAxis a.shape.length) 0 - 1 -
    (idx.insertIdx (levelAxis a.shape.length) (k - 1)).getD (levelAxis a.shape.length) 0)).getD (levelAxis a.shape.length) 0) = _
  rw [insertIdx_getD _ _ _ _ hax, insertIdx_set _ _ _ _ hax, insertIdx_getD _ _ _ _ hax, insertIdx_set _ _ _ _ hax]
  congr 1
  omega

theorem upside_reverse {p : NDArr (Option ℝ)} {n : ℕ} (hp : p.shape = [n]) (hne : (clean p).get [0] ≠ (clean p).get [n - 1]) :
    upside (clean (Spec.reverse 0 p)) ↔ ¬ upside (clean p) := by
  have hn : n - 1 ≠ 0 := by
    intro h
    rw [h] at hne
    exact hne rfl
  unfold upside
  have e1 : (clean (Spec.reverse 0 p)).shape.getD 0 0 = n := by
    show p.shape.getD 0 0 = n
    rw [hp]
    rfl
  have e2 : (clean p).shape.getD 0 0 = n := e1
  have e3 : (clean (Spec.reverse 0 p)).get [0] = (clean p).get [n - 1] := by
    show (p.get [p.shape.getD 0 0 - 1 - 0]).getD undef = _
    rw [hp]
    rfl
  have e4 : (clean (Spec.reverse 0 p)).get [n - 1] = (clean p).get [0] := by
    show (p.get [p.shape.getD 0 0 - 1 - (n - 1)]).getD undef = _
    rw [hp, show ([n] : List ℕ).getD 0 0 - 1 - (n - 1) = 0 by show n - 1 - (n - 1) = 0; omega]
    rfl
  rw [e1, e2, e3, e4]
  constructor
  · rintro ⟨_, h⟩ ⟨_, h'⟩
    linarith
  · intro h
    refine ⟨by omega, ?_⟩
    rcases lt_trichotomy ((clean p).get [0]) ((clean p).get [n - 1]) with a | a | a
    · exact absurd ⟨by omega, a⟩ h
    · exact absurd a hne
    · exact a

theorem grid_reverse {sst psl p t r : NDArr (Option ℝ)} {n : ℕ} (hp : p.shape = [n]) (hne : (clean p).get [0] ≠ (clean p).get [n - 1])
    (h34 : t.shape.length = 3 ∨ t.shape.length = 4) :
    (∃ e, prepareGrid sst psl (Spec.reverse 0 p) (Spec.reverse (levelAxis t.shape.length) t) (Spec.reverse (levelAxis t.shape.length) r) = .error e ∧
        prepareGrid sst psl p t r = .error e) ∨
      ∃ g g', prepareGrid sst psl (Spec.reverse 0 p) (Spec.reverse (levelAxis t.shape.length) t) (Spec.reverse (levelAxis t.shape.length) r) = .ok g ∧
        prepareGrid sst psl p t r = .ok g' ∧ GridSame (surface t.shape) g g' := by
  have hp' : (Spec.reverse 0 p).shape = [n] := hp
  have hu := upside_reverse hp hne
  unfold prepareGrid
  rw [hp, hp']
  dsimp only
  rw [show (Spec.reverse (levelAxis t.shape.length) t).shape = t.shape from rfl, show (Spec.reverse (levelAxis t.shape.length) r).shape = r.shape from rfl]
  by_cases c : t.shape.getD (levelAxis t.shape.length) 0 ≠ n ∨ sst.shape ≠ surface t.shape ∨ psl.shape ≠ surface t.shape ∨ t.shape ≠ r.shape
  · left
    exact ⟨_, if_pos c, if_pos c⟩
  · right
    rw [if_neg c, if_neg c]
    push Not at c
    obtain ⟨c1, c2, c3, c4⟩ := c
    refine ⟨_, _, rfl, rfl, rfl, ?_, fun idx _ => ⟨rfl, rfl⟩, fun idx hi => ?_⟩
    · dsimp only
      rw [missing_reverse, missing_reverse, missing_reverse]
    · dsimp only
      have hlen : idx.length + 1 = t.shape.length := by
        rw [InB.len hi]
        exact surface_len h34
      have hax : levelAxis t.shape.length ≤ idx.length := by
        rw [InB.len hi]
        exact axis_le h34
      by_cases u : upside (clean p)
      · have u' : ¬ upside (clean (Spec.reverse 0 p)) := fun h => hu.mp h u
        rw [if_pos u, if_pos u, if_pos u, if_neg u', if_neg u', if_neg u']
        exact ⟨fun k _ _ => rfl, fun k _ _ => rfl, fun k _ _ => rfl⟩
      · have u' : upside (clean (Spec.reverse 0 p)) := hu.mpr u
        rw [if_neg u, if_neg u, if_neg u, if_pos u', if_pos u', if_pos u']
        refine ⟨fun k a b => ?_, fun k a b => ?_, fun k a b => ?_⟩
        · change k ≤ n at b
          show (p.get [p.shape.getD 0 0 - 1 - (p.shape.getD 0 0 - 1 - (k - 1))]).getD undef = (p.get [k - 1]).getD undef
          rw [hp]
          show (p.get [n - 1 - (n - 1 - (k - 1))]).getD undef = (p.get [k - 1]).getD undef
          rw [show n - 1 - (n - 1 - (k - 1)) = k - 1 by omega]
        · exact reverse_column t hlen hax a (by rw [c1]; exact b)
        · have := reverse_column (idx := idx) (k := k) r (by rw [← c4]; exact hlen) (by rw [← c4]; exact hax) a (by rw [← c4, c1]; exact b)
          rw [← c4] at this
          exact this

theorem prepare_reverse {p t r : NDArr (Option ℝ)} {n : ℕ} (hp : p.shape = [n]) (hne : (clean p).get [0] ≠ (clean p).get [n - 1]) (actual : Option ℤ) :
    (∃ e, prepareProfile (Spec.reverse 0 p) (Spec.reverse 0 t) (Spec.reverse 0 r) actual = .error e ∧ prepareProfile p t r actual = .error e) ∨
      ∃ p1 t1 r1 p2 t2 r2 a, prepareProfile (Spec.reverse 0 p) (Spec.reverse 0 t) (Spec.reverse 0 r) actual = .ok (p1, t1, r1, a) ∧
        prepareProfile p t r actual = .ok (p2, t2, r2, a) ∧ Agree a p1 p2 ∧ Agree a t1 t2 ∧ Agree a r1 r2 := by
  have hp' : (Spec.reverse 0 p).shape = [n] := hp
  have hu := upside_reverse hp hne
  unfold prepareProfile
  rw [hp, hp']
  dsimp only
  rw [show (Spec.reverse 0 t).shape = t.shape from rfl, show (Spec.reverse 0 r).shape = r.shape from rfl]
  by_cases c1 : r.shape = []
  · exact Or.inl ⟨_, if_pos c1, if_pos c1⟩
  rw [if_neg c1, if_neg c1]
  by_cases c2 : t.shape.getD 0 0 ≠ n ∨ r.shape.getD 0 0 ≠ n
  · exact Or.inl ⟨_, if_pos c2, if_pos c2⟩
  rw [if_neg c2, if_neg c2]
  by_cases c3 : t.shape ≠ r.shape
  · exact Or.inl ⟨_, if_pos c3, if_pos c3⟩
  rw [if_neg c3, if_neg c3]
  by_cases c4 : actual.getD (n : ℤ) < 1 ∨ actual.getD (n : ℤ) > n
  · exact Or.inl ⟨_, if_pos c4, if_pos c4⟩
  rw [if_neg c4, if_neg c4]
  push Not at c2 c4
  have key : ∀ (a : NDArr (Option ℝ)), a.shape.getD 0 0 = n → Agree (actual.getD (n : ℤ)).toNat
      (fun k => (if upside (clean (Spec.reverse 0 p)) then flipAxis 0 (clean (Spec.reverse 0 a)) else clean (Spec.reverse 0 a)).get [k - 1])
      fun k => (if upside (clean p) then flipAxis 0 (clean a) else clean a).get [k - 1] := by
    intro a ha
    by_cases u : upside (clean p)
    · have u' : ¬ upside (clean (Spec.reverse 0 p)) := fun h => hu.mp h u
      rw [if_pos u, if_neg u']
      exact fun k _ _ => rfl
    · have u' : upside (clean (Spec.reverse 0 p)) := hu.mpr u
      rw [if_neg u, if_pos u']
      intro k x y
      show (a.get [a.shape.getD 0 0 - 1 - (a.shape.getD 0 0 - 1 - (k - 1))]).getD undef = (a.get [k - 1]).getD undef
      rw [ha, show n - 1 - (n - 1 - (k - 1)) = k - 1 by omega]
  exact Or.inr ⟨_, _, _, _, _, _, _, rfl, rfl, key p (by rw [hp]; rfl), key t c2.1, key r c2.2⟩

theorem profile_same (s q : ℝ) {p p' t t' r r' : ℕ → ℝ} {a : ℕ} (h1 : Agree a p p') (h2 : Agree a t t') (h3 : Agree a r r') (source : ℕ) (ckcd : ℝ) :
    profile s q p t r a source ckcd = profile s q p' t' r' a source ckcd := by
  unfold profile
  rw [core_same (c := ⟨a, t, p, r, s, q * 0.01, source, ckcd⟩) (c' := ⟨a, t', p', r', s, q * 0.01, source, ckcd⟩) rfl h1 h2 h3 rfl rfl rfl rfl]

theorem profile_reverse {sst psl p t r : NDArr (Option ℝ)} {n : ℕ} (hp : p.shape = [n]) (hne : (clean p).get [0] ≠ (clean p).get [n - 1]) (actual : Option ℤ) (source : ℕ) (ckcd : ℝ) :
    profileCall sst psl (Spec.reverse 0 p) (Spec.reverse 0 t) (Spec.reverse 0 r) actual source ckcd = profileCall sst psl p t r actual source ckcd := by
  unfold profileCall
  rcases prepare_reverse (t := t) (r := r) hp hne actual with ⟨e, a, b⟩ | ⟨p1, t1, r1, p2, t2, r2, k, a, b, c1, c2, c3⟩
  · rw [a, b]
  · rw [a, b]
    cases scalar sst with
    | error e => rfl
    | ok s =>
    cases scalar psl with
    | error e => rfl
    | ok q =>
    show (match profile s q p1 t1 r1 k source ckcd with
      | none => _
      | some res => _) = (match profile s q p2 t2 r2 k source ckcd with
      | none => _
      | some res => _)
    rw [profile_same s q c1 c2 c3]

/-- C198: the order of the levels does not matter: reversing pressure, temperature and mixing ratio along the levels gives the same result, whatever is missing and however
many levels of a profile are used (they are counted from the surface). The first and the last level must differ in pressure. -/
theorem C198_reversed {sst psl p t r : NDArr (Option ℝ)} {n : ℕ} (hp : p.shape = [n]) (hne : (p.get [0]).getD undef ≠ (p.get [n - 1]).getD undef) (actual : Option ℤ)
    {order : List (List ℕ)} (hs : t.shape.length = 4 → Spec.Schedule (surface t.shape) order) :
    Spec.Same (potentialIntensity sst psl (Spec.reverse 0 p) (Spec.reverse (levelAxis t.shape.length) t) (Spec.reverse (levelAxis t.shape.length) r) actual order)
      (potentialIntensity sst psl p t r actual order) := by
  by_cases hd : t.shape.length = 1
  · unfold potentialIntensity
    rw [if_pos hd, if_pos (show (Spec.reverse (levelAxis t.shape.length) t).shape.length = 1 from hd), hd, show levelAxis 1 = 0 from rfl, profile_reverse hp hne]
    cases profileCall sst psl p t r actual 0 0.9 with
    | error e => rfl
    | ok res => exact ⟨rfl, rfl, fun _ _ => ⟨rfl, rfl⟩⟩
  · by_cases h34 : t.shape.length = 3 ∨ t.shape.length = 4
    · exact pi_same (t := Spec.reverse (levelAxis t.shape.length) t) actual hd rfl hs (grid_reverse hp hne h34)
    · unfold potentialIntensity
      rw [if_neg hd, if_neg h34, if_neg (show ¬ (Spec.reverse (levelAxis t.shape.length) t).shape.length = 1 from hd),
        if_neg (show ¬ ((Spec.reverse (levelAxis t.shape.length) t).shape.length = 3 ∨ (Spec.reverse (levelAxis t.shape.length) t).shape.length = 4) from h34)]
      rfl

/-- C198, with the decomposition. -/
theorem C198_reversed_log {sst psl p t r : NDArr (Option ℝ)} {n : ℕ} (hp : p.shape = [n]) (hne : (p.get [0]).getD undef ≠ (p.get [n - 1]).getD undef) (ckcd : ℝ) (source : String)
    {order : List (List ℕ)} (hs : t.shape.length ≠ 1 → Spec.Schedule (surface t.shape) order) :
    Spec.SameLog (piLogDecomposition sst psl (Spec.reverse 0 p) (Spec.reverse (levelAxis t.shape.length) t) (Spec.reverse (levelAxis t.shape.length) r) ckcd source order)
      (piLogDecomposition sst psl p t r ckcd source order) := by
  by_cases hd : t.shape.length = 1
  · unfold piLogDecomposition
    rw [if_pos hd, if_pos (show (Spec.reverse (levelAxis t.shape.length) t).shape.length = 1 from hd), hd, show levelAxis 1 = 0 from rfl]
    rcases prepare_reverse (t := t) (r := r) hp hne none with ⟨e, a, b⟩ | ⟨p1, t1, r1, p2, t2, r2, k, a, b, c1, c2, c3⟩
    · rw [a, b]
      cases scalar sst with
      | error e => rfl
      | ok s =>
        cases scalar psl with
        | error e => rfl
        | ok q => rfl
    · rw [a, b]
      cases scalar sst with
      | error e => rfl
      | ok s =>
      cases scalar psl with
      | error e => rfl
      | ok q =>
      cases sourceFlag source with
      | error e => rfl
      | ok src =>
      show Spec.SameLog (match profile s q p1 t1 r1 k src ckcd with
        | none => _
        | some res => _) (match profile s q p2 t2 r2 k src ckcd with
        | none => _
        | some res => _)
      rw [profile_same s q c1 c2 c3]
      cases profile s q p2 t2 r2 k src ckcd with
      | none => rfl
      | some res => exact ⟨rfl, rfl, rfl, fun _ _ => ⟨rfl, rfl, rfl, rfl, rfl, rfl, rfl⟩⟩
  · by_cases h34 : t.shape.length = 3 ∨ t.shape.length = 4
    · exact log_same (t := Spec.reverse (levelAxis t.shape.length) t) ckcd source hd rfl (hs hd) (grid_reverse hp hne h34)
    · unfold piLogDecomposition
      rw [if_neg hd, if_neg h34, if_neg (show ¬ (Spec.reverse (levelAxis t.shape.length) t).shape.length = 1 from hd),
        if_neg (show ¬ ((Spec.reverse (levelAxis t.shape.length) t).shape.length = 3 ∨ (Spec.reverse (levelAxis t.shape.length) t).shape.length = 4) from h34)]
      rfl

end Skyborn.Gpi
