/-
C232: `trop_wmo` on labelled arrays, column by column.
-/
import Verif.Trop.Xr

namespace Skyborn.Trop.Xr

open Skyborn

/-- Number of points along the dimension called `n`. -/
def Spec.size (t : TArr) (n : String) : ℕ := t.data.shape.getD (t.dims.idxOf n) 0

/-- The element at the point whose index along every dimension `n` is `f n`. -/
def Spec.at (t : TArr) (f : String → ℕ) : ℝ := t.data.get (t.dims.map f)

/-- The result at such a point. -/
def Spec.cell (r : Result) (f : String → ℕ) : Cell := r.cells.get (r.dims.map f)

/-- A DataArray: different dimension names, one per axis. -/
structure Spec.Labelled (t : TArr) : Prop where
  nodup : t.dims.Nodup
  rank : t.data.shape.length = t.dims.length

theorem map_set {L : Type} [DecidableEq L] {dims : List L} (hd : dims.Nodup) {n : L} (f : L → ℕ) (i : ℕ) :
    (dims.map f).set (dims.idxOf n) i = dims.map (Function.update f n i) := by
  apply List.ext_getElem (by simp)
  intro k h1 h2
  have hk : k < dims.length := by simpa using h2
  rw [List.getElem_set, List.getElem_map, List.getElem_map]
  by_cases e : dims.idxOf n = k
  · subst e
    rw [if_pos rfl, List.getElem_idxOf, Function.update_self]
  · rw [if_neg e, Function.update_of_ne]
    intro h
    exact e (by rw [← h, hd.idxOf_getElem k hk])

theorem erase_insert {L : Type} [DecidableEq L] {dims : List L} (hd : dims.Nodup) {n : L} (hn : n ∈ dims) (f : L → ℕ) (i : ℕ) :
    ((dims.eraseIdx (dims.idxOf n)).map f).insertIdx (dims.idxOf n) i = dims.map (Function.update f n i) := by
  have hk := List.idxOf_lt_length_of_mem hn
  rw [← map_set hd]
  have e : (dims.eraseIdx (dims.idxOf n)).map f = (dims.map f).eraseIdx (dims.idxOf n) := List.eraseIdx_map _ _ _ |>.symm
  rw [e]
  apply List.ext_getElem
  · rw [List.length_insertIdx_of_le_length (by rw [List.length_eraseIdx_of_lt (by simpa using hk), List.length_map]; omega),
      List.length_eraseIdx_of_lt (by simpa using hk), List.length_set, List.length_map]
    omega
  intro k h1 h2
  have hk2 : k < dims.length := by simpa using h2
  rw [List.getElem_set]
  rcases lt_trichotomy k (dims.idxOf n) with h | h | h
  · rw [List.getElem_insertIdx_of_lt h, List.getElem_eraseIdx_of_lt _ h, if_neg (by omega)]
  · subst h; rw [List.getElem_insertIdx_self, if_pos rfl]
  · rw [List.getElem_insertIdx_of_gt h, List.getElem_eraseIdx_of_ge _ (by omega), if_neg (by omega)]
    have e : k - 1 + 1 = k := by omega
    simp only [e]

/-- The order in which the levels are used. -/
theorem levelOrder_ok (check : Bool) {m : ℕ} (hm : 0 < m) (p : ℕ → ℝ) : LevelOrder check m p (levelOrder check m p) := by
  obtain ⟨σ, out, h1, h2, -⟩ := tropWmo_columns (n := 2) (m := m) (temperature := ⟨[1, m], fun _ => some 0⟩) (pressure := vec m p) (xdim := -1)
    (ydim := 0) (levdim := 1) (timedim := none) rfl ⟨by norm_num, by norm_num, by norm_num, by norm_num⟩ rfl hm rfl "hPa" 2 0 check
    ⟨fun _ => 0, ⟨fun _ => 0, fun _ => 0, fun _ => 0⟩⟩ (fun _ _ _ => ⟨0, 0, 0, 0, 0⟩)
  subst h1
  exact h2

theorem pos_ok {n k : ℕ} (h : k < n) : pos n (k : ℤ) = .ok k := by
  unfold pos
  rw [if_pos ⟨by omega, by omega⟩]; rfl

/-- A position counted from the end is the position it denotes. -/
theorem pos_neg {n k : ℕ} (h : k < n) : pos n ((k : ℤ) - n) = .ok k := by
  unfold pos
  rw [if_neg (by omega), if_pos ⟨by omega, by omega⟩]
  congr 1
  omega

/-- The levels are sorted the same way when their dimension is counted from the end. -/
theorem sortLevels_neg (auto : Bool) (t : TArr) (p : NDArr ℝ) {k : ℕ} (h : k < t.dims.length) :
    sortLevels auto t p (some ((k : ℤ) - t.dims.length)) = sortLevels auto t p (some (k : ℤ)) := by
  unfold sortLevels
  simp only [pos_neg h, pos_ok h]

/-- Sorting the levels. -/
theorem sortLevels_run {t : TArr} (h : Spec.Labelled t) {lev : String} (hl : lev ∈ t.dims) {p : NDArr ℝ} {m : ℕ} (hp : p.shape = [m])
    (hm : Spec.size t lev = m) (auto : Bool) :
    ∃ p' d', sortLevels auto t p (some (t.dims.idxOf lev : ℤ)) = .ok (p', d') ∧ p'.shape = [m] ∧ d'.shape = t.data.shape ∧
      (∀ j, j < m → p'.get [j] = p.get [levelOrder auto m (fun j => p.get [j]) j]) ∧
      (∀ f j, j < m → d'.get (t.dims.map (Function.update f lev j)) =
        Spec.at t (Function.update f lev (levelOrder auto m (fun j => p.get [j]) j))) ∧
      (auto = false → p' = p) := by
  have hk := List.idxOf_lt_length_of_mem hl
  unfold sortLevels
  cases auto with
  | false =>
    rw [if_neg (by simp)]
    refine ⟨p, t.data, rfl, hp, rfl, fun j _ => ?_, fun f j _ => ?_, fun _ => rfl⟩
    · rw [levelOrder, if_neg (by simp)]
    · rw [levelOrder, if_neg (by simp)]; rfl
  | true =>
    rw [if_pos rfl]
    simp only [bind, Except.bind, pos_ok hk, hp]
    by_cases hs : ((List.range (m - 1)).all fun j => decide (p.get [j] ≤ p.get [j + 1])) = true
    · rw [if_pos hs]
      have hn : ¬ (true = true ∧ ((List.range (m - 1)).all fun k => decide (p.get [k] ≤ p.get [k + 1])) = false) := by rw [hs]; simp
      refine ⟨p, t.data, rfl, hp, rfl, fun j _ => ?_, fun f j _ => ?_, fun _ => rfl⟩
      · rw [levelOrder, if_neg hn]
      · rw [levelOrder, if_neg hn]; rfl
    · rw [if_neg hs]
      have hperm := argsort_perm m (fun j => p.get [j])
      have hlen : (argsort m fun j => p.get [j]).length = m := by rw [hperm.length_eq, List.length_range]
      have hall : ((argsort m fun j => p.get [j]).all fun j => decide (j < t.data.shape.getD (t.dims.idxOf lev) 0)) = true := by
        rw [List.all_eq_true]
        intro j hj
        have := List.mem_range.mp (hperm.mem_iff.mp hj)
        have e : t.data.shape.getD (t.dims.idxOf lev) 0 = m := hm
        rw [e]; simpa using this
      rw [if_pos hall]
      have hsf : ((List.range (m - 1)).all fun k => decide (p.get [k] ≤ p.get [k + 1])) = false := by
        simpa using hs
      have hc : true = true ∧ ((List.range (m - 1)).all fun k => decide (p.get [k] ≤ p.get [k + 1])) = false := ⟨rfl, hsf⟩
      refine ⟨_, _, rfl, ?_, ?_, fun j hj => ?_, fun f j hj => ?_, by simp⟩
      · simp [takeAxis, hp, hlen]
      · simp only [takeAxis, hlen]
        have hk' : t.dims.idxOf lev < t.data.shape.length := by rw [h.rank]; exact hk
        rw [← hm, Spec.size, List.getD_eq_getElem _ _ hk', List.set_getElem_self]
      · rw [levelOrder, if_pos hc]
        simp [takeAxis]
      · rw [levelOrder, if_pos hc]
        simp only [takeAxis, Spec.at]
        have e : (t.dims.map (Function.update f lev j)).getD (t.dims.idxOf lev) 0 = j := by
          rw [List.getD_eq_getElem _ _ (by simpa using hk), List.getElem_map, List.getElem_idxOf, Function.update_self]
        rw [e, map_set h.nodup, Function.update_idem]

/-- Grids: once the axes are known. -/
theorem run_grid {t : TArr} (h : Spec.Labelled t) {lev : String} (hl : lev ∈ t.dims) {pressure : Option (NDArr ℝ)} {p : NDArr ℝ} {m : ℕ}
    (hpo : pressureOf t pressure = .ok p) (hp : p.shape = [m])
    (hm : Spec.size t lev = m) (hm0 : 0 < m) {x y l td : Option DimArg} {a : Axes} (ha : resolve t x y l td = .ok a)
    (hal : a.l = some (t.dims.idxOf lev : ℤ))
    (hlay : Layout t.dims.length (a.x.getD (-1)) (a.y.getD (-1)) (t.dims.idxOf lev : ℤ) (some (a.t.getD (-1))))
    (unit : String) (c missing : ℝ) (auto : Bool) (w : Work) (s : Scratch) (out0 : ℕ → ℕ → ℕ → Cell) :
    ∃ r, tropWmo t pressure x y l td unit c missing auto w s out0 = .ok r ∧ r.dims = t.dims.eraseIdx (t.dims.idxOf lev) ∧
      r.coords = r.dims.filterMap (fun n => (t.coords.lookup n).map fun v => (n, v)) ∧
      r.cells.shape = r.dims.map (Spec.size t) ∧
      ∀ f, (∀ n ∈ r.dims, f n < Spec.size t n) → ∀ w',
        tropWmoProfile (vec m fun j => Spec.at t (Function.update f lev (levelOrder true m (fun j => p.get [j]) j)))
          (vec m fun j => p.get [levelOrder true m (fun j => p.get [j]) j]) unit c missing w' = .ok (Spec.cell r f) := by
  have hk := List.idxOf_lt_length_of_mem hl
  obtain ⟨p', d', es, hps, hds, hpv, hdv, hpf⟩ := sortLevels_run h hl hp hm auto
  have hn1 : t.data.shape.length ≠ 1 := by
    rw [h.rank]
    have := hlay.shape
    omega
  obtain ⟨σ, out, hσ, hlo, eo, hos, hov⟩ := tropWmo_columns (n := t.dims.length) (m := m) (temperature := plain d') (pressure := plain p')
    (by simp [plain, hds, h.rank]) hlay (by simp [plain, hps]) hm0
    (by simp only [plain, hds, Int.toNat_natCast]; exact hm) unit c missing (!auto) s out0
  have hshape : out.shape = (t.dims.eraseIdx (t.dims.idxOf lev)).map (Spec.size t) := by
    rw [hos]
    simp only [plain, hds, Int.toNat_natCast]
    have : t.data.shape = t.dims.map (Spec.size t) := (exists_assign h.nodup h.rank).symm
    rw [this, ← List.eraseIdx_map]
  refine ⟨⟨t.dims.eraseIdx (t.dims.idxOf lev), (t.dims.eraseIdx (t.dims.idxOf lev)).filterMap (fun n => (t.coords.lookup n).map fun v => (n, v)), out⟩, ?_, rfl, rfl, hshape, fun f hf w' => ?_⟩
  · unfold tropWmo
    simp only [bind, Except.bind, hpo, ha, hal, es]
    rw [if_neg hn1]
    simp only [eo, lift, pos_ok hk]
  · rw [profile_run hm0 rfl rfl]
    congr 1
    have hin : InB out.shape ((t.dims.eraseIdx (t.dims.idxOf lev)).map f) := by rw [hshape, inB_map]; exact hf
    unfold Spec.cell
    rw [hov _ hin]
    have key : ∀ j, levelOrder auto m (fun j => p.get [j]) (σ j) = levelOrder true m (fun j => p.get [j]) j := by
      intro j
      rw [hσ]
      cases auto with
      | true => congr 1
      | false =>
        rw [hpf rfl]
        conv_lhs => unfold levelOrder
        rw [if_neg (by simp)]
        rfl
    apply colCell_congr
    · intro k k1 k2
      have hk1 : k - 1 < m := by omega
      simp only [vec, plain, Option.getD_some, List.getD_cons_zero]
      rw [hpv _ (hlo.lt _ hk1), key]
    · intro k k1 k2
      have hk1 : k - 1 < m := by omega
      simp only [vec, plain, Option.getD_some, List.getD_cons_zero, Int.toNat_natCast]
      rw [erase_insert h.nodup hl, hdv _ _ (hlo.lt _ hk1), key]

/-- Profiles. -/
theorem run_profile {t : TArr} (h : Spec.Labelled t) {lev : String} (hl : t.dims = [lev]) {pressure : Option (NDArr ℝ)} {p : NDArr ℝ} {m : ℕ}
    (hpo : pressureOf t pressure = .ok p) (hp : p.shape = [m])
    (hm : Spec.size t lev = m) (hm0 : 0 < m) {x y l td : Option DimArg} {a : Axes} (ha : resolve t x y l td = .ok a)
    (hal : a.l = some (t.dims.idxOf lev : ℤ)) (unit : String) (c missing : ℝ) (auto : Bool) (w : Work) (s : Scratch) (out0 : ℕ → ℕ → ℕ → Cell) :
    ∃ r, tropWmo t pressure x y l td unit c missing auto w s out0 = .ok r ∧ r.dims = [] ∧ r.coords = [] ∧ r.cells.shape = [] ∧
      ∀ f w',
        tropWmoProfile (vec m fun j => Spec.at t (Function.update f lev (levelOrder auto m (fun j => p.get [j]) j)))
          (vec m fun j => p.get [levelOrder auto m (fun j => p.get [j]) j]) unit c missing w' = .ok (Spec.cell r f) := by
  have hl' : lev ∈ t.dims := by rw [hl]; simp
  obtain ⟨p', d', es, hps, hds, hpv, hdv, -⟩ := sortLevels_run h hl' hp hm auto
  have hsh : t.data.shape = [m] := by
    have := (exists_assign h.nodup h.rank).symm
    rw [hl] at this
    rw [this]
    simp only [List.map_cons, List.map_nil]
    rw [← hm, Spec.size, hl]
  have hrun := profile_run hm0 (temperature := plain d') (pressure := plain p') (by simp [plain, hds, hsh]) (by simp [plain, hps]) unit c missing w
  generalize hcc : colCell m (fun k => ((plain p').get [k - 1]).getD missing) (fun k => ((plain d').get [k - 1]).getD missing)
    missing c (punitOf unit) = cc at hrun
  refine ⟨⟨[], [], ⟨[], fun _ => cc⟩⟩, ?_, rfl, rfl, rfl, fun f w' => ?_⟩
  · unfold tropWmo
    simp only [bind, Except.bind, hpo, ha, hal, es]
    rw [if_pos (by rw [hsh]; rfl)]
    simp only [hrun, lift]
  · rw [profile_run hm0 rfl rfl]
    congr 1
    unfold Spec.cell
    rw [← hcc]
    apply colCell_congr
    · intro k k1 k2
      have hk1 : k - 1 < m := by omega
      simp only [vec, plain, Option.getD_some, List.getD_cons_zero]
      rw [hpv _ hk1]
    · intro k k1 k2
      have hk1 : k - 1 < m := by omega
      simp only [vec, plain, Option.getD_some, List.getD_cons_zero]
      rw [← hdv f _ hk1, hl]
      simp

/-- A name, or the placeholder -1 for an absent axis. -/
def Spec.arg : Option String → Option DimArg
  | some s => some (.name s)
  | none => some (.int (-1))

/-- The documented arrangements with at least two dimensions: a level dimension `l`, and (2-D) a longitude `x` or a latitude `y`, (3-D)
both, or one of them and a time `td`, (4-D) both. All names are dimensions, and different. -/
structure Spec.Arranged (dims : List String) (x y td : Option String) (l : String) : Prop where
  lev : l ∈ dims
  mem : (∀ s ∈ x, s ∈ dims) ∧ (∀ s ∈ y, s ∈ dims) ∧ ∀ s ∈ td, s ∈ dims
  distinct : (x.toList ++ y.toList ++ td.toList ++ [l]).Nodup
  forms : (dims.length = 2 ∧ (x.isSome ∨ y.isSome)) ∨
    (dims.length = 3 ∧ ((x.isSome ∧ y.isSome) ∨ ((x.isSome ∨ y.isSome) ∧ td.isSome))) ∨ (dims.length = 4 ∧ x.isSome ∧ y.isSome)

/-- The index of a name, -1 for none. -/
def axisOf (dims : List String) (s : Option String) : ℤ := (s.map fun s => (dims.idxOf s : ℤ)).getD (-1)

theorem idxOf_inj_int {dims : List String} {a b : String} (ha : a ∈ dims) (h : ((dims.idxOf a : ℕ) : ℤ) = (dims.idxOf b : ℕ)) : a = b := by
  exact (List.idxOf_inj ha).mp (by exact_mod_cast h)

theorem Spec.Arranged.layout {dims : List String} {x y td : Option String} {l : String} (h : Spec.Arranged dims x y td l) :
    Layout dims.length (axisOf dims x) (axisOf dims y) (dims.idxOf l : ℤ) (some (axisOf dims td)) := by
  obtain ⟨hl, ⟨hx, hy, ht⟩, hd, hf⟩ := h
  have b : ∀ s ∈ dims, ((dims.idxOf s : ℕ) : ℤ) < dims.length := fun s hs => by exact_mod_cast List.idxOf_lt_length_of_mem hs
  have bl := b l hl
  have key : ∀ {u v : String}, u ∈ dims → u ≠ v → ((dims.idxOf u : ℕ) : ℤ) ≠ (dims.idxOf v : ℕ) := fun hu huv e => huv (idxOf_inj_int hu e)
  rcases x with _ | x <;> rcases y with _ | y <;> rcases td with _ | td <;>
    simp only [Option.toList_some, Option.toList_none, List.nil_append, List.cons_append, List.nodup_cons, List.mem_cons, List.not_mem_nil,
      or_false, not_or, List.nodup_nil, not_false_eq_true, and_true, true_and, Option.isSome_some, Option.isSome_none, Bool.false_eq_true,
      false_and, and_false, or_self, false_or, or_true, true_or, Option.mem_def, Option.some.injEq, forall_eq', reduceCtorEq] at hx hy ht hd hf
  all_goals
    simp only [axisOf, Option.map_some, Option.map_none, Option.getD_some, Option.getD_none]
    refine ⟨by simp, ⟨?_, ?_, bl, ?_⟩, ⟨?_, ?_, ?_, ?_⟩, ?_⟩
    all_goals try simp only [Option.getD_some]
    all_goals first
      | omega
      | exact b _ (by assumption)
      | (intro _; exact key (by assumption) (by tauto))
      | (intro _; refine ⟨?_, ?_, ?_⟩ <;> first | omega | exact key (by assumption) (by tauto))
      | exact key (by assumption) (by tauto)
      | exact fun e => key (by assumption) (by tauto) e.symm


end Skyborn.Trop.Xr
