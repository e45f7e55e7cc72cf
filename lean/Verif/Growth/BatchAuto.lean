/-
Several profiles in one call without a tropopause pressure (core.py:1013-1034) against one call per profile (core.py:384-413).
-/
import Verif.Growth.Batch
import Verif.Trop.Props

namespace Skyborn.Growth

open Classical

namespace Spec.Batch

/-- The call without `tropopause_pressure`. -/
noncomputable def autoRun (b : Batch) (qz : Solver) (w : Trop.Work) (s : Trop.Scratch) (o : ℕ → ℕ → ℕ → Trop.Cell) : Except Err Out :=
  barocGrowth qz (matrix b.m b.n b.u) (matrix b.m b.n b.t) (array b.n b.p) (if b.band.isSome then none else some (vector b.m b.lat))
    (b.band.map fun q => [q.1, q.2]) b.waves.lon b.waves.mode (if b.log then "log" else "linear") none (some b.levels) (some b.window) w s o

/-- Nothing is missing in profile `i`. -/
def AutoComplete (b : Batch) (i : ℕ) : Prop :=
  (∀ j, 1 ≤ j → j ≤ b.n → b.u i j ≠ none ∧ b.t i j ≠ none) ∧ (b.band = none → b.lat i ≠ none)

/-- The request for profile `i` alone, without `tropopause_pressure`. -/
def autoCall (b : Batch) (i : ℕ) : Call := { b.call i with trop := none }

/-- What the docstring asks of the arguments; the axes of the arrays can be told apart; a profile is complete. -/
structure AutoValid (b : Batch) : Prop where
  axes : b.m ≠ b.n
  two : 2 ≤ b.n
  strict : Strict b.n b.p
  pos : ∀ i, 1 ≤ i → i ≤ b.n → 0 < b.p i
  lons : b.waves.Ok 1
  levels : 2 ≤ b.levels
  window : b.window % 2 = 1
  rows : ∀ i, 1 ≤ i → i ≤ b.m → b.AutoComplete i → (b.autoCall i).Valid
  some_row : ∃ i, 1 ≤ i ∧ i ≤ b.m ∧ b.AutoComplete i

end Spec.Batch

theorem cell_exists {c : Spec.Call} (hn : 2 ≤ c.n) (w : Trop.Work) : ∃ cell, c.Cell w cell ∧
    cell = Trop.colCell c.n (fun k => c.pa (if c.pa 1 > c.pa c.n then c.n + 1 - k else k)) (fun k => c.t (if c.pa 1 > c.pa c.n then c.n + 1 - k else k))
      (-999) 2 (Trop.punitOf "Pa") := by
  unfold Spec.Call.Cell
  by_cases g : c.pa 1 > c.pa c.n
  · simp only [if_pos g]
    refine ⟨_, Trop.profile_run (by omega) rfl rfl "Pa" 2 (-999) w, ?_⟩
    exact Trop.colCell_congr (fun k h1 h2 => by rw [backwards_get _ h1 h2]; rfl) (fun k h1 h2 => by rw [backwards_get _ h1 h2]; rfl) _ _ _
  · simp only [if_neg g]
    refine ⟨_, Trop.profile_run (by omega) rfl rfl "Pa" 2 (-999) w, ?_⟩
    exact Trop.colCell_congr (fun k h1 h2 => by rw [array_get _ h1]; rfl) (fun k h1 h2 => by rw [array_get _ h1]; rfl) _ _ _

theorem sigma_eq {n : ℕ} {p : ℕ → ℝ} (hn : 2 ≤ n) (hs : Spec.Strict n p) {σ : ℕ → ℕ} (h : Trop.LevelOrder true n (fun k => p (k + 1)) σ) {k : ℕ} (hk : k < n) :
    σ k = if p 1 > p n then n - 1 - k else k := by
  rcases hs with g | g
  · rw [if_neg (not_lt.mpr (strict_lt g le_rfl (by omega) le_rfl).le)]
    exact h.same (Or.inr fun i j hij hj => (strict_lt g (by omega) (by omega) (by omega)).le) k hk
  · rw [if_pos (strict_gt g le_rfl (by omega) le_rfl)]
    have := Trop.enum_unique (m := n) (p := fun k => p (k + 1)) (q := fun k => p (n - 1 - k + 1)) (π := fun k => n - 1 - k) (σ := σ) (τ := fun k => k)
      (fun k hk => by omega) (fun i j hi hj e => by omega) (fun k hk => rfl)
      (fun i j hi hj e => by
        beta_reduce at e
        rcases Nat.lt_trichotomy i j with l | l | l
        · have := strict_gt g (i := i + 1) (j := j + 1) (by omega) (by omega) (by omega); linarith
        · exact l
        · have := strict_gt g (i := j + 1) (j := i + 1) (by omega) (by omega) (by omega); linarith)
      h ⟨fun k hk => hk, fun i j _ _ e => e, fun _ i j hij hj => (strict_gt g (by omega) (by omega) (by omega)).le, fun _ k _ => rfl⟩ k hk
    exact this.symm

/-- The tropopause of every profile of the batch is that of the profile alone. -/
theorem findTrops_eq {b : Spec.Batch} (hn : 2 ≤ b.n) (hs : Spec.Strict b.n b.p) (w : Trop.Work) (s : Trop.Scratch)
    (o : ℕ → ℕ → ℕ → Trop.Cell) (rows : List ℕ) (hun : ∀ i ∈ rows, ∀ j, j < b.n → b.t (i + 1) (j + 1) = some ((b.autoCall (i + 1)).t (j + 1))) :
    ∃ tp, findTrops (b.autoCall 0).setting (fun i j => b.t (i + 1) (j + 1)) rows none s o = .ok tp ∧ ∀ i ∈ rows, ∃ cell, (b.autoCall (i + 1)).Cell w cell ∧
      tp i = if cell.success ≠ 0 then some (cell.ptrop * 100) else none := by
  unfold findTrops
  dsimp only
  have hps : Spec.Strict b.n (b.autoCall 0).pa := pa_strict (c := b.autoCall 0) hs
  obtain ⟨σ, out, -, hσ, e, hsh, hv⟩ := Trop.tropWmo_columns (n := 2) (m := b.n)
    (temperature := ⟨[rows.length, b.n], fun idx => b.t (rows.getD (idx.getD 0 0) 0 + 1) (idx.getD 1 0 + 1)⟩)
    (pressure := ⟨[b.n], fun idx => (b.autoCall 0).setting.p (idx.getD 0 0)⟩) (xdim := -1) (ydim := 0) (levdim := 1) (timedim := none) rfl
    ⟨by norm_num, by norm_num, by norm_num, by norm_num⟩ rfl (by omega) rfl "Pa" 2 (-999) true s o
  have hσ' := fun k hk => sigma_eq hn hps hσ (k := k) hk
  have e' : Trop.tropWmo ⟨[rows.length, (b.autoCall 0).setting.np], fun idx => b.t (rows.getD (idx.getD 0 0) 0 + 1) (idx.getD 1 0 + 1)⟩
      ⟨[(b.autoCall 0).setting.np], fun idx => (b.autoCall 0).setting.p (idx.getD 0 0)⟩ (-1) 0 1 none "Pa" 2 (-999) true s o = .ok out := e
  rw [e']
  refine ⟨_, rfl, fun i hi => ?_⟩
  obtain ⟨cell, hc, ec⟩ := cell_exists (c := b.autoCall (i + 1)) hn w
  refine ⟨cell, hc, ?_⟩
  have hlt := List.idxOf_lt_length_of_mem hi
  have hget : rows.getD (rows.idxOf i) 0 = i := by
    rw [List.getD_eq_getElem _ _ hlt, List.getElem_idxOf]
  have : out.get [rows.idxOf i] = cell := by
    rw [hv _ (by rw [hsh]; simpa [InB] using hlt), ec]
    refine Trop.colCell_congr (fun k h1 h2 => ?_) (fun k h1 h2 => ?_) _ _ _
    · show (b.autoCall 0).pa (σ (k - 1) + 1) = (b.autoCall 0).pa (if (b.autoCall 0).pa 1 > (b.autoCall 0).pa b.n then b.n + 1 - k else k)
      replace h2 : k ≤ b.n := h2
      rw [hσ' (k - 1) (by omega)]
      split
      · congr 1; omega
      · congr 1; omega
    · show (b.t (rows.getD (rows.idxOf i) 0 + 1) (σ (k - 1) + 1)).getD (-999) =
        (b.autoCall (i + 1)).t (if (b.autoCall 0).pa 1 > (b.autoCall 0).pa b.n then b.n + 1 - k else k)
      replace h2 : k ≤ b.n := h2
      rw [hget, hun i hi _ (hσ.lt _ (by omega)), hσ' (k - 1) (by omega), Option.getD_some]
      split
      · congr 1; omega
      · congr 1; omega
  beta_reduce
  rw [this]
  by_cases g : cell.success ≠ 0
  · rw [if_pos ⟨hi, g⟩, if_pos g]
  · rw [if_neg (fun k => g k.2), if_neg g]

/-- A tropopause at or below the bottom. -/
theorem row_above (qz : Solver) (S : Setting) (hl : 2 ≤ S.levels) (hn : 2 ≤ S.np) {tp : ℝ} (hb : S.bottom ≤ tp) (u t : ℕ → Option ℝ) (q : Place) :
    runRow qz S u t (some tp) (some q) = .ier 100 := by
  unfold runRow profileGrowth
  dsimp only
  have : interpNoExtrap S.np (arg S.p) (arg u) S.levels (fun k => levelAt tp S.bottom S.levels (k - 1)) (if S.log then 2 else 1) = none := by
    unfold interpNoExtrap
    rw [if_neg (by omega)]
    dsimp only
    generalize (if arg S.p 1 > arg S.p S.np then fun i => arg S.p (S.np - i + 1) else arg S.p) = P
    split
    · rfl
    · refine if_pos ⟨1, le_rfl, by omega, ?_⟩
      unfold levelAt
      have : (0 : ℝ) < (S.levels : ℝ) - 1 := by
        have : (2 : ℝ) ≤ S.levels := by exact_mod_cast hl
        linarith
      have h1 : (0 : ℝ) ≤ 1 / ((S.levels : ℝ) - 1) := by positivity
      have : (S.bottom - tp) * (1 / ((S.levels : ℝ) - 1)) ≤ 0 := mul_nonpos_of_nonpos_of_nonneg (by linarith) h1
      norm_num at this ⊢
      linarith
  rw [this]

theorem auto_reaches {b : Spec.Batch} (h : b.AutoValid) (qz : Solver) (w : Trop.Work) (s : Trop.Scratch) (o : ℕ → ℕ → ℕ → Trop.Cell) :
    b.autoRun qz w s o = (batchRun qz (b.autoCall 0).setting b.m (fun i j => b.u (i + 1) (j + 1)) (fun i j => b.t (i + 1) (j + 1)) (fun i => b.spot (i + 1))
      none s o).map fun r => .many r.1 r.2 := by
  have hS : settings (Spec.array b.n b.p) b.waves.lon b.waves.mode (if b.log then "log" else "linear") (some b.levels) (some b.window) =
      .ok (b.autoCall 0).setting := by
    have := settings_eq (c := { b.call 0 with place := .at 0 }) h.two h.strict h.pos (by
      have : (Spec.Where.at 0).cos = 1 := by simp [Spec.Where.cos]
      dsimp only
      rw [this]
      exact h.lons) h.levels h.window
    exact this
  have hco : ∀ v, coerce (Spec.matrix b.m b.n v) b.n = .ok (b.m, fun i j => v (i + 1) (j + 1)) := by
    intro v
    have hax : axesOf [b.m, b.n] b.n = [1] := by
      have := h.axes
      unfold axesOf
      simp [List.range_succ, List.filter_cons, this]
    unfold coerce Spec.matrix
    dsimp only
    rw [hax]
    rfl
  have hnp : (b.autoCall 0).setting.np = b.n := rfl
  have hmany : ∀ l, (∀ q, b.band = some q → l = none) → (b.band = none → l = some (Spec.vector b.m b.lat)) →
      manyProfiles qz (b.autoCall 0).setting (b.m, fun i j => b.u (i + 1) (j + 1)) (b.m, fun i j => b.t (i + 1) (j + 1)) l b.band
      none s o = batchRun qz (b.autoCall 0).setting b.m (fun i j => b.u (i + 1) (j + 1)) (fun i j => b.t (i + 1) (j + 1))
        (fun i => b.spot (i + 1)) none s o := by
    intro l hl1 hl2
    unfold manyProfiles broadcast
    dsimp only
    rw [max_self, if_pos rfl, if_pos rfl]
    have hv : ∀ v, profileVector (Spec.vector b.m v) b.m = .ok fun i => v (i + 1) := by
      intro v
      unfold profileVector Spec.vector
      dsimp only
      rw [if_pos rfl]
      rfl
    have hpl : placesOf b.m b.band l = .ok fun i => b.spot (i + 1) := by
      unfold placesOf Spec.Batch.spot
      cases hb : b.band with
      | some q => rfl
      | none =>
        rw [hl2 hb]
        dsimp only
        rw [hv]
        rfl
    rw [hpl]
    rfl
  have hlen : ∀ v, (Spec.matrix b.m b.n v).shape.length = 2 := fun _ => rfl
  unfold Spec.Batch.autoRun barocGrowth
  rw [hS]
  cases hb : b.band with
  | none =>
    simp only [Option.map_none, boundsOf, Except.bind, bind, Option.isSome_none, Bool.false_eq_true, if_false, dispatch, hnp, hco, hlen, Option.isNone_some]
    have := hmany (some (Spec.vector b.m b.lat)) (fun q hq => by rw [hb] at hq; cases hq) fun _ => rfl
    rw [hb] at this
    rw [this]
    simp
  | some q =>
    simp only [Option.map_some, boundsOf, Except.bind, bind, Option.isSome_some, if_true, reduceBand, hlen]
    rw [if_pos (by norm_num)]
    simp only [dispatch, hnp, hco, hlen, Option.isNone_none, Option.isSome_some, Option.isNone_some, Option.isSome_none]
    have := hmany none (fun q hq => rfl) fun g => by rw [hb] at g; cases g
    rw [hb] at this
    simp only [Prod.mk.eta, Except.bind, bind]
    rw [this]
    simp

/-- One profile of the batch against the call for it alone. -/
theorem auto_single {c : Spec.Call} (h : c.Valid) (hc : c.trop = none) {w : Trop.Work} {cell : Trop.Cell} (hcell : c.Cell w cell) (qz : Solver) (s : Trop.Scratch)
    (o : ℕ → ℕ → ℕ → Trop.Cell) {u t : ℕ → Option ℝ} (hu : ∀ j, j < c.n → u j = some (c.u (j + 1))) (htt : ∀ j, j < c.n → t j = some (c.t (j + 1))) :
    (cell.success = 0 → c.run qz w s o = .error (.runtime [])) ∧
    (cell.success ≠ 0 → match runRow qz c.setting u t (some (cell.ptrop * 100)) (some c.spot) with
      | .value v => c.run qz w s o = .ok (.one (some v))
      | .divZero => c.run qz w s o = .error .divZero
      | .ier k => if k = 100 then c.run qz w s o = .ok (.one none) ∨ c.run qz w s o = .error (.runtime []) ∨ c.run qz w s o = .error .value
          else c.run qz w s o = .error (.runtime [k])) := by
  have hbad : cell.success = 0 ∨ cell.ptrop ≤ 0 → c.run qz w s o = .error (.runtime []) := by
    intro g
    rw [run_two h, hc, Option.map_none]
    unfold tropOf
    dsimp only
    rw [infer_eq h.two hcell, if_pos g]
    rfl
  refine ⟨fun g => hbad (Or.inl g), fun g => ?_⟩
  by_cases h0 : cell.ptrop ≤ 0
  · rw [row_outside h (by
      have h1 := pa_pos (c := c) (fun i a b => (h.pos i a b).1) (i := 1) le_rfl (by have := h.two; omega)
      have h2 := pa_pos (c := c) (fun i a b => (h.pos i a b).1) (i := c.n) (by have := h.two; omega) le_rfl
      exact lt_min (by linarith) (by linarith))]
    dsimp only
    rw [if_pos rfl]
    exact Or.inr (Or.inl (hbad (Or.inr h0)))
  · push Not at h0
    have ht : c.Tropopause w (cell.ptrop * 100) := by
      unfold Spec.Call.Tropopause
      rw [hc]
      exact ⟨cell, hcell, g, h0, rfl⟩
    by_cases hb : cell.ptrop * 100 < c.bottom
    · have := row_single h ht (by linarith) hb qz s o hu htt
      generalize runRow qz c.setting u t (some (cell.ptrop * 100)) (some c.spot) = r at this ⊢
      cases r with
      | value v => exact this
      | divZero => exact this
      | ier k =>
        dsimp only at this ⊢
        by_cases hk : k = 100
        · rw [if_pos hk] at this ⊢
          exact Or.inl this
        · rw [if_neg hk] at this ⊢
          exact this
    · push Not at hb
      rw [row_above qz c.setting h.levels h.two hb]
      dsimp only
      rw [if_pos rfl]
      refine Or.inr (Or.inr ?_)
      rw [run_two h, tropOf_eq h.two ht]
      simp only [solveOne]
      rw [if_pos (by
        simp only [decide_eq_true_eq]
        exact hb)]
      rfl

/-- The batch solves the complete profiles with a tropopause. -/
theorem auto_solves {b : Spec.Batch} (h : b.AutoValid) (qz : Solver) (w : Trop.Work) (s : Trop.Scratch) (o : ℕ → ℕ → ℕ → Trop.Cell) :
    ∃ (rows : List ℕ) (run : ℕ → Ret), (∀ i ∈ rows, i < b.m ∧ b.AutoComplete (i + 1)) ∧
      (∀ i, i < b.m → b.AutoComplete (i + 1) → i ∉ rows → (b.autoCall (i + 1)).run qz w s o = .error (.runtime [])) ∧
      (∀ i ∈ rows, match run i with
        | .value v => (b.autoCall (i + 1)).run qz w s o = .ok (.one (some v))
        | .divZero => (b.autoCall (i + 1)).run qz w s o = .error .divZero
        | .ier k => if k = 100 then (b.autoCall (i + 1)).run qz w s o = .ok (.one none) ∨ (b.autoCall (i + 1)).run qz w s o = .error (.runtime []) ∨
            (b.autoCall (i + 1)).run qz w s o = .error .value
          else (b.autoCall (i + 1)).run qz w s o = .error (.runtime [k])) ∧
      b.autoRun qz w s o = if rows = [] then .ok (.many b.m fun _ => none)
        else if ∃ i ∈ rows, run i = .divZero then .error .divZero
        else if rows.filterMap (fun i => (run i).failure) ≠ [] then .error (.runtime (rows.filterMap fun i => (run i).failure))
        else .ok (.many b.m fun i => if i ∈ rows then (run i).number else none) := by
  set S := (b.autoCall 0).setting with hS
  set U : ℕ → ℕ → Option ℝ := fun i j => b.u (i + 1) (j + 1) with hU
  set T : ℕ → ℕ → Option ℝ := fun i j => b.t (i + 1) (j + 1) with hT
  have hval : ∀ i, validRow S U T (fun i => b.spot (i + 1)) none i ↔ b.AutoComplete (i + 1) := by
    intro i
    have hnp : S.np = b.n := rfl
    have h1 : (∀ j, j < b.n → b.u (i + 1) (j + 1) ≠ none ∧ b.t (i + 1) (j + 1) ≠ none) ↔
        ∀ j, 1 ≤ j → j ≤ b.n → b.u (i + 1) j ≠ none ∧ b.t (i + 1) j ≠ none := by
      constructor
      · intro g j a c
        have := g (j - 1) (by omega)
        rwa [show j - 1 + 1 = j by omega] at this
      · intro g j a
        exact g (j + 1) (by omega) (by omega)
    have h2 : b.spot (i + 1) ≠ none ↔ (b.band = none → b.lat (i + 1) ≠ none) := by
      unfold Spec.Batch.spot
      cases b.band with
      | some q => simp
      | none => simp
    unfold validRow Spec.Batch.AutoComplete
    rw [hnp]
    simp only [hU, hT]
    rw [h1, h2]
    simp
  have hun : ∀ i, b.AutoComplete i → ∀ j, j < b.n → b.u i (j + 1) = some ((b.autoCall i).u (j + 1)) ∧ b.t i (j + 1) = some ((b.autoCall i).t (j + 1)) := by
    intro i hc j hj
    obtain ⟨a, c⟩ := hc.1 (j + 1) (by omega) (by omega)
    obtain ⟨x, hx⟩ := Option.ne_none_iff_exists'.mp a
    obtain ⟨y, hy⟩ := Option.ne_none_iff_exists'.mp c
    simp only [Spec.Batch.autoCall, Spec.Batch.call, hx, hy, Option.getD_some, and_self]
  have hspot : ∀ i, b.AutoComplete i → b.spot i = some (b.autoCall i).spot := by
    intro i hc
    unfold Spec.Batch.spot Spec.Batch.autoCall Spec.Batch.call Spec.Call.spot
    cases hb : b.band with
    | some q => rfl
    | none =>
      obtain ⟨x, hx⟩ := Option.ne_none_iff_exists'.mp (hc.2 hb)
      rw [hx]
      rfl
  set R := (List.range b.m).filter fun i => decide (validRow S U T (fun i => b.spot (i + 1)) none i) with hR
  have hmem : ∀ i, i ∈ R ↔ i < b.m ∧ b.AutoComplete (i + 1) := by
    intro i
    simp only [hR, List.mem_filter, List.mem_range, decide_eq_true_eq, hval]
  obtain ⟨tp, etp, htp⟩ := findTrops_eq h.two h.strict w s o R fun i hi j hj => (hun _ ((hmem i).mp hi).2 j hj).2
  refine ⟨R.filter fun i => decide (tp i ≠ none), fun i => runRow qz S (U i) (T i) (tp i) (b.spot (i + 1)), ?_, ?_, ?_, ?_⟩
  · intro i hi
    exact (hmem i).mp (List.mem_of_mem_filter hi)
  · intro i hi hc hni
    have hiR := (hmem i).mpr ⟨hi, hc⟩
    obtain ⟨cell, hcell, e⟩ := htp i hiR
    have : tp i = none := by
      by_contra g
      exact hni (List.mem_filter.mpr ⟨hiR, decide_eq_true g⟩)
    rw [this] at e
    refine (auto_single (h.rows (i + 1) (by omega) (by omega) hc) rfl hcell qz s o (fun j hj => (hun _ hc j hj).1) fun j hj => (hun _ hc j hj).2).1 ?_
    by_contra g
    rw [if_pos g] at e
    cases e
  · intro i hi
    obtain ⟨hiR, g⟩ := List.mem_filter.mp hi
    obtain ⟨a, c⟩ := (hmem i).mp hiR
    obtain ⟨cell, hcell, e⟩ := htp i hiR
    have hsuc : cell.success ≠ 0 := by
      intro k
      rw [if_neg (not_not.mpr k)] at e
      rw [e] at g
      simp at g
    rw [if_pos hsuc] at e
    beta_reduce
    rw [e, hspot _ c]
    exact (auto_single (h.rows (i + 1) (by omega) (by omega) c) rfl hcell qz s o (fun j hj => (hun _ c j hj).1) fun j hj => (hun _ c j hj).2).2 hsuc
  · rw [auto_reaches h]
    unfold batchRun
    rw [← hS, if_neg (by
      rintro ⟨i, hi, hv, v, x, e, -⟩
      cases e), if_neg (by
      rintro ⟨i, hi, hv, j, hj, x, hx, g⟩
      replace hv := (hval i).mp hv
      have := ((h.rows (i + 1) (by omega) (by omega) hv).pos (j + 1) (by omega) hj).2
      have e := (hun _ hv j hj).2
      beta_reduce at hx
      rw [e] at hx
      cases hx
      linarith), ← hR, etp]
    dsimp only
    unfold solveRows
    by_cases g : (R.filter fun i => decide (tp i ≠ none)) = []
    · rw [if_pos g, if_pos g]
      rfl
    · rw [if_neg g, if_neg g, if_neg (by
        rintro ⟨hm, i, hi, q, hq, hz⟩
        obtain ⟨a, c⟩ := (hmem i).mp (List.mem_of_mem_filter hi)
        beta_reduce at hq
        rw [hspot _ c] at hq
        cases hq
        rcases len_pos (h.rows (i + 1) (by omega) (by omega) c).waves with k | k
        · replace hm : (b.autoCall (i + 1)).modeId = 2 := hm
          omega
        · exact absurd k.2 (not_lt.mpr hz))]
      dsimp only
      split
      · rfl
      · split <;> rfl

/-- C187: without a tropopause pressure: if the call for every complete profile alone returns, or raises because the profile has no tropopause (a `RuntimeError`
without a status) or one below the bottom (a `ValueError`), then the call for all of them returns, with the same values, and NaN for the incomplete
profiles and for those whose own call raises. -/
theorem C187_auto {b : Spec.Batch} (h : b.AutoValid) (qz : Solver) (w : Trop.Work) (s : Trop.Scratch) (o : ℕ → ℕ → ℕ → Trop.Cell)
    (hok : ∀ i, 1 ≤ i → i ≤ b.m → b.AutoComplete i → (∃ x, (b.autoCall i).run qz w s o = .ok (.one x)) ∨ (b.autoCall i).run qz w s o = .error (.runtime []) ∨
      (b.autoCall i).run qz w s o = .error .value) :
    ∃ v, b.autoRun qz w s o = .ok (.many b.m v) ∧ ∀ i, 1 ≤ i → i ≤ b.m →
      (b.AutoComplete i → ∀ x, (b.autoCall i).run qz w s o = .ok (.one x) → v (i - 1) = x) ∧
      (b.AutoComplete i → ∀ e, (b.autoCall i).run qz w s o = .error e → v (i - 1) = none) ∧ (¬ b.AutoComplete i → v (i - 1) = none) := by
  obtain ⟨rows, run, hm, hno, hr, e⟩ := auto_solves h qz w s o
  have hout : ∀ i, 1 ≤ i → i ≤ b.m → b.AutoComplete i → i - 1 ∉ rows → (b.autoCall i).run qz w s o = .error (.runtime []) := fun i h1 h2 hc hn => by
    have := hno (i - 1) (by omega) (by rwa [show i - 1 + 1 = i by omega]) hn
    rwa [show i - 1 + 1 = i by omega] at this
  by_cases g : rows = []
  · rw [if_pos g] at e
    refine ⟨_, e, fun i h1 h2 => ⟨fun hc x hx => ?_, fun _ _ _ => rfl, fun _ => rfl⟩⟩
    have := hout i h1 h2 hc (by rw [g]; simp)
    rw [hx] at this
    cases this
  · have hgood : ∀ i ∈ rows, run i = .ier 100 ∨ ∃ v, run i = .value v := by
      intro i hi
      obtain ⟨a, c⟩ := hm i hi
      have hx := hok (i + 1) (by omega) (by omega) c
      have := hr i hi
      cases hc : run i with
      | value v => exact Or.inr ⟨v, rfl⟩
      | divZero =>
        rw [hc] at this
        dsimp only at this
        rw [this] at hx
        rcases hx with ⟨x, hx⟩ | hx | hx <;> cases hx
      | ier k =>
        rw [hc] at this
        dsimp only at this
        by_cases hk : k = 100
        · exact Or.inl (by rw [hk])
        · rw [if_neg hk] at this
          rw [this] at hx
          rcases hx with ⟨x, hx⟩ | hx | hx <;> cases hx
    have e1 : ¬ ∃ i ∈ rows, run i = .divZero := by
      rintro ⟨i, hi, g⟩
      rcases hgood i hi with k | ⟨v, k⟩ <;> rw [g] at k <;> cases k
    have e2 : rows.filterMap (fun i => (run i).failure) = [] := by
      rw [List.filterMap_eq_nil_iff]
      intro i hi
      rcases hgood i hi with k | ⟨v, k⟩ <;> rw [k] <;> rfl
    rw [if_neg g, if_neg e1, if_neg (not_not.mpr e2)] at e
    refine ⟨_, e, fun i h1 h2 => ?_⟩
    by_cases hmem : i - 1 ∈ rows
    · obtain ⟨a, c⟩ := hm _ hmem
      rw [show i - 1 + 1 = i by omega] at c
      have hri := hr (i - 1) hmem
      rw [show i - 1 + 1 = i by omega] at hri
      beta_reduce
      rw [if_pos hmem]
      refine ⟨fun _ x hx => ?_, fun _ e' he => ?_, fun hc => absurd c hc⟩
      · rcases hgood (i - 1) hmem with k | ⟨v, k⟩
        · rw [k] at hri ⊢
          dsimp only at hri
          rw [if_pos rfl, hx] at hri
          rcases hri with q | q | q
          · cases q; rfl
          · cases q
          · cases q
        · rw [k] at hri ⊢
          dsimp only at hri
          rw [hx] at hri
          cases hri
          rfl
      · rcases hgood (i - 1) hmem with k | ⟨v, k⟩
        · rw [k]; rfl
        · rw [k] at hri
          dsimp only at hri
          rw [he] at hri
          cases hri
    · beta_reduce
      rw [if_neg hmem]
      refine ⟨fun hc x hx => ?_, fun _ _ _ => rfl, fun _ => rfl⟩
      rw [hout i h1 h2 hc hmem] at hx
      cases hx

/-- C187: without a tropopause pressure: a profile whose solver fails makes the call for all profiles raise. -/
theorem C187_auto_raises {b : Spec.Batch} (h : b.AutoValid) (qz : Solver) (w : Trop.Work) (s : Trop.Scratch) (o : ℕ → ℕ → ℕ → Trop.Cell) {i : ℕ} (h1 : 1 ≤ i)
    (h2 : i ≤ b.m) (hc : b.AutoComplete i) {k : ℕ} {ks : List ℕ} (he : (b.autoCall i).run qz w s o = .error (.runtime (k :: ks))) :
    ∃ e, b.autoRun qz w s o = .error e := by
  obtain ⟨rows, run, hm, hno, hr, eq⟩ := auto_solves h qz w s o
  have hi : i - 1 ∈ rows := by
    by_contra g
    have := hno (i - 1) (by omega) (by rwa [show i - 1 + 1 = i by omega]) g
    rw [show i - 1 + 1 = i by omega, he] at this
    cases this
  rw [if_neg (List.ne_nil_of_mem hi)] at eq
  have := hr (i - 1) hi
  rw [show i - 1 + 1 = i by omega, he] at this
  by_cases g : ∃ i ∈ rows, run i = .divZero
  · rw [if_pos g] at eq
    exact ⟨_, eq⟩
  · rw [if_neg g] at eq
    have hf : rows.filterMap (fun i => (run i).failure) ≠ [] := by
      cases hc : run (i - 1) with
      | value v => rw [hc] at this; cases this
      | divZero => exact absurd ⟨_, hi, hc⟩ g
      | ier c =>
        rw [hc] at this
        dsimp only at this
        by_cases hk : c = 100
        · rw [if_pos hk] at this
          rcases this with q | q | q <;> cases q
        · refine List.ne_nil_of_mem (a := c) (List.mem_filterMap.mpr ⟨i - 1, hi, ?_⟩)
          rw [hc]
          exact if_pos hk
    rw [if_pos hf] at eq
    exact ⟨_, eq⟩

theorem four_auto : four.AutoValid where
  axes := by simp [four]
  two := le_rfl
  strict := four_strict
  pos i _ _ := four_pos i
  lons := trivial
  levels := by simp [four]
  window := by simp [four]
  rows i _ _ _ := ⟨(four_call i).two, (four_call i).strict, (four_call i).pos, (four_call i).small, trivial, (four_call i).levels, (four_call i).window⟩
  some_row := ⟨1, le_rfl, by simp [four], fun j _ _ => by simp [four], fun _ => by simp [four]⟩

end Skyborn.Growth
