/-
C232 (columns), C234 (level index), C235 (order of the levels, generated pressure), C236 (lengths).
-/
import Verif.Trop.XrColumns

namespace Skyborn.Trop.Xr

open Skyborn

theorem erase_filter {dims : List String} (hd : dims.Nodup) {l : String} : dims.eraseIdx (dims.idxOf l) = dims.filter (fun n => n ≠ l) := by
  rw [← List.erase_eq_eraseIdx_of_idxOf (l := dims) (a := l) rfl, hd.erase_eq_filter]
  apply List.filter_congr
  intro n _
  by_cases e : n = l <;> simp [e]

theorem lookup_filterMap (l : List String) (g : String → Option (List ℝ)) {n : String} (hn : n ∈ l) :
    (l.filterMap fun n => (g n).map fun v => (n, v)).lookup n = g n := by
  induction l with
  | nil => simp at hn
  | cons a l ih =>
    rw [List.filterMap_cons]
    by_cases e : n = a
    · subst e
      cases hg : g n with
      | some v => simp
      | none =>
        simp only [Option.map_none]
        rw [List.lookup_eq_none_iff]
        intro q hq
        obtain ⟨b, -, hb⟩ := List.mem_filterMap.mp hq
        cases hgb : g b with
        | none => rw [hgb] at hb; simp at hb
        | some v =>
          rw [hgb] at hb
          simp only [Option.map_some, Option.some.injEq] at hb
          subst hb
          simp only [bne_iff_ne, ne_eq, beq_eq_false_iff_ne] at *
          intro e'
          subst e'
          rw [hg] at hgb; simp at hgb
    · have hn' : n ∈ l := by simpa [e] using hn
      cases hg : g a with
      | none => simpa using ih hn'
      | some v =>
        simp only [Option.map_some]
        rw [List.lookup_cons]
        have : (n == a) = false := by simpa using e
        rw [this]
        exact ih hn'

theorem index_arg {dims : List String} {s : Option String} (h : ∀ a ∈ s, a ∈ dims) :
    (index dims (Spec.arg s)).getD (-1) = axisOf dims s := by
  cases s with
  | none => rfl
  | some a => simp [Spec.arg, index, axisOf, h a rfl]

theorem arg_isSome (s : Option String) : (Spec.arg s).isNone = false := by cases s <;> rfl

theorem resolve_named (t : TArr) {x y td : Option String} {l : String} (hl : l ∈ t.dims) :
    resolve t (Spec.arg x) (Spec.arg y) (some (.name l)) (Spec.arg td) =
      .ok ⟨index t.dims (Spec.arg x), index t.dims (Spec.arg y), some (t.dims.idxOf l : ℤ), index t.dims (Spec.arg td)⟩ := by
  unfold resolve
  simp only [arg_isSome]
  rw [if_neg (by simp)]
  simp [index, hl]

/-- **C232** With the dimensions named (-1 for an absent one), each of the five variables has the dimensions of the temperature without the
level dimension, the coordinates of the remaining dimensions, and at every point the result of `trop_wmo_profile` on the column there, levels in
order of increasing pressure: whatever the order of the dimensions, and whatever the order of the levels. -/
theorem C232_named {t : TArr} (h : Spec.Labelled t) {x y td : Option String} {l : String} (ha : Spec.Arranged t.dims x y td l)
    {p : NDArr ℝ} {m : ℕ} (hp : p.shape = [m]) (hm : Spec.size t l = m) (hm0 : 0 < m) (unit : String) (c missing : ℝ) (auto : Bool)
    (w : Work) (s : Scratch) (out0 : ℕ → ℕ → ℕ → Cell) :
    ∃ r σ, tropWmo t (some p) (Spec.arg x) (Spec.arg y) (some (.name l)) (Spec.arg td) unit c missing auto w s out0 = .ok r ∧
      LevelOrder true m (fun j => p.get [j]) σ ∧ r.dims = t.dims.filter (fun n => n ≠ l) ∧
      (∀ n ∈ r.dims, r.coords.lookup n = t.coords.lookup n) ∧ r.cells.shape = r.dims.map (Spec.size t) ∧
      ∀ f, (∀ n ∈ r.dims, f n < Spec.size t n) → ∀ w',
        tropWmoProfile (vec m fun j => Spec.at t (Function.update f l (σ j))) (vec m fun j => p.get [σ j]) unit c missing w' =
          .ok (Spec.cell r f) := by
  obtain ⟨r, h1, h2, h3, h4, h5⟩ := run_grid h ha.lev (pressure := some p) rfl hp hm hm0 (resolve_named t (x := x) (y := y) (td := td) ha.lev) rfl
    (by dsimp only; rw [index_arg ha.mem.1, index_arg ha.mem.2.1, index_arg ha.mem.2.2]; exact ha.layout) unit c missing auto w s out0
  refine ⟨r, _, h1, levelOrder_ok true hm0 _, by rw [h2, erase_filter h.nodup], fun n hn => ?_, h4, h5⟩
  rw [h3]
  exact lookup_filterMap _ _ hn

/-- **C232** A profile: scalar variables with the result of the array function, levels in order of increasing pressure when `auto_sort_levels` is
true. -/
theorem C232_profile {t : TArr} (h : Spec.Labelled t) {l : String} (hl : t.dims = [l]) {p : NDArr ℝ} {m : ℕ} (hp : p.shape = [m])
    (hm : t.data.shape = [m]) (hm0 : 0 < m) (x y td : Option DimArg) (unit : String) (c missing : ℝ) (auto : Bool) (w : Work) (s : Scratch)
    (out0 : ℕ → ℕ → ℕ → Cell) :
    ∃ r σ, tropWmo t (some p) x y (some (.name l)) td unit c missing auto w s out0 = .ok r ∧ LevelOrder auto m (fun j => p.get [j]) σ ∧
      r.dims = [] ∧ r.cells.shape = [] ∧
      ∀ w', tropWmoProfile (vec m fun j => t.data.get [σ j]) (vec m fun j => p.get [σ j]) unit c missing w' = .ok (r.cells.get []) := by
  have hr : resolve t x y (some (.name l)) td = .ok ⟨index t.dims x, index t.dims y, some (t.dims.idxOf l : ℤ), index t.dims td⟩ := by
    unfold resolve
    rw [if_neg (by rw [h.rank, hl]; simp)]
    simp [index, hl]
  obtain ⟨r, h1, h2, h3, h4, h5⟩ := run_profile h hl (pressure := some p) rfl hp (by rw [Spec.size, hl, hm]; simp) hm0 hr rfl unit c missing auto w
    s out0
  refine ⟨r, _, h1, levelOrder_ok auto hm0 _, h2, h4, fun w' => ?_⟩
  have := h5 (fun _ => 0) w'
  rw [Spec.cell, h2, List.map_nil] at this
  rw [← this]
  congr 2
  funext j
  simp [Spec.at, hl]

/-- A (time, level, lat) array. -/
example (g : List ℕ → ℝ) : Spec.Labelled ⟨["time", "level", "lat"], ⟨[2, 5, 3], g⟩, []⟩ ∧
    Spec.Arranged ["time", "level", "lat"] none (some "lat") (some "time") "level" := by
  refine ⟨⟨by simp, rfl⟩, ⟨by decide, ⟨by simp, by simp, by simp⟩, by decide, by decide⟩⟩

/-! #### C235: the order of the levels -/

/-- **C235** The order of the levels does not matter: permuting the levels of temperature and pressure (distinct values) changes nothing. -/
theorem C235_order {t t' : TArr} (h : Spec.Labelled t) (hd' : t'.dims = t.dims) (hs' : t'.data.shape = t.data.shape) {x y td : Option String}
    {l : String} (ha : Spec.Arranged t.dims x y td l) {p p' : NDArr ℝ} {m : ℕ} (hp : p.shape = [m]) (hp' : p'.shape = [m])
    (hm : Spec.size t l = m) (hm0 : 0 < m) {π : ℕ → ℕ} (hπ : ∀ k, k < m → π k < m) (hπi : ∀ j k, j < m → k < m → π j = π k → j = k)
    (hP : ∀ k, k < m → p'.get [k] = p.get [π k])
    (hT : ∀ f k, k < m → Spec.at t' (Function.update f l k) = Spec.at t (Function.update f l (π k)))
    (hinj : ∀ j k, j < m → k < m → p.get [j] = p.get [k] → j = k) (unit : String) (c missing : ℝ) (auto auto' : Bool)
    (w w' : Work) (s s' : Scratch) (out0 out0' : ℕ → ℕ → ℕ → Cell) :
    ∃ r r', tropWmo t (some p) (Spec.arg x) (Spec.arg y) (some (.name l)) (Spec.arg td) unit c missing auto w s out0 = .ok r ∧
      tropWmo t' (some p') (Spec.arg x) (Spec.arg y) (some (.name l)) (Spec.arg td) unit c missing auto' w' s' out0' = .ok r' ∧
      r'.dims = r.dims ∧ r'.cells.shape = r.cells.shape ∧ ∀ f, (∀ n ∈ r.dims, f n < Spec.size t n) → Spec.cell r' f = Spec.cell r f := by
  have h' : Spec.Labelled t' := ⟨by rw [hd']; exact h.nodup, by rw [hs', hd']; exact h.rank⟩
  have hsz : Spec.size t' = Spec.size t := by funext n; simp [Spec.size, hd', hs']
  obtain ⟨r, σ, e1, o1, d1, -, c1, v1⟩ := C232_named h ha hp hm hm0 unit c missing auto w s out0
  obtain ⟨r', τ, e2, o2, d2, -, c2, v2⟩ := C232_named h' (by rw [hd']; exact ha) hp' (by rw [hsz]; exact hm) hm0 unit c missing auto' w' s' out0'
  have hdd : r'.dims = r.dims := by rw [d1, d2, hd']
  refine ⟨r, r', e1, e2, hdd, by rw [c1, c2, hdd, hsz], fun f hf => ?_⟩
  have key := enum_unique (p := fun k => p.get [k]) (q := fun k => p'.get [k]) hπ hπi hP hinj o1 o2
  have a1 := v1 f hf w
  have a2 := v2 f (by rw [hdd, hsz]; exact hf) w
  rw [profile_run hm0 rfl rfl] at a1 a2
  have a1 := Except.ok.inj a1
  have a2 := Except.ok.inj a2
  rw [← a1, ← a2]
  apply colCell_congr
  · intro k k1 k2
    have hk : k - 1 < m := by omega
    simp only [vec, Option.getD_some, List.getD_cons_zero]
    rw [hP _ (o2.lt _ hk), key _ hk]
  · intro k k1 k2
    have hk : k - 1 < m := by omega
    simp only [vec, Option.getD_some, List.getD_cons_zero]
    rw [hT _ _ (o2.lt _ hk), key _ hk]

/-! #### C234: the level index -/

/-- **C234, the part that holds**: when the pressure of the input does not decrease, `level_index` is the index of the tropopause level in
the input. Missing: the documentation says so of every input (`C234_false`). -/
theorem C234_partial {t : TArr} (h : Spec.Labelled t) {x y td : Option String} {l : String} (ha : Spec.Arranged t.dims x y td l)
    {P : ℕ → ℝ} {m : ℕ} (hm : Spec.size t l = m) (hinc : ∀ j k, j < k → k < m → P j ≤ P k) {unit : String} {c : ℝ} (hc : c ≤ 10 ^ 9) {missing : ℝ} (auto : Bool)
    (w : Work) (s : Scratch) (out0 : ℕ → ℕ → ℕ → Cell) {f : String → ℕ} (hf : ∀ n ∈ t.dims, n ≠ l → f n < Spec.size t n) {p T : ℕ → ℝ}
    (hT : ∀ j, j < m → T j = Spec.at t (Function.update f l j)) (hcomp : Complete m unit P p T missing) {k : ℕ} (hk : Trop.Spec.IsTropopause m p T c k) :
    ∃ r, tropWmo t (some ⟨[m], fun i => P (i.getD 0 0)⟩) (Spec.arg x) (Spec.arg y) (some (.name l)) (Spec.arg td) unit c missing auto w s out0 =
      .ok r ∧ (Spec.cell r f).itrop = k ∧ (Spec.cell r f).success = 1 := by
  obtain ⟨r, σ, e1, o1, d1, -, -, v1⟩ := C232_named h ha (p := ⟨[m], fun i => P (i.getD 0 0)⟩) rfl hm hcomp.pos unit c missing auto w s out0
  refine ⟨r, e1, ?_⟩
  have hσ := o1.same (Or.inr (by simpa using hinc))
  have hv := v1 f (fun n hn => by
    rw [d1, List.mem_filter] at hn
    exact hf n hn.1 (by simpa using hn.2)) w
  obtain ⟨cell, ec, hfound, -, -⟩ := C81_profile hcomp hc w
  have he : Spec.cell r f = cell := by
    rw [profile_run hcomp.pos rfl rfl] at hv ec
    rw [← Except.ok.inj hv, ← Except.ok.inj ec]
    apply colCell_congr
    · intro j j1 j2
      simp only [vec, Option.getD_some, List.getD_cons_zero]
      rw [hσ _ (by omega)]
    · intro j j1 j2
      simp only [vec, Option.getD_some, List.getD_cons_zero]
      rw [hσ _ (by omega), hT _ (by omega)]
  rw [he]
  exact ⟨(hfound k hk).2.1, (hfound k hk).1⟩

/-- **C234 is false**: the profile 600, 200, 100 hPa at 250 K has its tropopause at 150 hPa, between the levels with indices 1 and 2, and `level_index` is
0, the level at 600 hPa. -/
theorem C234_false (w : Work) (s : Scratch) (out0 : ℕ → ℕ → ℕ → Cell) :
    ∃ (t : TArr) (p : NDArr ℝ) (r : Result), Spec.Labelled t ∧ t.dims = ["level"] ∧ t.data.shape = [3] ∧ (∀ i, t.data.get i = 250) ∧ p.shape = [3] ∧
      p.get [0] = 600 ∧ p.get [1] = 200 ∧ p.get [2] = 100 ∧
      tropWmo t (some p) none none (some (.name "level")) none "hPa" 2 (-999) true w s out0 = .ok r ∧
      (r.cells.get []).ptrop = 150 ∧ (r.cells.get []).success = 1 ∧ (r.cells.get []).itrop = 0 := by
  have hL : Spec.Labelled ⟨["level"], ⟨[3], fun _ => 250⟩, []⟩ := ⟨by simp, rfl⟩
  obtain ⟨r, σ, e, o, -, -, v⟩ := C232_profile hL (l := "level") rfl (p := ⟨[3], fun i => p3 (2 - i.getD 0 0)⟩) (m := 3) rfl rfl (by norm_num) none none none
    "hPa" 2 (-999) true w s out0
  refine ⟨_, _, r, hL, rfl, rfl, fun _ => rfl, rfl, ?_, ?_, ?_, e, ?_⟩
  · norm_num [p3]
  · norm_num [p3]
  · norm_num [p3]
  · have hσ : ∀ j, j < 3 → σ j = 2 - j := by
      have l0 := o.lt 0 (by norm_num)
      have l1 := o.lt 1 (by norm_num)
      have l2 := o.lt 2 (by norm_num)
      have i01 : σ 0 ≠ σ 1 := fun e => by simpa using o.inj 0 1 (by norm_num) (by norm_num) e
      have i02 : σ 0 ≠ σ 2 := fun e => by simpa using o.inj 0 2 (by norm_num) (by norm_num) e
      have i12 : σ 1 ≠ σ 2 := fun e => by simpa using o.inj 1 2 (by norm_num) (by norm_num) e
      have s01 := o.sorted rfl 0 1 (by norm_num) (by norm_num)
      have s12 := o.sorted rfl 1 2 (by norm_num) (by norm_num)
      simp only [List.getD_cons_zero] at s01 s12
      intro j hj
      have q : ∀ a b : ℕ, a < 3 → b < 3 → a ≠ b → p3 (2 - a) ≤ p3 (2 - b) → b < a := by
        intro a b ha hb hne hab
        by_contra hba
        interval_cases a <;> interval_cases b <;> first | omega | (norm_num [p3] at hab)
      have q1 := q _ _ l0 l1 i01 s01
      have q2 := q _ _ l1 l2 i12 s12
      interval_cases j <;> omega
    obtain ⟨cell, ec, hfound, -, -⟩ := C81_profile iso_complete (c := 2) (by norm_num) w
    have hv := v w
    have he : r.cells.get [] = cell := by
      rw [profile_run (by norm_num) rfl rfl] at hv ec
      rw [← Except.ok.inj hv, ← Except.ok.inj ec]
      apply colCell_congr
      · intro j j1 j2
        simp only [vec, Option.getD_some, List.getD_cons_zero]
        rw [hσ _ (by omega)]
        congr 1
        omega
      · intro j j1 j2
        simp only [vec, Option.getD_some]
    obtain ⟨h1, h2, h3, -⟩ := hfound 0 iso_trop
    rw [he]
    refine ⟨?_, h1, h2⟩
    rw [h3, Trop.Spec.cross, if_pos (by rw [iso_gamma, iso_gamma])]
    norm_num [Trop.Spec.mid, p3]

/-! #### C236: lengths -/

/-- The temperature reduced to its first `m` levels. -/
def Spec.cut (t : TArr) (l : String) (m : ℕ) : TArr := { t with data := ⟨t.data.shape.set (t.dims.idxOf l) m, t.data.get⟩ }

/-- **C236, the part that holds**: a pressure with another number of values than there are levels raises when there are too many values, or the values do
not decrease, or the levels are not sorted by this function. Missing: too few values in another order (`C236_false`). -/
theorem C236_partial {t : TArr} (h : Spec.Labelled t) {x y td : Option String} {l : String} (ha : Spec.Arranged t.dims x y td l) {p : NDArr ℝ} {m : ℕ}
    (hp : p.shape = [m]) (hm : Spec.size t l ≠ m) (hm0 : 0 < m) (hs0 : 0 < Spec.size t l) (auto : Bool)
    (hcase : Spec.size t l < m ∨ (∀ j k, j < k → k < m → p.get [j] ≤ p.get [k]) ∨ auto = false) (unit : String) (c missing : ℝ)
    (w : Work) (s : Scratch) (out0 : ℕ → ℕ → ℕ → Cell) :
    ∃ e, tropWmo t (some p) (Spec.arg x) (Spec.arg y) (some (.name l)) (Spec.arg td) unit c missing auto w s out0 = .error e := by
  have hk := List.idxOf_lt_length_of_mem ha.lev
  have hlay := ha.layout
  have hn1 : t.data.shape.length ≠ 1 := by
    rw [h.rank]
    have := hlay.shape
    omega
  -- when nothing is sorted
  have plainCase : sortLevels auto t p (some (t.dims.idxOf l : ℤ)) = .ok (p, t.data) →
      ∃ e, tropWmo t (some p) (Spec.arg x) (Spec.arg y) (some (.name l)) (Spec.arg td) unit c missing auto w s out0 = .error e := by
    intro es
    refine ⟨.core .length, ?_⟩
    unfold tropWmo
    simp only [bind, Except.bind, pressureOf, resolve_named t ha.lev, es]
    rw [if_neg hn1]
    have hk' : t.dims.idxOf l < t.data.shape.length := by rw [h.rank]; exact hk
    rw [C117_length_error _ _ _ _ _ _ _ _ _ _ _ _ (Spec.size t l) m [] (by simp)
      (by simp only [plain, Int.toNat_natCast, Spec.size]; rw [List.getD_eq_getElem _ _ hk', List.getElem?_eq_getElem hk']) (by simp [plain, hp])
      hs0 hm0 (Ne.symm hm)]
    rfl
  by_cases hsort : auto = true ∧ ((List.range (m - 1)).all fun j => decide (p.get [j] ≤ p.get [j + 1])) = false
  · have hlt : Spec.size t l < m := by
      rcases hcase with h1 | h1 | h1
      · exact h1
      · exfalso
        have : ((List.range (m - 1)).all fun j => decide (p.get [j] ≤ p.get [j + 1])) = true := by
          rw [List.all_eq_true]
          intro j hj
          have := List.mem_range.mp hj
          simpa using h1 j (j + 1) (by omega) (by omega)
        rw [this] at hsort; simp at hsort
      · rw [h1] at hsort; simp at hsort
    refine ⟨.index, ?_⟩
    have es : sortLevels auto t p (some (t.dims.idxOf l : ℤ)) = .error .index := by
      unfold sortLevels
      rw [if_pos hsort.1]
      simp only [bind, Except.bind, pos_ok hk, hp]
      rw [if_neg (by rw [hsort.2]; simp), if_neg]
      intro hall
      rw [List.all_eq_true] at hall
      have := hall (Spec.size t l) ((argsort_perm m fun j => p.get [j]).mem_iff.mpr (List.mem_range.mpr hlt))
      simp [Spec.size] at this
    unfold tropWmo
    simp only [bind, Except.bind, pressureOf, resolve_named t ha.lev, es]
  · apply plainCase
    unfold sortLevels
    cases auto with
    | false => rw [if_neg (by simp)]
    | true =>
      rw [if_pos rfl]
      simp only [bind, Except.bind, pos_ok hk, hp]
      rw [if_pos (by simpa using hsort)]

/-- **C236 is false**: with too few pressure values in an order that is not increasing, the call works and uses the first levels only: the result
is that for the temperature without its last levels. -/
theorem C236_false {t : TArr} (h : Spec.Labelled t) {x y td : Option String} {l : String} (ha : Spec.Arranged t.dims x y td l) {p : NDArr ℝ} {m : ℕ}
    (hp : p.shape = [m]) (hm : m < Spec.size t l) (hm0 : 0 < m) (hdec : ∃ j, j + 1 < m ∧ p.get [j + 1] < p.get [j]) (unit : String) (c missing : ℝ)
    (w : Work) (s : Scratch) (out0 : ℕ → ℕ → ℕ → Cell) :
    (∃ r, tropWmo t (some p) (Spec.arg x) (Spec.arg y) (some (.name l)) (Spec.arg td) unit c missing true w s out0 = .ok r) ∧
    tropWmo t (some p) (Spec.arg x) (Spec.arg y) (some (.name l)) (Spec.arg td) unit c missing true w s out0 =
      tropWmo (Spec.cut t l m) (some p) (Spec.arg x) (Spec.arg y) (some (.name l)) (Spec.arg td) unit c missing true w s out0 := by
  have hk := List.idxOf_lt_length_of_mem ha.lev
  have hk' : t.dims.idxOf l < t.data.shape.length := by rw [h.rank]; exact hk
  have hperm := argsort_perm m (fun j => p.get [j])
  have hlen : (argsort m fun j => p.get [j]).length = m := by rw [hperm.length_eq, List.length_range]
  obtain ⟨j, hj, hlt⟩ := hdec
  have hnot : ¬ ((List.range (m - 1)).all fun j => decide (p.get [j] ≤ p.get [j + 1])) = true := by
    intro hall
    rw [List.all_eq_true] at hall
    have := hall j (List.mem_range.mpr (by omega))
    simp only [decide_eq_true_eq] at this
    linarith
  have e1 : sortLevels true t p (some (t.dims.idxOf l : ℤ)) = .ok (takeAxis p (argsort m fun j => p.get [j]) 0,
      takeAxis t.data (argsort m fun j => p.get [j]) (t.dims.idxOf l)) := by
    unfold sortLevels
    rw [if_pos rfl]
    simp only [bind, Except.bind, pos_ok hk, hp]
    rw [if_neg hnot, if_pos]
    rw [List.all_eq_true]
    intro i hi
    have := List.mem_range.mp (hperm.mem_iff.mp hi)
    have hm' : m < t.data.shape.getD (t.dims.idxOf l) 0 := hm
    rw [decide_eq_true_eq]; omega
  have e2 : sortLevels true (Spec.cut t l m) p (some (t.dims.idxOf l : ℤ)) = .ok (takeAxis p (argsort m fun j => p.get [j]) 0,
      takeAxis t.data (argsort m fun j => p.get [j]) (t.dims.idxOf l)) := by
    unfold sortLevels
    rw [if_pos rfl]
    have hk2 : t.dims.idxOf l < (Spec.cut t l m).dims.length := hk
    simp only [bind, Except.bind, pos_ok hk2, hp]
    rw [if_neg hnot, if_pos]
    · simp [takeAxis, Spec.cut]
    · rw [List.all_eq_true]
      intro i hi
      have := List.mem_range.mp (hperm.mem_iff.mp hi)
      rw [decide_eq_true_eq]
      have e : (Spec.cut t l m).data.shape.getD (t.dims.idxOf l) 0 = m := by
        simp only [Spec.cut]
        rw [List.getD_eq_getElem _ _ (by simpa using hk'), List.getElem_set_self]
      omega
  have heq : tropWmo t (some p) (Spec.arg x) (Spec.arg y) (some (.name l)) (Spec.arg td) unit c missing true w s out0 =
      tropWmo (Spec.cut t l m) (some p) (Spec.arg x) (Spec.arg y) (some (.name l)) (Spec.arg td) unit c missing true w s out0 := by
    unfold tropWmo
    have hr := resolve_named (Spec.cut t l m) (x := x) (y := y) (td := td) (l := l) (by exact ha.lev)
    have hd : (Spec.cut t l m).dims = t.dims := rfl
    have hc : (Spec.cut t l m).coords = t.coords := rfl
    have hsh : (Spec.cut t l m).data.shape.length = t.data.shape.length := by simp [Spec.cut]
    rw [hd] at hr
    simp only [bind, Except.bind, pressureOf, resolve_named t ha.lev, hr, e1, e2, hd, hc, hsh]
  refine ⟨?_, heq⟩
  have hL : Spec.Labelled (Spec.cut t l m) := ⟨h.nodup, by simp [Spec.cut, h.rank]⟩
  obtain ⟨r, σ, e, -⟩ := C232_named hL (x := x) (y := y) (td := td) (l := l) ha hp
    (by simp only [Spec.size, Spec.cut]; rw [List.getD_eq_getElem _ _ (by simpa using hk'), List.getElem_set_self]) hm0 unit c missing true w s out0
  exact ⟨r, by rw [heq]; exact e⟩

/-- Three levels, two pressures 200 and 100 hPa. -/
example (g : List ℕ → ℝ) : ∃ (t : TArr) (p : NDArr ℝ), Spec.Labelled t ∧ Spec.Arranged t.dims none (some "lat") none "level" ∧ p.shape = [2] ∧
    2 < Spec.size t "level" ∧ ∃ j, j + 1 < 2 ∧ p.get [j + 1] < p.get [j] := by
  refine ⟨⟨["level", "lat"], ⟨[3, 4], g⟩, []⟩, ⟨[2], fun i => if i.getD 0 0 = 0 then 200 else 100⟩, ⟨by simp, rfl⟩,
    ⟨by simp, ⟨by simp, by simp, by simp⟩, by simp, by simp⟩, rfl, by simp [Spec.size], 0, by norm_num, by norm_num⟩

end Skyborn.Trop.Xr
