/-
C244: labelled potential intensity, column by column; C245: which dimension is which.
-/
import Verif.Gpi.XrUnits
import Verif.Gpi.Diagnostics
import Verif.Trop.XrDetect

namespace Skyborn.Gpi.Xr

open WindXr
open Trop.Xr (lower contains)

/-! ### Specification -/

/-- The words the functions know for longitude (their own lists, in small letters). -/
def Spec.lonWords : List String := ["lon", "longitude", "x", "mlon"]
/-- Latitude. -/
def Spec.latWords : List String := ["lat", "latitude", "y", "nlat"]
/-- Level. -/
def Spec.levWords : List String := ["level", "lev", "plev", "plevel", "p", "plevs", "pressure", "pressure_level", "pres", "pres_level", "z", "height", "altitude", "depth",
  "isobaric", "model_level"]
/-- Time, without `year` and `yr` (see `C245_false`). -/
def Spec.timeWords : List String := ["time", "t", "month", "mn", "season"]

/-- `s` is one of the words, in any case. -/
def Spec.Is (words : List String) (s : String) : Prop := ∃ v ∈ words, v.toList = lower s

/-- The dimensions are a level, a longitude, a latitude and possibly a time, in any order. -/
def Spec.Called (dims : List String) (lev : String) (time : Option String) : Prop :=
  ∃ lon lat, dims.Perm (lev :: lon :: lat :: time.toList) ∧ Spec.Is Spec.levWords lev ∧ Spec.Is Spec.lonWords lon ∧ Spec.Is Spec.latWords lat ∧
    ∀ s ∈ time, Spec.Is Spec.timeWords s

/-- The dimensions without the levels. -/
def Spec.above (dims : List String) (lev : String) : List String := dims.filter fun d => d ≠ lev

/-- The profile above a point. -/
def Spec.column (a : PArr) (lev : String) (f : String → ℕ) : NDArr (Option ℝ) :=
  ⟨[WindXr.Spec.size a lev], fun i => WindXr.Spec.at a fun d => if d = lev then i.headD 0 else f d⟩

/-! ### Detection -/

theorem kind_lon {s : String} (h : Spec.Is Spec.lonWords s) : kind s = some .lon := by
  obtain ⟨v, hv, e⟩ := h
  have : ∀ v ∈ Spec.lonWords, lonNames.any (fun n => contains v.toList n.toList) = true := by decide +kernel
  unfold kind
  rw [← e, if_pos (this v hv)]

theorem kind_lat {s : String} (h : Spec.Is Spec.latWords s) : kind s = some .lat := by
  obtain ⟨v, hv, e⟩ := h
  have h1 : ∀ v ∈ Spec.latWords, lonNames.any (fun n => contains v.toList n.toList) = false := by decide +kernel
  have h2 : ∀ v ∈ Spec.latWords, latNames.any (fun n => contains v.toList n.toList) = true := by decide +kernel
  unfold kind
  rw [← e, if_neg (by rw [h1 v hv]; simp), if_pos (h2 v hv)]

theorem kind_lev {s : String} (h : Spec.Is Spec.levWords s) : kind s = some .lev := by
  obtain ⟨v, hv, e⟩ := h
  have h1 : ∀ v ∈ Spec.levWords, lonNames.any (fun n => contains v.toList n.toList) = false := by decide +kernel
  have h2 : ∀ v ∈ Spec.levWords, latNames.any (fun n => contains v.toList n.toList) = false := by decide +kernel
  have h3 : ∀ v ∈ Spec.levWords, levNames.any (fun n => contains v.toList n.toList) = true := by decide +kernel
  unfold kind
  rw [← e, if_neg (by rw [h1 v hv]; simp), if_neg (by rw [h2 v hv]; simp), if_pos (h3 v hv)]

theorem kind_time {s : String} (h : Spec.Is Spec.timeWords s) : kind s = some .time := by
  obtain ⟨v, hv, e⟩ := h
  have h1 : ∀ v ∈ Spec.timeWords, lonNames.any (fun n => contains v.toList n.toList) = false := by decide +kernel
  have h2 : ∀ v ∈ Spec.timeWords, latNames.any (fun n => contains v.toList n.toList) = false := by decide +kernel
  have h3 : ∀ v ∈ Spec.timeWords, levNames.any (fun n => contains v.toList n.toList) = false := by decide +kernel
  have h4 : ∀ v ∈ Spec.timeWords, timeNames.any (fun n => contains v.toList n.toList) = true := by decide +kernel
  unfold kind
  rw [← e, if_neg (by rw [h1 v hv]; simp), if_neg (by rw [h2 v hv]; simp), if_neg (by rw [h3 v hv]; simp), if_pos (h4 v hv)]

theorem fold_none (L : List (String × ℕ)) (a : Option ℕ) (k : Kind) (h : ∀ p ∈ L, kind p.1 ≠ some k) :
    L.foldl (fun a p => if kind p.1 = some k then some p.2 else a) a = a := by
  induction L generalizing a with
  | nil => rfl
  | cons p L ih => rw [List.foldl_cons, ih _ fun q hq => h q (List.mem_cons_of_mem _ hq), if_neg (h p List.mem_cons_self)]

theorem mem_zip {L : List String} {n : ℕ} {p : String × ℕ} (h : p ∈ L.zipIdx n) : p.1 ∈ L := by
  have := List.mem_map_of_mem (f := Prod.fst) h
  simpa using this

theorem found_none {dims : List String} {k : Kind} (h : ∀ d ∈ dims, kind d ≠ some k) : found dims k = none :=
  fold_none _ _ _ fun p hp => h p.1 (mem_zip hp)

/-- With one name of a kind, its index is found. -/
theorem found_one {dims : List String} (hd : dims.Nodup) {k : Kind} {s : String} (hs : s ∈ dims) (hks : kind s = some k)
    (ho : ∀ n ∈ dims, n ≠ s → kind n ≠ some k) : found dims k = some (dims.idxOf s) := by
  obtain ⟨A, B, rfl⟩ := List.append_of_mem hs
  have hA : s ∉ A := by
    intro h
    have := List.nodup_append.mp hd
    exact this.2.2 s h s List.mem_cons_self rfl
  have hB : s ∉ B := (List.nodup_cons.mp (List.nodup_append.mp hd).2.1).1
  unfold found
  rw [List.zipIdx_append, List.zipIdx_cons, List.foldl_append, List.foldl_cons, fold_none, if_pos hks]
  · rw [List.idxOf_append_of_notMem hA, List.idxOf_cons_self]
    simp
  · intro p hp
    exact ho p.1 (by simp [mem_zip hp]) (fun e => hB (e ▸ mem_zip hp))

/-- What is found. -/
theorem detect_called {dims : List String} (hd : dims.Nodup) {lev : String} {time : Option String} (h : Spec.Called dims lev time) :
    detect dims = .ok (dims.idxOf lev, time.map dims.idxOf) ∧ lev ∈ dims ∧ (∀ s ∈ time, s ∈ dims ∧ s ≠ lev) ∧ dims.length = 3 + time.toList.length := by
  obtain ⟨lon, lat, hp, k1, k2, k3, k4⟩ := h
  have e1 := kind_lev k1
  have e2 := kind_lon k2
  have e3 := kind_lat k3
  have hn := hp.nodup_iff.mp hd
  have hm : ∀ s, s ∈ dims ↔ s = lev ∨ s = lon ∨ s = lat ∨ time = some s := by
    intro s
    rw [hp.mem_iff]
    cases time <;> simp [eq_comm]
  have hl := hp.length_eq
  have g1 : found dims .lev = some (dims.idxOf lev) := by
    refine found_one hd ((hm _).mpr (Or.inl rfl)) e1 fun n hn hne hk => ?_
    rcases (hm n).mp hn with rfl | rfl | rfl | ht
    · exact hne rfl
    · rw [e2] at hk; cases hk
    · rw [e3] at hk; cases hk
    · rw [kind_time (k4 n ht)] at hk; cases hk
  have g2 : found dims .lon = some (dims.idxOf lon) := by
    refine found_one hd ((hm _).mpr (Or.inr (Or.inl rfl))) e2 fun n hn hne hk => ?_
    rcases (hm n).mp hn with rfl | rfl | rfl | ht
    · rw [e1] at hk; cases hk
    · exact hne rfl
    · rw [e3] at hk; cases hk
    · rw [kind_time (k4 n ht)] at hk; cases hk
  have g3 : found dims .lat = some (dims.idxOf lat) := by
    refine found_one hd ((hm _).mpr (Or.inr (Or.inr (Or.inl rfl)))) e3 fun n hn hne hk => ?_
    rcases (hm n).mp hn with rfl | rfl | rfl | ht
    · rw [e1] at hk; cases hk
    · rw [e2] at hk; cases hk
    · exact hne rfl
    · rw [kind_time (k4 n ht)] at hk; cases hk
  have g4 : found dims .time = time.map dims.idxOf := by
    cases time with
    | none =>
      refine found_none fun n hn hk => ?_
      rcases (hm n).mp hn with rfl | rfl | rfl | ht
      · rw [e1] at hk; cases hk
      · rw [e2] at hk; cases hk
      · rw [e3] at hk; cases hk
      · cases ht
    | some s =>
      refine found_one hd ((hm _).mpr (Or.inr (Or.inr (Or.inr rfl)))) (kind_time (k4 s rfl)) fun n hn hne hk => ?_
      rcases (hm n).mp hn with rfl | rfl | rfl | ht
      · rw [e1] at hk; cases hk
      · rw [e2] at hk; cases hk
      · rw [e3] at hk; cases hk
      · exact hne (by injection ht with ht; exact ht.symm)
  refine ⟨?_, (hm _).mpr (Or.inl rfl), fun s hs => ⟨(hm _).mpr (Or.inr (Or.inr (Or.inr hs))), ?_⟩, ?_⟩
  · unfold detect
    rw [g1, g2, g3, g4]
    dsimp only
    cases time with
    | none =>
      rw [if_neg (by simp), if_neg]
      simp only [List.length_cons, Option.toList_none, List.length_nil] at hl
      omega
    | some s => rw [if_neg (by simp), if_neg (by simp)]
  · rintro rfl
    have := kind_time (k4 s hs)
    rw [e1] at this
    cases this
  · rw [hl]
    simp only [List.length_cons]
    omega

/-! ### Arrangement -/

theorem trans_get {a : PArr} (h : WindXr.Spec.Proper a) {names : List String} (hn : names.Perm a.dims) (f : String → ℕ) :
    (transposeTo a names).data.get (names.map f) = WindXr.Spec.at a f := by
  have hb : Lay a.dims (⟨a.dims.map fun d => f d + 1, a.data.get⟩ : NDArr (Option ℝ)) (fun d => f d + 1) (WindXr.Spec.at a) := ⟨rfl, fun _ _ => rfl⟩
  have := (lay_transposeTo (a := { a with data := ⟨a.dims.map fun d => f d + 1, a.data.get⟩ }) h.dims hb hn).2 f fun d _ => Nat.lt_succ_self _
  rw [← this]
  unfold transposeTo NDArr.transpose
  dsimp only
  rw [h.rank, List.length_map]

/-- Brought into another order. -/
theorem needed {a : PArr} (h : WindXr.Spec.Proper a) {names : List String} (hn : names.Perm a.dims) :
    ∃ b, transposeIfNeeded a names = .ok b ∧ b.data.shape = names.map (WindXr.Spec.size a) ∧ ∀ f, b.data.get (names.map f) = WindXr.Spec.at a f := by
  unfold transposeIfNeeded
  by_cases c : a.dims = names
  · rw [if_pos c]
    exact ⟨a, rfl, by rw [← c]; exact shape_eq h, fun f => by rw [← c]; rfl⟩
  · rw [if_neg c, if_pos hn]
    exact ⟨_, rfl, (lay_transposeTo h.dims (lay h) hn).1, trans_get h hn⟩

theorem map_insert {l : List String} {lev : String} (hl : lev ∉ l) (i : ℕ) (hi : i ≤ l.length) (f : String → ℕ) (k : ℕ) :
    (l.insertIdx i lev).map (fun d => if d = lev then k else f d) = (l.map f).insertIdx i k := by
  induction l generalizing i with
  | nil =>
    obtain rfl : i = 0 := by simpa using hi
    simp
  | cons a l ih =>
    have ha : a ≠ lev := fun e => hl (by simp [e])
    cases i with
    | zero =>
      simp only [List.insertIdx_zero, List.map_cons, if_true, if_neg ha]
      congr 2
      apply List.map_congr_left
      intro d hd
      rw [if_neg fun e => hl (by simp [← e, hd])]
    | succ i =>
      simp only [List.insertIdx_succ_cons, List.map_cons, if_neg ha]
      congr 1
      exact ih (fun h => hl (by simp [h])) i (by simpa using hi)

theorem map_insert' (l : List String) (lev : String) (i : ℕ) (g : String → ℕ) : (l.insertIdx i lev).map g = (l.map g).insertIdx i (g lev) := by
  induction l generalizing i with
  | nil => cases i <;> simp
  | cons a l ih =>
    cases i with
    | zero => simp
    | succ i => simp only [List.insertIdx_succ_cons, List.map_cons, ih]

theorem through_proper {a : PArr} (h : WindXr.Spec.Proper a) (f : ℝ → ℝ) : WindXr.Spec.Proper (Spec.through f a) := ⟨h.dims, h.rank, h.coords, h.names⟩

theorem ebind {ε A B : Type} {x : Except ε A} {f : A → Except ε B} {b : B} (h : (x >>= f) = .ok b) : ∃ a, x = .ok a ∧ f a = .ok b := by
  cases x with
  | error e => cases h
  | ok a => exact ⟨a, rfl, h⟩

/-- A gridded call whose arguments are in the usual order is a call of the array function on the rearranged arrays. -/
structure Arranged (t r : PArr) (lev : String) (n : ℕ) (t' r' : NDArr (Option ℝ)) : Prop where
  len : (Spec.above t.dims lev).length + 1 = n
  dims : n = 3 ∨ n = 4
  tsh : t'.shape = ((Spec.above t.dims lev).insertIdx (levelAxis n) lev).map (WindXr.Spec.size t)
  rsh : r'.shape = ((Spec.above t.dims lev).insertIdx (levelAxis n) lev).map (WindXr.Spec.size r)
  tget : ∀ f, t'.get (((Spec.above t.dims lev).insertIdx (levelAxis n) lev).map f) = WindXr.Spec.at t f
  rget : ∀ f, r'.get (((Spec.above t.dims lev).insertIdx (levelAxis n) lev).map f) = WindXr.Spec.at r f

theorem arranged {sst psl t r : PArr} (ht : WindXr.Spec.Proper t) (hr : WindXr.Spec.Proper r) {lev : String} {time : Option String} (hc : Spec.Called t.dims lev time)
    (hrd : r.dims.Perm t.dims) (hs : sst.dims.length = (Spec.above t.dims lev).length) (hq : psl.dims.length = (Spec.above t.dims lev).length)
    (htime : ∀ s ∈ time, (Spec.above t.dims lev).head? = some s) :
    ∃ t' r' : PArr, prepareGridded sst psl t r = .ok (Spec.above t.dims lev, t', r') ∧ Arranged t r lev t.dims.length t'.data r'.data := by
  obtain ⟨h1, h2, h3, h4⟩ := detect_called ht.dims hc
  have hlen : (Spec.above t.dims lev).length + 1 = t.dims.length := by
    have e : Spec.above t.dims lev = t.dims.erase lev := by
      rw [ht.dims.erase_eq_filter]
      unfold Spec.above
      apply List.filter_congr
      intro x _
      by_cases e : x = lev <;> simp [bne, e]
    rw [e, List.length_erase_of_mem h2]
    have := List.length_pos_of_mem h2
    omega
  have hperm : ∀ i ≤ (Spec.above t.dims lev).length, ((Spec.above t.dims lev).insertIdx i lev).Perm t.dims := by
    intro i hi
    refine (List.perm_insertIdx lev _ hi).trans ?_
    have e : Spec.above t.dims lev = t.dims.erase lev := by
      rw [ht.dims.erase_eq_filter]
      unfold Spec.above
      apply List.filter_congr
      intro x _
      by_cases e : x = lev <;> simp [bne, e]
    rw [e]
    exact (List.perm_cons_erase h2).symm
  have hdims : t.dims.length = 3 ∨ t.dims.length = 4 := by
    cases time with
    | none => left; simpa using h4
    | some s => right; simpa using h4
  have hax : levelAxis t.dims.length ≤ (Spec.above t.dims lev).length := by
    unfold levelAxis
    rcases hdims with h | h <;> rw [h] at hlen ⊢ <;> norm_num <;> omega
  have hv : t.dims.getD (t.dims.idxOf lev) "" = lev := by
    rw [List.getD_eq_getElem _ _ (List.idxOf_lt_length_of_mem h2), List.getElem_idxOf]
  have hexp : (if t.dims.length = 3 then lev :: Spec.above t.dims lev else
      t.dims.getD ((time.map t.dims.idxOf).getD 0) "" :: lev :: (Spec.above t.dims lev).filter fun d => d ≠ t.dims.getD ((time.map t.dims.idxOf).getD 0) "") =
      (Spec.above t.dims lev).insertIdx (levelAxis t.dims.length) lev := by
    rcases hdims with h | h
    · rw [if_pos h, h]
      rfl
    · rw [if_neg (by omega), h]
      cases time with
      | none => simp at h4; omega
      | some s =>
        have e : t.dims.getD (t.dims.idxOf s) "" = s := by
          rw [List.getD_eq_getElem _ _ (List.idxOf_lt_length_of_mem (h3 s rfl).1), List.getElem_idxOf]
        simp only [Option.map_some, Option.getD_some, e]
        have hh := htime s rfl
        have hnd : (Spec.above t.dims lev).Nodup := ht.dims.filter _
        cases ha : Spec.above t.dims lev with
        | nil => rw [ha] at hh; cases hh
        | cons x l =>
          rw [ha] at hh hnd
          obtain rfl : x = s := by simpa using hh
          have hx := (List.nodup_cons.mp hnd).1
          rw [List.filter_cons_of_neg (by simp), List.filter_eq_self.mpr]
          · rfl
          · intro d hd
            simp only [decide_eq_true_eq]
            rintro rfl
            exact hx hd
  have hp := hperm _ hax
  obtain ⟨t', a1, a2, a3⟩ := needed ht hp
  obtain ⟨r', b1, b2, b3⟩ := needed hr (hp.trans hrd.symm)
  refine ⟨t', r', ?_, hlen, hdims, a2, b2, a3, b3⟩
  unfold prepareGridded
  rw [if_neg (by rw [hrd.length_eq]; simp), if_neg (by rw [hs, hq]; omega), h1]
  simp only [bind, Except.bind, pure, Except.pure]
  rw [hv]
  have e2 : t.dims.filter (fun d => d ≠ lev) = Spec.above t.dims lev := rfl
  rw [e2, hexp]
  rw [a1, b1]

theorem coordOf_through (f : ℝ → ℝ) (a : PArr) : coordOf (Spec.through f a) = coordOf a := rfl

/-- The labelled call. -/
theorem gridded_eq {sst psl p t r : PArr} {f1 f2 f3 f4 f5 : ℝ → ℝ} (h1 : Spec.Reading .sst sst f1) (h2 : Spec.Reading .psl psl f2) (h3 : Spec.Reading .levels p f3)
    (h4 : Spec.Reading .temperature t f4) (h5 : Spec.Reading .mixing r f5) (ht : WindXr.Spec.Proper t) (hr : WindXr.Spec.Proper r) {lev : String} {time : Option String}
    (hc : Spec.Called t.dims lev time) (hrd : r.dims.Perm t.dims) (hs : sst.dims.length = (Spec.above t.dims lev).length) (hq : psl.dims.length = (Spec.above t.dims lev).length)
    (htime : ∀ s ∈ time, (Spec.above t.dims lev).head? = some s) :
    ∃ t' r' : NDArr (Option ℝ), Arranged (Spec.through f4 t) (Spec.through f5 r) lev t.dims.length t' r' ∧ ∀ order,
      potentialIntensityX sst psl p t r order = (do
        let out ← potentialIntensity (Spec.through f1 sst).data (Spec.through f2 psl).data (Spec.through f3 p).data t' r' none order
        dataset (Spec.above t.dims lev) ((Spec.above t.dims lev).map (coordOf t)) out.shape out) ∧
      ∀ ckcd source, piLogDecompositionX sst psl p t r ckcd source order = (do
        let out ← piLogDecomposition (Spec.through f1 sst).data (Spec.through f2 psl).data (Spec.through f3 p).data t' r' ckcd source order
        dataset (Spec.above t.dims lev) ((Spec.above t.dims lev).map (coordOf t)) out.shape out) := by
  obtain ⟨t', r', a1, a2⟩ := arranged (sst := Spec.through f1 sst) (psl := Spec.through f2 psl) (through_proper ht f4) (through_proper hr f5) hc hrd hs hq htime
  refine ⟨t'.data, r'.data, a2, fun order => ⟨?_, fun ckcd source => ?_⟩⟩
  · unfold potentialIntensityX
    rw [checked_ok h1 h2 h3 h4 h5]
    have hd := a2.dims
    have hd' : (Spec.through f4 t).dims.length = t.dims.length := rfl
    simp only [bind, Except.bind]
    rw [if_neg (by rw [hd']; omega), if_neg (by rw [hd']; omega), a1]
    rfl
  · unfold piLogDecompositionX
    rw [checked_ok h1 h2 h3 h4 h5]
    have hd := a2.dims
    have hd' : (Spec.through f4 t).dims.length = t.dims.length := rfl
    simp only [bind, Except.bind]
    rw [if_neg (by rw [hd']; omega), if_neg (by rw [hd']; omega), a1]
    rfl

section
variable {t r : PArr} {lev : String} {n : ℕ} {t' r' : NDArr (Option ℝ)}

theorem Arranged.rank (h : Arranged t r lev n t' r') : t'.shape.length = n := by
  rw [h.tsh, List.length_map, List.length_insertIdx_of_le_length]
  · exact h.len
  · unfold levelAxis
    have := h.len
    rcases h.dims with e | e <;> rw [e] at this ⊢ <;> norm_num <;> omega

theorem Arranged.axis (h : Arranged t r lev n t' r') : levelAxis n ≤ (Spec.above t.dims lev).length := by
  unfold levelAxis
  have := h.len
  rcases h.dims with e | e <;> rw [e] at this ⊢ <;> norm_num <;> omega

theorem above_not (dims : List String) (lev : String) : lev ∉ Spec.above dims lev := by
  intro h
  simpa using (List.mem_filter.mp h).2

theorem Arranged.surf (h : Arranged t r lev n t' r') : surface t'.shape = (Spec.above t.dims lev).map (WindXr.Spec.size t) := by
  unfold surface
  rw [h.rank, h.tsh, map_insert', List.eraseIdx_insertIdx_self]

theorem Arranged.slice_t (h : Arranged t r lev n t' r') (f : String → ℕ) : Gpi.Spec.slice t' ((Spec.above t.dims lev).map f) = Spec.column t lev f := by
  unfold Gpi.Spec.slice Spec.column
  rw [h.rank, h.tsh, map_insert', insertIdx_getD _ _ _ _ (by rw [List.length_map]; exact h.axis)]
  congr 1
  funext i
  rw [← map_insert (above_not _ _) _ h.axis, h.tget]

theorem Arranged.slice_r (h : Arranged t r lev n t' r') (f : String → ℕ) (hsh : t'.shape = r'.shape) :
    Gpi.Spec.slice r' ((Spec.above t.dims lev).map f) = Spec.column r lev f := by
  unfold Gpi.Spec.slice Spec.column
  rw [← hsh, h.rank, hsh, h.rsh, map_insert', insertIdx_getD _ _ _ _ (by rw [List.length_map]; exact h.axis)]
  congr 1
  funext i
  rw [← map_insert (above_not _ _) _ h.axis, h.rget]

end

/-- No missing value, whatever the order. -/
theorem complete_of {a : PArr} (ha : WindXr.Spec.Proper a) {names : List String} (hp : names.Perm a.dims) {b : NDArr (Option ℝ)} (hs : b.shape = names.map (WindXr.Spec.size a))
    (hg : ∀ f, b.get (names.map f) = WindXr.Spec.at a f) (hc : Gpi.Spec.Complete a.data) : Gpi.Spec.Complete b := by
  intro i hi
  obtain ⟨f, rfl⟩ : ∃ f : String → ℕ, i = names.map f := by
    have := InB.len hi
    rw [hs, List.length_map] at this
    exact ⟨_, (exists_assign (hp.nodup_iff.mpr ha.dims) this).symm⟩
  rw [hg]
  apply hc
  rw [shape_eq ha, inB_map]
  rw [hs, inB_map] at hi
  exact fun d hd => hi d (hp.mem_iff.mpr hd)

theorem above_perm {dims : List String} (hd : dims.Nodup) {lev : String} (hl : lev ∈ dims) {i : ℕ} (hi : i ≤ (Spec.above dims lev).length) :
    ((Spec.above dims lev).insertIdx i lev).Perm dims := by
  refine (List.perm_insertIdx lev _ hi).trans ?_
  have e : Spec.above dims lev = dims.erase lev := by
    rw [hd.erase_eq_filter]
    unfold Spec.above
    apply List.filter_congr
    intro x _
    by_cases e : x = lev <;> simp [bne, e]
  rw [e]
  exact (List.perm_cons_erase hl).symm

theorem dataset_inv {R : Type} {dims : List String} {coords : List (Coord ℝ)} {shape : List ℕ} {vars : R} {out : Labelled R} (h : dataset dims coords shape vars = .ok out) :
    out = ⟨dims, coords, vars⟩ := by
  unfold dataset at h
  split at h
  · injection h with h; exact h.symm
  · cases h

/-! ### Theorems -/

/-- C244, what holds: if the surface fields have the dimensions of the temperature without the levels, in the same order, and the time, if there is one, comes first of
these, then the result has these dimensions with the coordinates of the temperature, and its values at every point are those of the profile call for the column above
the point - whatever the order of the dimensions of temperature and mixing ratio, wherever the levels are, and in whatever units. -/
theorem C244_columns_partial {sst psl p t r : PArr} {f1 f2 f3 f4 f5 : ℝ → ℝ} (h1 : Spec.Reading .sst sst f1) (h2 : Spec.Reading .psl psl f2)
    (h3 : Spec.Reading .levels p f3) (h4 : Spec.Reading .temperature t f4) (h5 : Spec.Reading .mixing r f5) (ht : WindXr.Spec.Proper t) (hr : WindXr.Spec.Proper r)
    {lev : String} {time : Option String} (hc : Spec.Called t.dims lev time) (hrd : r.dims.Perm t.dims) (hs : sst.dims = Spec.above t.dims lev)
    (hq : psl.dims = Spec.above t.dims lev) (htime : ∀ s ∈ time, (Spec.above t.dims lev).head? = some s) {order : List (List ℕ)}
    (hsch : time ≠ none → Gpi.Spec.Schedule ((Spec.above t.dims lev).map (WindXr.Spec.size t)) order) (hn : p.data.shape ≠ [0])
    (c1 : Gpi.Spec.Complete (Spec.through f1 sst).data) (c2 : Gpi.Spec.Complete (Spec.through f2 psl).data) (c3 : Gpi.Spec.Complete (Spec.through f3 p).data)
    (c4 : Gpi.Spec.Complete (Spec.through f4 t).data) (c5 : Gpi.Spec.Complete (Spec.through f5 r).data) {out : Labelled Intensity}
    (h : potentialIntensityX sst psl p t r order = .ok out) :
    out.dims = Spec.above t.dims lev ∧ List.Forall₂ (WindXr.Spec.Carries t) out.dims out.coords ∧ out.vars.shape = out.dims.map (WindXr.Spec.size t) ∧
    ∀ f : String → ℕ, (∀ d ∈ out.dims, f d < WindXr.Spec.size t d) → ∃ s q res, WindXr.Spec.at (Spec.through f1 sst) f = some s ∧
      WindXr.Spec.at (Spec.through f2 psl) f = some q ∧
      Gpi.potentialIntensity (num s) (num q) (Spec.through f3 p).data (Spec.column (Spec.through f4 t) lev f) (Spec.column (Spec.through f5 r) lev f) none [] = .ok res ∧
      out.vars.pmin (out.dims.map f) = res.pmin [] ∧ out.vars.vmax (out.dims.map f) = res.vmax [] := by
  obtain ⟨-, hlev, -, hlen⟩ := detect_called ht.dims hc
  obtain ⟨t', r', ha, hcall⟩ := gridded_eq h1 h2 h3 h4 h5 ht hr hc hrd (by rw [hs]) (by rw [hq]) htime
  rw [(hcall order).1] at h
  obtain ⟨o, ho, hd⟩ := ebind h
  have := dataset_inv hd
  subst this
  have hrk := ha.rank
  have hd1 : t'.shape.length ≠ 1 := by
    rw [hrk]
    have := ha.dims
    omega
  have hsch' : t'.shape.length = 4 → Gpi.Spec.Schedule (surface t'.shape) order := by
    intro e
    rw [ha.surf]
    apply hsch
    rintro rfl
    rw [hrk, hlen] at e
    simp at e
  obtain ⟨g, hg, e1, -⟩ := call_inv hd1 hsch' ho
  obtain ⟨m, g1, g2, g3, g4, g5, -⟩ := grid_fields hg
  have hpt := above_perm ht.dims hlev ha.axis
  have d4 : Gpi.Spec.Complete t' := complete_of (through_proper ht f4) hpt ha.tsh ha.tget c4
  have d5 : Gpi.Spec.Complete r' := complete_of (through_proper hr f5) (hpt.trans hrd.symm) ha.rsh ha.rget c5
  have hout : o.shape = (Spec.above t.dims lev).map (WindXr.Spec.size t) := e1.trans ha.surf
  refine ⟨rfl, ?_, hout, fun f hf => ?_⟩
  · rw [List.forall₂_map_right_iff]
    exact List.forall₂_same.mpr fun d _ => carries_coordOf t d
  · have hi : InB o.shape ((Spec.above t.dims lev).map f) := by
      rw [hout, inB_map]
      exact hf
    obtain ⟨-, s, q, res, k1, k2, k3, k4, k5⟩ := C195_slices hd1 hsch' ho hn c1 c2 c3 d4 d5 hi
    have e := ha.slice_t f
    have e' := ha.slice_r f g5
    rw [show (Spec.through f4 t).dims = t.dims from rfl] at e e'
    rw [e, e'] at k3
    refine ⟨s, q, res, ?_, ?_, k3, k4, k5⟩
    · rw [← k1, ← hs]; rfl
    · rw [← k2, ← hq]; rfl

/-- Under the same conditions the decomposition has the same pressures and winds under the same labels; with a time the same flag, too. -/
theorem C244_same {sst psl p t r : PArr} {f1 f2 f3 f4 f5 : ℝ → ℝ} (h1 : Spec.Reading .sst sst f1) (h2 : Spec.Reading .psl psl f2)
    (h3 : Spec.Reading .levels p f3) (h4 : Spec.Reading .temperature t f4) (h5 : Spec.Reading .mixing r f5) (ht : WindXr.Spec.Proper t) (hr : WindXr.Spec.Proper r)
    {lev : String} {time : Option String} (hc : Spec.Called t.dims lev time) (hrd : r.dims.Perm t.dims) (hs : sst.dims = Spec.above t.dims lev)
    (hq : psl.dims = Spec.above t.dims lev) (htime : ∀ s ∈ time, (Spec.above t.dims lev).head? = some s) {order : List (List ℕ)}
    (hsch : Gpi.Spec.Schedule ((Spec.above t.dims lev).map (WindXr.Spec.size t)) order) {ckcd : ℝ} {out : Labelled Intensity} {out' : Labelled Decomposition}
    (h : potentialIntensityX sst psl p t r order = .ok out) (h' : piLogDecompositionX sst psl p t r ckcd "cape_star" order = .ok out') :
    out'.dims = out.dims ∧ out'.coords = out.coords ∧ (time ≠ none → out'.vars.flag = out.vars.flag) ∧
    ∀ f : String → ℕ, (∀ d ∈ out.dims, f d < WindXr.Spec.size t d) →
      out'.vars.pmin (out.dims.map f) = out.vars.pmin (out.dims.map f) ∧ out'.vars.vmax (out.dims.map f) = out.vars.vmax (out.dims.map f) := by
  obtain ⟨-, hlev, -, hlen⟩ := detect_called ht.dims hc
  obtain ⟨t', r', ha, hcall⟩ := gridded_eq h1 h2 h3 h4 h5 ht hr hc hrd (by rw [hs]) (by rw [hq]) htime
  rw [(hcall order).1] at h
  rw [(hcall order).2 ckcd "cape_star"] at h'
  obtain ⟨o, ho, hd⟩ := ebind h
  obtain ⟨o', ho', hd'⟩ := ebind h'
  have := dataset_inv hd
  subst this
  have := dataset_inv hd'
  subst this
  have hrk := ha.rank
  have hd1 : t'.shape.length ≠ 1 := by
    rw [hrk]
    have := ha.dims
    omega
  have hsch' : Gpi.Spec.Schedule (surface t'.shape) order := by
    rw [ha.surf]
    exact hsch
  obtain ⟨-, k1, k2⟩ := C200_same_grid hd1 hsch' ho ho'
  obtain ⟨g, hg, e1, -⟩ := call_inv hd1 (fun _ => hsch') ho
  have hout : o.shape = (Spec.above t.dims lev).map (WindXr.Spec.size t) := e1.trans ha.surf
  refine ⟨rfl, rfl, fun hne => ?_, fun f hf => ?_⟩
  · refine (k2 ?_).symm
    rw [hrk, hlen]
    cases time with
    | none => exact absurd rfl hne
    | some s => rfl
  · obtain ⟨a, b⟩ := k1 ((Spec.above t.dims lev).map f) (by rw [hout, inB_map]; exact hf)
    exact ⟨a.symm, b.symm⟩

theorem core_shape {sst psl p t r : NDArr (Option ℝ)} {order : List (List ℕ)} {out : Intensity} (hd : t.shape.length = 1)
    (h : potentialIntensity sst psl p t r none order = .ok out) : out.shape = [] := by
  obtain ⟨res, -, rfl⟩ := pi_profile hd h
  rfl

/-- C244, profiles: a labelled profile with numbers for the sea is the call of the array function with the values in the units of the computation; whatever that
raises is raised. -/
theorem C244_profile {sst psl p t r : PArr} {f1 f2 f3 f4 f5 : ℝ → ℝ} (h1 : Spec.Reading .sst sst f1) (h2 : Spec.Reading .psl psl f2) (h3 : Spec.Reading .levels p f3)
    (h4 : Spec.Reading .temperature t f4) (h5 : Spec.Reading .mixing r f5) (ht : WindXr.Spec.Proper t) {lev : String} (hl : Spec.Is Spec.levWords lev) (hd : t.dims = [lev])
    (hr : r.dims.length = 1) (hp : p.dims.length = 1) (hs : sst.dims = []) (hq : psl.dims = []) (order : List (List ℕ)) :
    potentialIntensityX sst psl p t r order =
      (Gpi.potentialIntensity (Spec.through f1 sst).data (Spec.through f2 psl).data (Spec.through f3 p).data (Spec.through f4 t).data (Spec.through f5 r).data none order).map
        fun out => ⟨[], [], out⟩ := by
  have hdet : detect t.dims = .ok (0, none) := by
    unfold detect
    rw [hd]
    have e := kind_lev hl
    have g1 : found [lev] .lev = some 0 := by
      unfold found
      simp [e]
    have g2 : found [lev] .time = none := by
      unfold found
      simp [e]
    rw [g1, g2]
    simp
  unfold potentialIntensityX
  rw [checked_ok h1 h2 h3 h4 h5]
  have hd' : (Spec.through f4 t).dims = [lev] := hd
  simp only [bind, Except.bind]
  rw [if_neg (by rw [hd']; simp), if_pos (by rw [hd']; rfl)]
  have hprep : prepareProfileX (Spec.through f1 sst) (Spec.through f2 psl) (Spec.through f3 p) (Spec.through f4 t) (Spec.through f5 r) = .ok () := by
    unfold prepareProfileX
    rw [show (Spec.through f4 t).dims = t.dims from rfl, hdet]
    simp only [bind, Except.bind, pure, Except.pure]
    rw [if_neg, if_neg, if_neg]
    · show ¬ psl.dims.length ≠ 0
      rw [hq]; simp
    · show ¬ sst.dims.length ≠ 0
      rw [hs]; simp
    · show ¬ (t.dims.length ≠ 1 ∨ r.dims.length ≠ 1 ∨ p.dims.length ≠ 1)
      rw [hd, hr, hp]; simp
  rw [hprep]
  dsimp only
  cases hcall : potentialIntensity (Spec.through f1 sst).data (Spec.through f2 psl).data (Spec.through f3 p).data (Spec.through f4 t).data (Spec.through f5 r).data none order with
  | error e => rfl
  | ok out =>
    have hsh : (Spec.through f4 t).data.shape.length = 1 := by
      show t.data.shape.length = 1
      rw [ht.rank, hd]; rfl
    dsimp only
    unfold dataset
    rw [core_shape hsh hcall]
    rfl

end Skyborn.Gpi.Xr
