/-
C231: the coverage report.
-/
import Verif.Gridfill.XrDetect
import Mathlib.Data.Set.Card

namespace Skyborn.Gridfill.Xr

open Skyborn Gridfill

variable {K : Type} [Field K] [LinearOrder K]

/-- Number of missing points. -/
noncomputable def Spec.missing (d : DArr K) : ℕ := Set.ncard {idx | InB d.data.shape idx ∧ d.data.get idx = none}

/-- Number of missing points with index `i` along the dimension called `n`. -/
noncomputable def Spec.missingAt (d : DArr K) (n : String) (i : ℕ) : ℕ :=
  Set.ncard {idx | InB d.data.shape idx ∧ idx.getD (d.dims.idxOf n) 0 = i ∧ d.data.get idx = none}

/-- Number of points. -/
noncomputable def Spec.points (d : DArr K) : ℕ := Set.ncard {idx | InB d.data.shape idx}

/-- Number of points with index `i` along the dimension called `n`. -/
noncomputable def Spec.pointsAt (d : DArr K) (n : String) (i : ℕ) : ℕ :=
  Set.ncard {idx | InB d.data.shape idx ∧ idx.getD (d.dims.idxOf n) 0 = i}

/-- Counting flat positions counts multi-indices. -/
theorem countP_ncard (s : List ℕ) (P : List ℕ → Bool) :
    (List.range s.prod).countP (fun k => P (unravel s k)) = Set.ncard {idx | InB s idx ∧ P idx = true} := by
  rw [List.countP_eq_length_filter]
  have hnd : ((List.range s.prod).filter fun k => P (unravel s k)).Nodup := List.nodup_range.filter _
  have : {idx | InB s idx ∧ P idx = true} = (unravel s) '' {k | k ∈ (List.range s.prod).filter fun k => P (unravel s k)} := by
    ext idx
    simp only [Set.mem_setOf_eq, List.mem_filter, List.mem_range, Set.mem_image]
    constructor
    · rintro ⟨h1, h2⟩
      exact ⟨ravel s idx, ⟨ravel_lt h1, by rw [unravel_ravel h1]; exact h2⟩, unravel_ravel h1⟩
    · rintro ⟨k, ⟨h1, h2⟩, rfl⟩
      exact ⟨unravel_inB h1, h2⟩
  rw [this, Set.ncard_image_of_injOn]
  · rw [← List.toFinset_card_of_nodup hnd, ← Set.ncard_coe_finset]
    congr 1
    ext k; simp
  · intro a ha b hb hab
    simp only [Set.mem_setOf_eq, List.mem_filter, List.mem_range] at ha hb
    rw [← ravel_unravel ha.1, hab, ravel_unravel hb.1]

theorem countMissing_eq (a : NDArr (Option K)) : countMissing a = Set.ncard {idx | InB a.shape idx ∧ a.get idx = none} := by
  unfold countMissing
  rw [countP_ncard a.shape fun idx => (a.get idx).isNone]
  simp only [Option.isNone_iff_eq_none]

theorem prod_ncard (s : List ℕ) : s.prod = Set.ncard {idx | InB s idx} := by
  have := countP_ncard s fun _ => true
  simpa using this

/-- Multi-indices with a fixed entry are the multi-indices of the remaining axes. -/
theorem erase_image {s : List ℕ} {k i : ℕ} (hk : k < s.length) (hi : i < s.getD k 0) (Q : List ℕ → Prop) :
    {idx | InB s idx ∧ idx.getD k 0 = i ∧ Q idx} = (fun t : List ℕ => t.insertIdx k i) '' {t | InB (s.eraseIdx k) t ∧ Q (t.insertIdx k i)} := by
  ext idx
  simp only [Set.mem_setOf_eq, Set.mem_image]
  constructor
  · rintro ⟨h1, h2, h3⟩
    have hb := inB_iff.mp h1
    have hki : k < idx.length := by omega
    have he : (idx.eraseIdx k).insertIdx k i = idx := by
      have := List.insertIdx_eraseIdx_getElem (l := idx) (n := k) hki
      rw [List.getD_eq_getElem _ _ hki] at h2
      rw [h2] at this; exact this
    refine ⟨idx.eraseIdx k, ⟨?_, by rw [he]; exact h3⟩, he⟩
    rw [inB_iff]
    refine ⟨by rw [List.length_eraseIdx_of_lt hki, List.length_eraseIdx_of_lt hk]; omega, fun j hj => ?_⟩
    rw [List.length_eraseIdx_of_lt hk] at hj
    rw [List.getD_eq_getElem _ _ (by rw [List.length_eraseIdx_of_lt hki]; omega), List.getD_eq_getElem _ _ (by rw [List.length_eraseIdx_of_lt hk]; omega),
      List.getElem_eraseIdx, List.getElem_eraseIdx]
    split
    · have := hb.2 j (by omega)
      rwa [List.getD_eq_getElem _ _ (by omega), List.getD_eq_getElem _ _ (by omega)] at this
    · have := hb.2 (j + 1) (by omega)
      rwa [List.getD_eq_getElem _ _ (by omega), List.getD_eq_getElem _ _ (by omega)] at this
  · rintro ⟨t, ⟨h1, h3⟩, rfl⟩
    have hb := inB_iff.mp h1
    rw [List.length_eraseIdx_of_lt hk] at hb
    have hkt : k ≤ t.length := by omega
    have hlen : (t.insertIdx k i).length = s.length := by rw [List.length_insertIdx_of_le_length hkt]; omega
    have hself : (t.insertIdx k i).getD k 0 = i := by
      rw [List.getD_eq_getElem _ _ (by omega), List.getElem_insertIdx_self]
    refine ⟨inB_iff.mpr ⟨hlen, fun j hj => ?_⟩, hself, h3⟩
    rcases lt_trichotomy j k with h | h | h
    · have := hb.2 j (by omega)
      rw [List.getD_eq_getElem _ _ (by omega), List.getD_eq_getElem _ _ (by rw [List.length_eraseIdx_of_lt hk]; omega), List.getElem_eraseIdx_of_lt _ h] at this
      rw [List.getD_eq_getElem _ _ (by omega), List.getD_eq_getElem _ _ (by omega), List.getElem_insertIdx_of_lt h]
      exact this
    · subst h; rw [hself]; exact hi
    · have := hb.2 (j - 1) (by omega)
      rw [List.getD_eq_getElem _ _ (by omega), List.getD_eq_getElem _ _ (by rw [List.length_eraseIdx_of_lt hk]; omega), List.getElem_eraseIdx_of_ge _ (by omega)] at this
      rw [List.getD_eq_getElem _ _ (by omega), List.getD_eq_getElem _ _ (by omega), List.getElem_insertIdx_of_gt h]
      have e : j - 1 + 1 = j := by omega
      simp only [e] at this
      exact this

theorem insert_inj {k i : ℕ} {t u : List ℕ} (ht : k ≤ t.length) (hu : k ≤ u.length) (h : t.insertIdx k i = u.insertIdx k i) : t = u := by
  have := congrArg (fun l => l.eraseIdx k) h
  simpa [List.eraseIdx_insertIdx_self] using this

theorem erase_ncard {s : List ℕ} {k i : ℕ} (hk : k < s.length) (hi : i < s.getD k 0) (Q : List ℕ → Prop) :
    Set.ncard {t | InB (s.eraseIdx k) t ∧ Q (t.insertIdx k i)} = Set.ncard {idx | InB s idx ∧ idx.getD k 0 = i ∧ Q idx} := by
  rw [erase_image hk hi, Set.ncard_image_of_injOn]
  intro t ht u hu h
  have h1 := ht.1.length
  have h2 := hu.1.length
  rw [List.length_eraseIdx_of_lt hk] at h1 h2
  exact insert_inj (by omega) (by omega) h

/-- A coverage of one part is its fraction of known points. -/
theorem sliceCoverage_eq {d : DArr K} (h : Spec.Labelled d) {n : String} (hn : n ∈ d.dims) {i : ℕ} (hi : i < Spec.size d n) :
    sliceCoverage d.data (d.dims.idxOf n) i = 1 - (Spec.missingAt d n i : K) / (Spec.pointsAt d n i : K) := by
  have hk : d.dims.idxOf n < d.data.shape.length := by rw [h.rank]; exact List.idxOf_lt_length_of_mem hn
  unfold sliceCoverage
  rw [countMissing_eq, prod_ncard]
  have h1 := erase_ncard hk hi fun idx => d.data.get idx = none
  have h2 := erase_ncard hk hi fun _ => True
  simp only [and_true] at h2
  unfold Spec.missingAt Spec.pointsAt
  rw [← h1, ← h2]; rfl

/-- Neighbouring differences all within the tolerance of the first one. -/
def Spec.Regular (vals : List K) : Prop :=
  ∀ k, k + 1 < vals.length → |vals.getD (k + 1) 0 - vals.getD k 0 - (vals.getD 1 0 - vals.getD 0 0)| ≤
    1 / 10 ^ 8 + 1 / 10 ^ 3 * |vals.getD 1 0 - vals.getD 0 0|

theorem irregular_iff (vals : List K) (hl : 1 < vals.length) : irregular vals = true ↔ ¬ Spec.Regular vals := by
  obtain ⟨a, b, l, rfl⟩ : ∃ a b l, vals = a :: b :: l := by
    match vals, hl with
    | a :: b :: l, _ => exact ⟨a, b, l, rfl⟩
  unfold irregular
  rw [List.tail_cons, List.zip_cons_cons, List.map_cons]
  simp only [Bool.not_eq_true', List.all_eq_false, decide_eq_true_eq]
  rw [show ((b - a) :: ((b :: l).zip l).map fun p => p.2 - p.1) = ((a :: b :: l).zip (b :: l)).map fun p => p.2 - p.1 from rfl]
  unfold Spec.Regular
  push Not
  simp only [List.getD_cons_zero, List.getD_cons_succ]
  constructor
  · rintro ⟨x, hx, hlt⟩
    obtain ⟨k, hk, rfl⟩ := List.mem_iff_getElem.mp hx
    simp only [List.length_map, List.length_zip, List.length_cons] at hk
    refine ⟨k, by simp only [List.length_cons]; omega, ?_⟩
    simp only [List.getElem_map, List.getElem_zip] at hlt
    rw [List.getD_eq_getElem _ _ (by simp only [List.length_cons]; omega), List.getD_eq_getElem _ _ (by simp only [List.length_cons]; omega)]
    exact hlt
  · rintro ⟨k, hk, hlt⟩
    simp only [List.length_cons] at hk
    refine ⟨_, List.getElem_mem (n := k) (by simp only [List.length_map, List.length_zip, List.length_cons]; omega), ?_⟩
    simp only [List.getElem_map, List.getElem_zip]
    rw [List.getD_eq_getElem _ _ (by simp only [List.length_cons]; omega), List.getD_eq_getElem _ _ (by simp only [List.length_cons]; omega)] at hlt
    exact hlt

/-- C231: with both dimensions named and their coordinates present, the report gives the number of points, the number of missing points, the fraction of known
points, valid = at least the required fraction, and each message exactly when its condition holds: too little coverage, too little
coverage of the points with some index along the first other dimension, irregular spacing along x, irregular spacing along y. -/
theorem C231_report [IsStrictOrderedRing K] {d : DArr K} (h : Spec.Labelled d) {x y : String} {cx cy : Coord K}
    (hcx : d.coords.find? (fun c => c.name == x) = some cx) (hcy : d.coords.find? (fun c => c.name == y) = some cy)
    (hpos : 0 < Spec.points d) (minCov : K) :
    ∃ r, validateCoverage d (some x) (some y) minCov = .ok r ∧ r.total = Spec.points d ∧ r.missing = Spec.missing d ∧
      r.coverage = 1 - (Spec.missing d : K) / (Spec.points d : K) ∧ (r.valid = true ↔ minCov ≤ r.coverage) ∧
      (.coverage ∈ r.messages ↔ r.coverage < minCov) ∧
      (.slices ∈ r.messages ↔ 2 < d.dims.length ∧ ∃ n, (d.dims.filter fun n => !(n == x || n == y)).head? = some n ∧
        ∃ i, i < Spec.size d n ∧ 1 - (Spec.missingAt d n i : K) / (Spec.pointsAt d n i : K) < minCov) ∧
      (.xSpacing ∈ r.messages ↔ 1 < cx.vals.length ∧ ¬ Spec.Regular cx.vals) ∧
      (.ySpacing ∈ r.messages ↔ 1 < cy.vals.length ∧ ¬ Spec.Regular cy.vals) := by
  have htot : d.data.shape.prod = Spec.points d := prod_ncard _
  have hmis : countMissing d.data = Spec.missing d := countMissing_eq _
  have hle : Spec.missing d ≤ Spec.points d := by
    rw [← htot, ← hmis]
    unfold countMissing
    exact (List.countP_le_length).trans (by simp)
  have hp : (0 : K) < (Spec.points d : K) := by exact_mod_cast hpos
  unfold validateCoverage
  simp only [hcx, hcy, htot, hmis]
  refine ⟨_, rfl, rfl, rfl, ?_, ?_, ?_, ?_, ?_, ?_⟩
  · dsimp only
    rw [if_pos hpos, Nat.cast_sub hle, sub_div, div_self hp.ne']
  · simp
  · simp only [List.mem_append]
    constructor
    · rintro (((h1 | h1) | h1) | h1)
      · by_contra hc
        rw [if_neg hc] at h1
        simp at h1
      · exfalso
        repeat' split at h1
        all_goals simp at h1
      · exfalso; split at h1 <;> simp at h1
      · exfalso; split at h1 <;> simp at h1
    · intro hc
      left; left; left
      rw [if_pos hc]; simp
  · simp only [List.mem_append]
    constructor
    · rintro (((h1 | h1) | h1) | h1)
      · exfalso; split at h1 <;> simp at h1
      · split at h1
        · next hl =>
          refine ⟨hl, ?_⟩
          split at h1
          · simp at h1
          · next n rest hn =>
            split at h1
            · next hany =>
              have hmem : n ∈ d.dims := List.mem_of_mem_filter (by rw [hn]; exact List.mem_cons_self)
              rw [List.any_eq_true] at hany
              obtain ⟨i, hi, hlt⟩ := hany
              have hi' : i < Spec.size d n := List.mem_range.mp hi
              refine ⟨n, by rw [hn]; rfl, i, hi', ?_⟩
              rw [← sliceCoverage_eq h hmem hi']
              simpa using hlt
            · simp at h1
        · simp at h1
      · exfalso; split at h1 <;> simp at h1
      · exfalso; split at h1 <;> simp at h1
    · rintro ⟨hl, n, hn, i, hi, hlt⟩
      left; left; right
      rw [if_pos hl]
      split
      · next e => rw [e] at hn; simp at hn
      · next m rest e =>
        rw [e] at hn
        obtain rfl : m = n := by simpa using hn
        have hmem : m ∈ d.dims := List.mem_of_mem_filter (by rw [e]; exact List.mem_cons_self)
        rw [if_pos]
        · simp
        · rw [List.any_eq_true]
          refine ⟨i, List.mem_range.mpr hi, ?_⟩
          rw [sliceCoverage_eq h hmem hi]
          simpa using hlt
  · simp only [List.mem_append]
    constructor
    · rintro (((h1 | h1) | h1) | h1)
      · exfalso; split at h1 <;> simp at h1
      · exfalso
        repeat' split at h1
        all_goals simp at h1
      · split at h1
        · next hc => exact ⟨hc.1, (irregular_iff _ hc.1).mp hc.2⟩
        · simp at h1
      · exfalso; split at h1 <;> simp at h1
    · rintro ⟨h1, h2⟩
      left; right
      rw [if_pos ⟨h1, (irregular_iff _ h1).mpr h2⟩]; simp
  · simp only [List.mem_append]
    constructor
    · rintro (((h1 | h1) | h1) | h1)
      · exfalso; split at h1 <;> simp at h1
      · exfalso
        repeat' split at h1
        all_goals simp at h1
      · exfalso; split at h1 <;> simp at h1
      · split at h1
        · next hc => exact ⟨hc.1, (irregular_iff _ hc.1).mp hc.2⟩
        · simp at h1
    · rintro ⟨h1, h2⟩
      right
      rw [if_pos ⟨h1, (irregular_iff _ h1).mpr h2⟩]; simp

/-- A (time, level, lat, lon) array whose only time has an empty first level. -/
def halfEmpty : DArr ℚ := ⟨["time", "lev", "lat", "lon"], ⟨[1, 2, 3, 3], fun idx => if idx.getD 1 0 = 0 then none else some 1⟩,
  [⟨"lat", [1, 2, 3], none, none, none, false⟩, ⟨"lon", [1, 2, 3], none, none, none, false⟩], none, []⟩

/-- C231, finding: an entirely empty horizontal slice gives no message when the slices sharing its first index have enough points. -/
theorem C231_empty_slice_unnoticed : ∃ d : DArr ℚ, Spec.Labelled d ∧
    (∀ i j, Spec.at d (fun n => if n = "lat" then i else if n = "lon" then j else 0) = none) ∧
    ∃ r, validateCoverage d (some "lon") (some "lat") (1 / 10) = .ok r ∧ r.valid = true ∧ r.messages = [] := by
  refine ⟨halfEmpty, ⟨by decide, rfl⟩, fun i j => ?_, ?_⟩
  · simp [Spec.at, halfEmpty]
  · have h : ((validateCoverage halfEmpty (some "lon") (some "lat") (1 / 10)).toOption.map fun r => (r.valid, r.messages)) = some (true, []) := by
      decide +kernel
    cases e : validateCoverage halfEmpty (some "lon") (some "lat") (1 / 10) with
    | error x => rw [e] at h; simp [Except.toOption] at h
    | ok r =>
      rw [e] at h
      simp only [Except.toOption, Option.map_some, Option.some.injEq, Prod.mk.injEq] at h
      exact ⟨r, rfl, h.1, h.2⟩

/-- Coordinates and points as `C231_report` requires. -/
example : Spec.Labelled halfEmpty ∧ (halfEmpty.coords.find? fun c => c.name == "lon").isSome ∧ (halfEmpty.coords.find? fun c => c.name == "lat").isSome ∧
    0 < Spec.points halfEmpty := by
  refine ⟨⟨by decide, rfl⟩, by decide +kernel, by decide +kernel, ?_⟩
  unfold Spec.points
  rw [← prod_ncard]; decide

end Skyborn.Gridfill.Xr
