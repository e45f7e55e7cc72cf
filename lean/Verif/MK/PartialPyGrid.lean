import Verif.MK.PartialPyLemmas

namespace Skyborn.MK.Py

open Skyborn Skyborn.MK Finset Spec

/-! ### complete columns: the batch result is the scalar one -/

theorem mean_cg {n : ℕ} {v w : ℕ → ℝ} (h : ∀ i, i < n → v i = w i) : mean n v = mean n w := by
  unfold mean; rw [Finset.sum_congr rfl fun i hi => h i (by simpa using hi)]

theorem std_cg {n : ℕ} {v w : ℕ → ℝ} (h : ∀ i, i < n → v i = w i) : std n v = std n w := by
  unfold std
  rw [mean_cg h, Finset.sum_congr rfl fun i hi => by rw [h i (by simpa using hi)]]

theorem medianN_cg {n : ℕ} {v w : ℕ → ℝ} (h : ∀ i, i < n → v i = w i) : medianN n v = medianN n w := by
  unfold medianN
  rw [Multiset.map_congr rfl fun i hi => h i (by simpa using hi)]

theorem theilStd_cg {n : ℕ} {x x' y : ℕ → ℝ} (h : ∀ i, i < n → x i = x' i) (b : ℝ) :
    theilStdErrorBatch n x y b = theilStdErrorBatch n x' y b := by
  unfold theilStdErrorBatch
  have hw : ∀ i, i < n → x i * b * (-1) + y i = x' i * b * (-1) + y i := fun i hi => by rw [h i hi]
  have hm := medianN_cg hw
  dsimp only
  rw [std_cg fun i hi => by rw [hw i hi, hm]]

theorem linStd_cg {n : ℕ} {x x' y : ℕ → ℝ} (h : ∀ i, i < n → x i = x' i) (b : ℝ) :
    linregressStdErrorBatch n x y b = linregressStdErrorBatch n x' y b := by
  unfold linregressStdErrorBatch
  dsimp only
  rw [mean_cg h, std_cg fun i hi => by rw [h i hi]]

theorem linregress_cg {n : ℕ} {x x' y : ℕ → ℝ} (h : ∀ i, i < n → x i = x' i) : linregress n x y = linregress n x' y := by
  unfold linregress
  dsimp only
  have e1 : ∑ i ∈ range n, (x i - mean n x') * (y i - mean n y) = ∑ i ∈ range n, (x' i - mean n x') * (y i - mean n y) :=
    Finset.sum_congr rfl fun i hi => by rw [h i (by simpa using hi)]
  have e2 : ∑ i ∈ range n, (x i - mean n x') ^ 2 = ∑ i ∈ range n, (x' i - mean n x') ^ 2 :=
    Finset.sum_congr rfl fun i hi => by rw [h i (by simpa using hi)]
  rw [mean_cg h, e1, e2]

/-- slope, intercept and standard error of a complete column, as the batch code computes them -/
noncomputable def fullTrend (method : Method) (n : ℕ) (y : ℕ → ℝ) : Option ℝ × Option ℝ × Option ℝ :=
  match method with
  | .theilslopes => (some (sen n y), some (medianN n y - medianN n arange * sen n y), some (theilStdErrorBatch n arange y (sen n y)))
  | .linregress => (some (linregressSlopeBatch n arange y),
      some (mean n y - linregressSlopeBatch n arange y * mean n arange),
      some (linregressStdErrorBatch n arange y (linregressSlopeBatch n arange y)))

theorem responseTrend_full (method : Method) {resp : List (Option ℝ)} (h : resp.reduceOption.length = resp.length)
    (hn : 2 ≤ resp.length) : responseTrendScalar method resp = fullTrend method resp.length (elems resp.reduceOption) := by
  have hx : ∀ i, i < resp.length → ((((finiteIdx resp).getD i 0 : ℕ) : ℝ)) = arange i := by
    intro i hi
    rw [finiteIdx_full h, getD_range hi]; rfl
  unfold responseTrendScalar fullTrend
  dsimp only
  rw [h, if_neg (by omega)]
  cases method with
  | theilslopes =>
    dsimp only
    have hs : (pairSlopeList resp.length (fun i => (((finiteIdx resp).getD i 0 : ℕ) : ℝ)) (elems resp.reduceOption) : Multiset ℝ) =
        pairSlopes resp.length (buf (elems resp.reduceOption)) := by
      rw [pairSlopeList_eq]
      unfold pairSlopes
      refine Multiset.map_congr rfl fun p hp => ?_
      have hp' := mem_pairs.mp hp
      rw [hx _ (by omega), hx _ (by omega)]
      unfold buf arange
      rw [Nat.cast_sub (by omega), Nat.cast_sub (by omega)]
      congr 1; ring
    rw [hs, medianN_cg hx, theilStd_cg hx]
    rfl
  | linregress =>
    dsimp only
    rw [linregress_cg hx, linStd_cg hx, ← linSlope_eq (by omega)]
    have e2 : (linregress resp.length arange (elems resp.reduceOption)).2 = mean resp.length (elems resp.reduceOption) -
        (linregress resp.length arange (elems resp.reduceOption)).1 * mean resp.length arange := rfl
    rw [e2, ← linSlope_eq (by omega)]

theorem completeColumns_ok (method : Method) {n m : ℕ} (hn : 3 ≤ n) (x y : ℕ → ℕ → ℝ) (W : ℕ → ℝ) :
    ∃ out, completeColumns method n m x y W = some out ∧ ∀ j, j < m →
      out j = (partialStats n (buf (x j)) (buf (y j)), fullTrend method n (x j)) := by
  cases method with
  | theilslopes =>
    obtain ⟨r, e, hr⟩ := columns_ok (m := m) (fun _ => (((0 : ℝ), (0 : ℝ), (0 : ℝ)), (none : Option ℝ)))
      (k := fun j => partialStatsAndSen n (buf (x j)) (buf (y j)) W)
      (g := fun j => (partialStats n (buf (x j)) (buf (y j)), some (sen n (x j)))) fun j _ => C16_fused_eq_plain n hn _ _ W
    refine ⟨_, by simp only [completeColumns, partialStatsSenBatch, e, Option.bind_eq_bind, Option.bind_some]; rfl, fun j hj => ?_⟩
    simp only [hr j hj, Option.map_some]
    rfl
  | linregress =>
    obtain ⟨r, e, hr⟩ := partialStatisticsBatch_ok (m := m) hn x y
    refine ⟨_, by simp only [completeColumns, e, Option.bind_eq_bind, Option.bind_some]; rfl, fun j hj => ?_⟩
    simp only [hr j hj]
    rfl

/-- The value a gridded call stores for a pair of series. -/
noncomputable def pointP (E : Env) (alpha : ℝ) (method : Method) (resp cov : List (Option ℝ)) : PRes :=
  if (jointPairs resp cov).length < 3 then PRes.empty resp.length 0
  else resOf E alpha resp.length (jointPairs resp cov) (responseTrendScalar method resp)

theorem completeRes_eq (E : Env) (alpha : ℝ) (method : Method) {resp cov : List (Option ℝ)} (hl : resp.length = cov.length)
    (hc : (jointPairs resp cov).length = resp.length) (hn : 3 ≤ resp.length) :
    completeRes E alpha resp.length (partialStats resp.length (buf (elems resp.reduceOption)) (buf (elems cov.reduceOption)),
      fullTrend method resp.length (elems resp.reduceOption)) = pointP E alpha method resp cov := by
  obtain ⟨h1, h2, h3, h4⟩ := jointPairs_full resp cov hl hc
  unfold pointP
  rw [if_neg (by omega)]
  unfold completeRes resOf statsOf
  rw [h3, h4, hc, responseTrend_full method h1 (by omega)]
  dsimp only
  rw [hypothesisFinite_eq hn]
  simp

/-! ### one chunk -/

theorem foldl_tests (E : Env) (alpha : ℝ) (method : Method) (start : ℕ) (resp cov : ℕ → List (Option ℝ)) :
    ∀ (l : List ℕ) (f : ℕ → PRes), (∀ j ∈ l, (resp (start + j)).length = (cov (start + j)).length ∧
      3 ≤ (jointPairs (resp (start + j)) (cov (start + j))).length) →
    ∃ g, l.foldlM (fun f j => do
      let r ← partialTest E alpha method (resp (start + j)) (cov (start + j))
      return Function.update f (start + j) r) f = some g ∧
      (∀ j ∈ l, g (start + j) = pointP E alpha method (resp (start + j)) (cov (start + j))) ∧
      (∀ k, (∀ j ∈ l, k ≠ start + j) → g k = f k) := by
  intro l
  induction l with
  | nil => intro f _; exact ⟨f, rfl, by simp, fun _ _ => rfl⟩
  | cons a l ih =>
    intro f h
    have ha := h a List.mem_cons_self
    have et : partialTest E alpha method (resp (start + a)) (cov (start + a)) =
        some (pointP E alpha method (resp (start + a)) (cov (start + a))) := by
      rw [partialTest_eq E alpha method ha.1, if_neg (by omega)]
      unfold pointP; rw [if_neg (by omega)]
    rw [List.foldlM_cons, et]
    simp only [Option.bind_eq_bind, Option.bind_some, Option.pure_def]
    obtain ⟨g, eg, h1, h2⟩ := ih (Function.update f (start + a) (pointP E alpha method (resp (start + a)) (cov (start + a))))
      fun j hj => h j (List.mem_cons_of_mem _ hj)
    simp only [Option.bind_eq_bind, Option.pure_def] at eg
    refine ⟨g, eg, ?_, ?_⟩
    · intro j hj
      by_cases hjl : j ∈ l
      · exact h1 j hjl
      · have hja : j = a := by rcases List.mem_cons.mp hj with h | h; exacts [h, absurd h hjl]
        subst hja
        rw [h2 _ fun i hi e => hjl (by rw [show j = i by omega]; exact hi), Function.update_self]
    · intro k hk
      rw [h2 k fun j hj => hk j (List.mem_cons_of_mem _ hj), Function.update_of_ne (hk a List.mem_cons_self)]

theorem partialChunk_ok (E : Env) (alpha : ℝ) (method : Method) {n start m : ℕ} (resp cov : ℕ → List (Option ℝ))
    (hr : ∀ j, j < m → (resp (start + j)).length = n ∧ (cov (start + j)).length = n) (W : ℕ → ℝ) (flat : ℕ → PRes)
    (hflat : ∀ j, j < m → flat (start + j) = PRes.empty n 0) :
    ∃ g, partialChunk E alpha method n start m resp cov W flat = some g ∧
      (∀ j, j < m → g (start + j) = pointP E alpha method (resp (start + j)) (cov (start + j))) ∧
      (∀ k, ¬ (start ≤ k ∧ k < start + m) → g k = flat k) := by
  unfold partialChunk
  dsimp only
  set count : ℕ → ℕ := fun j => (jointPairs (resp (start + j)) (cov (start + j))).length with hcount
  set valid := (List.range m).filter fun j => decide (3 ≤ count j) with hv
  set clean := valid.filter fun j => decide (count j = n) with hc
  set rest := valid.filter fun j => decide (count j ≠ n) with hrest
  have mv : ∀ j, j ∈ valid ↔ j < m ∧ 3 ≤ count j := by intro j; simp [hv]
  have mc : ∀ j, j ∈ clean ↔ (j < m ∧ 3 ≤ count j) ∧ count j = n := by intro j; simp [hc, mv]
  have mr : ∀ j, j ∈ rest ↔ (j < m ∧ 3 ≤ count j) ∧ count j ≠ n := by intro j; simp [hrest, mv]
  have hshort : ∀ j, j < m → ¬ 3 ≤ count j → pointP E alpha method (resp (start + j)) (cov (start + j)) = PRes.empty n 0 := by
    intro j hj h
    unfold pointP
    rw [if_pos (by simpa [hcount] using h), (hr j hj).1]
  by_cases hve : valid = []
  · rw [if_pos hve]
    refine ⟨flat, rfl, fun j hj => ?_, fun _ _ => rfl⟩
    rw [hshort j hj fun h => by have := (mv j).mpr ⟨hj, h⟩; rw [hve] at this; simp at this]
    exact hflat j hj
  rw [if_neg hve]
  have hnd : clean.Nodup := (List.nodup_range.filter _).filter _
  -- the complete columns
  obtain ⟨flat1, e1, hf1, hf1'⟩ : ∃ flat1, ((if clean = [] then some flat
      else do
        let r ← completeColumns method n clean.length (fun k => elems (resp (start + clean.getD k 0)).reduceOption)
          (fun k => elems (cov (start + clean.getD k 0)).reduceOption) W
        return scatter flat (clean.map (start + ·)) fun k => completeRes E alpha n (r k)) : Option (ℕ → PRes)) = some flat1 ∧
      (∀ j ∈ clean, flat1 (start + j) = pointP E alpha method (resp (start + j)) (cov (start + j))) ∧
      (∀ k, (∀ j ∈ clean, k ≠ start + j) → flat1 k = flat k) := by
    by_cases hce : clean = []
    · rw [if_pos hce]
      exact ⟨flat, rfl, by simp [hce], fun _ _ => rfl⟩
    · rw [if_neg hce]
      have hn3 : 3 ≤ n := by
        obtain ⟨j, hj⟩ := List.exists_mem_of_ne_nil _ hce
        have := (mc j).mp hj; omega
      obtain ⟨r, er, hrr⟩ := completeColumns_ok method (m := clean.length) hn3
        (fun k => elems (resp (start + clean.getD k 0)).reduceOption) (fun k => elems (cov (start + clean.getD k 0)).reduceOption) W
      rw [er]
      refine ⟨_, rfl, ?_, ?_⟩
      · intro j hj
        obtain ⟨k, hk, ek⟩ := List.getElem_of_mem hj
        have hnd' : (clean.map (start + ·)).Nodup := hnd.map fun a b h => by simpa using h
        have hs := scatter_mem flat (clean.map (start + ·)) hnd' (fun k => completeRes E alpha n (r k)) (k := k) (by simpa using hk)
        rw [List.getElem_map, ek] at hs
        rw [hs]
        rw [hrr k hk]
        have ek' : clean.getD k 0 = j := by rw [List.getD_eq_getElem _ _ hk, ek]
        rw [ek']
        have hj' := (mc j).mp hj
        obtain ⟨l1, l2⟩ := hr j hj'.1.1
        rw [← completeRes_eq E alpha method (l1.trans l2.symm) (by rw [l1]; exact hj'.2) (by omega), l1]
      · intro k hk
        apply scatter_notMem
        intro hmem
        obtain ⟨j, hj, ej⟩ := List.mem_map.mp hmem
        exact hk j hj ej.symm
  rw [e1]
  simp only [Option.bind_eq_bind, Option.bind_some]
  obtain ⟨g, eg, h1, h2⟩ := foldl_tests E alpha method start resp cov rest flat1 fun j hj => by
    have := (mr j).mp hj
    obtain ⟨l1, l2⟩ := hr j this.1.1
    exact ⟨l1.trans l2.symm, this.1.2⟩
  simp only [Option.bind_eq_bind] at eg
  refine ⟨g, eg, ?_, ?_⟩
  · intro j hj
    by_cases hjr : j ∈ rest
    · exact h1 j hjr
    · rw [h2 _ fun i hi e => hjr (by rw [show j = i by omega]; exact hi)]
      by_cases hjc : j ∈ clean
      · exact hf1 j hjc
      · rw [hf1' _ fun i hi e => hjc (by rw [show j = i by omega]; exact hi), hflat j hj, hshort j hj]
        intro h3
        by_cases hcn : count j = n
        · exact hjc ((mc j).mpr ⟨⟨hj, h3⟩, hcn⟩)
        · exact hjr ((mr j).mpr ⟨⟨hj, h3⟩, hcn⟩)
  · intro k hk
    rw [h2 _ fun i hi e => hk (by have := (mr i).mp hi; omega), hf1' _ fun i hi e => hk (by have := (mc i).mp hi; omega)]

theorem partialFlat_ok (E : Env) (alpha : ℝ) (method : Method) {n nPoints : ℕ} {chunk : ℤ} (hk : 0 < chunk)
    (resp cov : ℕ → List (Option ℝ)) (hr : ∀ j, j < nPoints → (resp j).length = n ∧ (cov j).length = n) (W : ℕ → ℝ) :
    ∃ g, partialFlat E alpha method n nPoints chunk resp cov W = some g ∧
      ∀ j, j < nPoints → g j = pointP E alpha method (resp j) (cov j) := by
  unfold partialFlat
  rw [if_neg hk.ne', if_neg (by omega)]
  dsimp only
  set c := chunk.toNat with hc
  have hcpos : 0 < c := by omega
  obtain ⟨g, eg, hg⟩ := foldlM_range_inv (n := (nPoints + c - 1) / c) (s := fun (_ : ℕ) => PRes.empty n 0)
    (f := fun (flat : ℕ → PRes) k => partialChunk E alpha method n (k * c) (min (k * c + c) nPoints - k * c) resp cov W flat)
    (fun k flat => (∀ j, j < nPoints → j < k * c → flat j = pointP E alpha method (resp j) (cov j)) ∧
      (∀ j, k * c ≤ j → flat j = PRes.empty n 0))
    ⟨fun j _ h => by omega, fun _ _ => rfl⟩
    (by
      rintro k hk flat ⟨h1, h2⟩
      obtain ⟨g, eg, hg1, hg2⟩ := partialChunk_ok E alpha method (start := k * c) (m := min (k * c + c) nPoints - k * c) resp cov
        (fun j hj => hr _ (by omega)) W flat (fun j hj => h2 _ (by omega))
      refine ⟨g, eg, ?_, ?_⟩
      · intro j hj hjk
        rw [add_mul, one_mul] at hjk
        by_cases hlow : j < k * c
        · rw [hg2 j (by omega)]; exact h1 j hj hlow
        · have := hg1 (j - k * c) (by omega)
          rwa [show k * c + (j - k * c) = j by omega] at this
      · intro j hj
        rw [add_mul, one_mul] at hj
        rw [hg2 j (by omega)]
        exact h2 j (by omega))
  refine ⟨g, eg, fun j hj => hg.1 j hj ?_⟩
  have : nPoints ≤ (nPoints + c - 1) / c * c := (seasonRows_le hcpos).mp le_rfl
  omega

end Skyborn.MK.Py
