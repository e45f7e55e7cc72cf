import Verif.MK.PySeason

namespace Skyborn.MK.Py

open Skyborn Skyborn.MK Finset Spec

theorem scatter_notMem {β : Type} (res : ℕ → β) (idx : List ℕ) (vals : ℕ → β) {j : ℕ} (hj : j ∉ idx) :
    scatter res idx vals j = res j := by
  unfold scatter
  have : ∀ (l : List (ℕ × ℕ)) (r : ℕ → β), (∀ p ∈ l, p.1 ≠ j) →
      (l.foldl (fun r p => Function.update r p.1 (vals p.2)) r) j = r j := by
    intro l
    induction l with
    | nil => intro r _; rfl
    | cons a l ih =>
      intro r h
      rw [List.foldl_cons, ih _ fun p hp => h p (List.mem_cons_of_mem _ hp)]
      rw [Function.update_of_ne]
      exact (h a List.mem_cons_self).symm
  apply this
  rintro ⟨a, b⟩ hp rfl
  exact hj (List.fst_mem_of_mem_zipIdx hp)

theorem scatter_mem {β : Type} (res : ℕ → β) (idx : List ℕ) (hnd : idx.Nodup) (vals : ℕ → β) {k : ℕ} (hk : k < idx.length) :
    scatter res idx vals (idx[k]) = vals k := by
  unfold scatter
  have : ∀ (l : List ℕ) (s : ℕ) (r : ℕ → β), l.Nodup → ∀ k (hk : k < l.length),
      ((l.zipIdx s).foldl (fun r p => Function.update r p.1 (vals p.2)) r) l[k] = vals (s + k) := by
    intro l
    induction l with
    | nil => intro s r _ k hk; simp at hk
    | cons a l ih =>
      intro s r hnd k hk
      rw [List.nodup_cons] at hnd
      rw [List.zipIdx_cons, List.foldl_cons]
      cases k with
      | zero =>
        simp only [List.getElem_cons_zero, Nat.add_zero]
        have hnot : ∀ (l : List (ℕ × ℕ)) (r : ℕ → β), (∀ p ∈ l, p.1 ≠ a) →
            (l.foldl (fun r p => Function.update r p.1 (vals p.2)) r) a = r a := by
          intro l
          induction l with
          | nil => intro r _; rfl
          | cons b l ih =>
            intro r h
            rw [List.foldl_cons, ih _ fun p hp => h p (List.mem_cons_of_mem _ hp), Function.update_of_ne]
            exact (h b List.mem_cons_self).symm
        rw [hnot, Function.update_self]
        rintro ⟨x, b⟩ hp rfl
        exact hnd.1 (List.fst_mem_of_mem_zipIdx hp)
      | succ k =>
        simp only [List.getElem_cons_succ]
        rw [ih (s + 1) _ hnd.2 k (by simpa using hk)]
        congr 1; omega
  have h := this idx 0 res hnd k hk
  simpa using h

/-- the 1-D non-seasonal tests only see the finite samples -/
theorem mkTest_plain_squeeze (E : Env) (cfg : Cfg) (hs : cfg.test ≠ .seasonal ∧ cfg.test ≠ .correlatedSeasonal)
    (vals : List (Option ℝ)) (W : ℕ → ℝ) : mkTest E cfg (vals.reduceOption.map some) W = mkTest E cfg vals W := by
  have hcfg : ¬ (cfg.test = .seasonal ∨ cfg.test = .correlatedSeasonal) := by rintro (h | h); exacts [hs.1 h, hs.2 h]
  unfold mkTest mkPlain
  rw [reduceOption_map_some]
  simp only [hcfg, if_false]

theorem map_some_reduceOption {vals : List (Option ℝ)} (h : vals.reduceOption.length = vals.length) :
    vals.reduceOption.map some = vals := by
  induction vals with
  | nil => rfl
  | cons a l ih =>
    cases a with
    | none =>
      rw [List.reduceOption_cons_of_none] at h
      have := List.reduceOption_length_le l
      simp at h; omega
    | some a =>
      rw [List.reduceOption_cons_of_some] at h ⊢
      rw [List.map_cons, ih (by simpa using h)]

/-- Configurations for which the gridded test is claimed to agree with the 1-D test: the seasonal families need a positive
period and Theil-Sen slopes. -/
def Covered (cfg : Cfg) : Prop :=
  (cfg.test = .seasonal ∨ cfg.test = .correlatedSeasonal) → cfg.method = .theilslopes ∧ 0 < cfg.period

/-- What the gridded test hands to the 1-D test for a series with gaps: `correlated_seasonal` closes the gaps first. -/
def seen (cfg : Cfg) (v : List (Option ℝ)) : List (Option ℝ) :=
  if cfg.test = .correlatedSeasonal then v.reduceOption.map some else v

/-- value of a grid point: the 1-D result, or the NaN entry when the 1-D test raises -/
noncomputable def point (E : Env) (cfg : Cfg) (W : ℕ → ℝ) (v : List (Option ℝ)) : Res :=
  (mkTest E cfg (seen cfg v) W).getD Res.nan

theorem batch_ok (E : Env) (cfg : Cfg) (hc : Covered cfg) {n m : ℕ}
    (hn : 3 ≤ n) (hm : 0 < m) (l : ℕ → List ℝ) (hl : ∀ j, j < m → (l j).length = n) (W : ℕ → ℝ) :
    (∃ st, batchStats E cfg n m (fun j => elems (l j)) W = some st ∧ ∀ j, j < m →
      mkTest E cfg ((l j).map some) W = some (batchRes E cfg n (fun j => elems (l j)) st j)) ∨
    (batchStats E cfg n m (fun j => elems (l j)) W = none ∧ ∀ j, j < m → mkTest E cfg ((l j).map some) W = none) := by
  by_cases hs : cfg.test = .seasonal ∨ cfg.test = .correlatedSeasonal
  · exact Or.inl (batch_season_ok E cfg hs (hc hs).1 (hc hs).2 hn hm l hl W)
  · push Not at hs
    exact batch_plain_ok E cfg hs hn hm l hl W

/-- complete series long enough to be tested -/
def Complete (v : List (Option ℝ)) : Prop := 3 ≤ v.length ∧ v.reduceOption.length = v.length

theorem foldl_nan (E : Env) (cfg : Cfg) (W : ℕ → ℝ) (data : ℕ → List (Option ℝ)) (arg : ℕ → List (Option ℝ)) :
    ∀ (l : List ℕ) (r : ℕ → Res), l.Nodup → (∀ j ∈ l, r j = Res.nan) → ∀ j,
      (l.foldl (fun r j => match mkTest E cfg (arg j) W with
        | some v => Function.update r j v
        | none => r) r) j = if j ∈ l then (mkTest E cfg (arg j) W).getD Res.nan else r j := by
  intro l
  induction l with
  | nil => intro r _ _ j; simp
  | cons a l ih =>
    intro r hnd hr j
    rw [List.nodup_cons] at hnd
    rw [List.foldl_cons]
    by_cases hja : j = a
    · subst hja
      rw [ih _ hnd.2, if_neg hnd.1, if_pos List.mem_cons_self]
      · cases mkTest E cfg (arg j) W with
        | none => simpa using hr j List.mem_cons_self
        | some v => simp
      · intro i hi
        have : i ≠ j := fun h => hnd.1 (h ▸ hi)
        cases mkTest E cfg (arg j) W with
        | none => exact hr i (List.mem_cons_of_mem _ hi)
        | some v => simp only; rw [Function.update_of_ne this]; exact hr i (List.mem_cons_of_mem _ hi)
    · rw [ih _ hnd.2]
      · by_cases hjl : j ∈ l
        · rw [if_pos hjl, if_pos (List.mem_cons_of_mem _ hjl)]
        · rw [if_neg hjl, if_neg (by simp [hja, hjl])]
          cases mkTest E cfg (arg a) W with
          | none => rfl
          | some v => simp only; rw [Function.update_of_ne hja]
      · intro i hi
        have : i ≠ a := fun h => hnd.1 (h ▸ hi)
        cases mkTest E cfg (arg a) W with
        | none => exact hr i (List.mem_cons_of_mem _ hi)
        | some v => simp only; rw [Function.update_of_ne this]; exact hr i (List.mem_cons_of_mem _ hi)

theorem vectorizedMk_ok (E : Env) (cfg : Cfg) (hc : Covered cfg) {n m : ℕ} (data : ℕ → List (Option ℝ))
    (hd : ∀ j, j < m → (data j).length = n) (W : ℕ → ℝ) :
    (vectorizedMk E cfg n m data W = none ∧ ∃ j, j < m ∧ Complete (data j) ∧ mkTest E cfg (data j) W = none) ∨
    (∃ r, vectorizedMk E cfg n m data W = some r ∧ ∀ j, j < m → r j = point E cfg W (data j) ∧
      (Complete (data j) → (mkTest E cfg (data j) W).isSome)) := by
  unfold vectorizedMk
  simp only
  set valid := (List.range m).filter fun j => decide (3 ≤ (data j).reduceOption.length) with hvalid
  set noNan := valid.filter fun j => decide ((data j).reduceOption.length = n) with hnoNan
  set nanIdx := valid.filter fun j => decide ((data j).reduceOption.length ≠ n) with hnanIdx
  have mem_valid : ∀ j, j ∈ valid ↔ j < m ∧ 3 ≤ (data j).reduceOption.length := by
    intro j; simp [hvalid]
  have mem_noNan : ∀ j, j ∈ noNan ↔ (j < m ∧ 3 ≤ (data j).reduceOption.length) ∧ (data j).reduceOption.length = n := by
    intro j; rw [hnoNan, List.mem_filter, mem_valid]; simp
  have mem_nan : ∀ j, j ∈ nanIdx ↔ (j < m ∧ 3 ≤ (data j).reduceOption.length) ∧ (data j).reduceOption.length ≠ n := by
    intro j; rw [hnanIdx, List.mem_filter, mem_valid]; simp
  have ndv : valid.Nodup := List.Nodup.filter _ List.nodup_range
  have ndn : noNan.Nodup := List.Nodup.filter _ ndv
  have ndx : nanIdx.Nodup := List.Nodup.filter _ ndv
  have hshort : ∀ j, (data j).reduceOption.length < 3 → point E cfg W (data j) = Res.nan := by
    intro j hj
    unfold point
    rw [mkPlain_short]
    · rfl
    · unfold seen
      split_ifs
      · rwa [reduceOption_map_some]
      · exact hj
  have hcomp : ∀ j, j < m → Complete (data j) → j ∈ noNan := by
    rintro j hj ⟨h1, h2⟩
    have := hd j hj
    exact (mem_noNan j).mpr ⟨⟨hj, by omega⟩, by omega⟩
  by_cases hv : valid = []
  · rw [if_pos hv]
    refine Or.inr ⟨_, rfl, fun j hj => ⟨?_, fun hx => ?_⟩⟩
    · rw [hshort]
      by_contra h
      have : j ∈ valid := (mem_valid j).mpr ⟨hj, by omega⟩
      rw [hv] at this; simp at this
    · have := hcomp j hj hx
      rw [hnoNan, hv] at this; simp at this
  · rw [if_neg hv]
    have harg : ∀ j, j ∈ nanIdx → (mkTest E cfg (if cfg.test = .seasonal then data j else (data j).reduceOption.map some) W).getD Res.nan
        = point E cfg W (data j) := by
      intro j _
      unfold point seen
      by_cases h1 : cfg.test = .seasonal
      · rw [if_pos h1, if_neg (by rw [h1]; simp)]
      · rw [if_neg h1]
        by_cases h2 : cfg.test = .correlatedSeasonal
        · rw [if_pos h2]
        · rw [if_neg h2, mkTest_plain_squeeze E cfg ⟨h1, h2⟩]
    have finish : ∀ res : ℕ → Res, (∀ j, j ∈ noNan → res j = point E cfg W (data j)) → (∀ j, j ∉ noNan → res j = Res.nan) →
        ∀ j, j < m → (nanIdx.foldl (fun r j =>
          match mkTest E cfg (if cfg.test = .seasonal then data j else (data j).reduceOption.map some) W with
          | some v => Function.update r j v
          | none => r) res) j = point E cfg W (data j) := by
      intro res h1 h2 j hj
      rw [foldl_nan E cfg W data (fun j => if cfg.test = .seasonal then data j else (data j).reduceOption.map some) nanIdx res ndx]
      · by_cases hx : j ∈ nanIdx
        · rw [if_pos hx]; exact harg j hx
        · rw [if_neg hx]
          by_cases hy : j ∈ noNan
          · exact h1 j hy
          · rw [h2 j hy, hshort]
            by_contra h
            have h3 : ¬ (data j).reduceOption.length < 3 := h
            by_cases h4 : (data j).reduceOption.length = n
            · exact hy ((mem_noNan j).mpr ⟨⟨hj, by omega⟩, h4⟩)
            · exact hx ((mem_nan j).mpr ⟨⟨hj, by omega⟩, h4⟩)
      · intro i hi
        apply h2
        intro h'
        exact ((mem_nan i).mp hi).2 ((mem_noNan i).mp h').2
    by_cases he : noNan = []
    · simp only [he, if_true, Option.bind_eq_bind, Option.bind_some]
      refine Or.inr ⟨_, rfl, fun j hj => ⟨?_, fun hx => ?_⟩⟩
      · exact finish (fun _ => Res.nan) (fun j hj => by rw [he] at hj; simp at hj) (fun _ _ => rfl) j hj
      · have := hcomp j hj hx
        rw [he] at this; simp at this
    · simp only [he, if_false]
      have hpos : 0 < noNan.length := List.length_pos_iff.mpr he
      have hget : ∀ k, (hk : k < noNan.length) → noNan.getD k 0 = noNan[k] := fun k hk => List.getD_eq_getElem _ _ hk
      have hmemk : ∀ k, k < noNan.length → noNan.getD k 0 ∈ noNan := fun k hk => by rw [hget k hk]; exact List.getElem_mem hk
      have hn3 : 3 ≤ n := by
        obtain ⟨⟨-, h1⟩, h2⟩ := (mem_noNan _).mp (hmemk 0 hpos)
        omega
      have hclean : ∀ j, j ∈ noNan → (data j).reduceOption.map some = data j := by
        intro j hj
        obtain ⟨⟨h1, h2⟩, h3⟩ := (mem_noNan _).mp hj
        apply map_some_reduceOption; rw [h3, hd j h1]
      have hpoint : ∀ j, j ∈ noNan → point E cfg W (data j) = (mkTest E cfg (data j) W).getD Res.nan := by
        intro j hj
        unfold point seen
        split_ifs
        · rw [hclean j hj]
        · rfl
      rcases batch_ok E cfg hc hn3 hpos (fun k => (data (noNan.getD k 0)).reduceOption)
        (fun k hk => ((mem_noNan _).mp (hmemk k hk)).2) W with ⟨st, est, h⟩ | ⟨est, h⟩
      · simp only [est, Option.bind_eq_bind, Option.bind_some]
        refine Or.inr ⟨_, rfl, fun j hj => ⟨?_, fun hx => ?_⟩⟩
        swap
        · have hmem := hcomp j hj hx
          obtain ⟨k, hk, rfl⟩ := List.getElem_of_mem hmem
          have := h k hk
          rw [hclean _ (hmemk k hk), hget k hk] at this
          rw [this]; rfl
        revert j
        apply finish
        · intro j hj
          obtain ⟨k, hk, rfl⟩ := List.getElem_of_mem hj
          rw [scatter_mem _ _ ndn _ hk, hpoint _ hj]
          have := h k hk
          rw [hclean _ (hmemk k hk), hget k hk] at this
          rw [this]; rfl
        · intro j hj
          exact scatter_notMem _ _ _ hj
      · simp only [est, Option.bind_eq_bind, Option.bind_none]
        left
        refine ⟨trivial, noNan.getD 0 0, ?_⟩
        have h0 := (mem_noNan _).mp (hmemk 0 hpos)
        have := h 0 hpos
        rw [hclean _ (hmemk 0 hpos)] at this
        exact ⟨h0.1.1, ⟨by rw [hd _ h0.1.1]; exact hn3, by rw [h0.2, hd _ h0.1.1]⟩, this⟩

theorem chunkLoop_ok (E : Env) (cfg : Cfg) (hc : Covered cfg) {n nPoints chunk : ℕ} (hk : 0 < chunk)
    (data : ℕ → List (Option ℝ)) (hd : ∀ j, j < nPoints → (data j).length = n) (W : ℕ → ℝ) :
    (chunkLoop E cfg n nPoints chunk data W = none ∧
      ∃ j, j < nPoints ∧ Complete (data j) ∧ mkTest E cfg (data j) W = none) ∨
    (∃ r, chunkLoop E cfg n nPoints chunk data W = some r ∧ ∀ j, j < nPoints → r j = point E cfg W (data j) ∧
      (Complete (data j) → (mkTest E cfg (data j) W).isSome)) := by
  by_cases hbad : ∃ j, j < nPoints ∧ Complete (data j) ∧ mkTest E cfg (data j) W = none
  swap
  · right
    unfold chunkLoop
    rw [if_neg hk.ne']
    obtain ⟨r, er, hr⟩ := foldlM_range_inv (n := (nPoints + chunk - 1) / chunk) (s := fun (_ : ℕ) => Res.nan)
      (f := fun (flat : ℕ → Res) c => do
        let start := c * chunk
        let stop := min (start + chunk) nPoints
        let r ← vectorizedMk E cfg n (stop - start) (fun j => data (start + j)) W
        return fun k => if start ≤ k ∧ k < stop then r (k - start) else flat k)
      (fun c flat => ∀ j, j < nPoints → j < c * chunk → flat j = point E cfg W (data j) ∧
        (Complete (data j) → (mkTest E cfg (data j) W).isSome))
      (by intro j _ h; omega)
      (by
        intro c hcn flat hflat
        rcases vectorizedMk_ok E cfg hc (m := min (c * chunk + chunk) nPoints - c * chunk) (fun j => data (c * chunk + j))
          (fun j hj => hd _ (by omega)) W with ⟨-, j, hj, hcpl, hnone⟩ | ⟨r, er, hr⟩
        · exact absurd ⟨c * chunk + j, by omega, hcpl, hnone⟩ hbad
        · refine ⟨_, by simp only [er, Option.bind_eq_bind, Option.bind_some]; rfl, ?_⟩
          intro j hj hj2
          rw [add_mul, one_mul] at hj2
          split_ifs with h
          · have := hr (j - c * chunk) (by omega)
            rwa [show c * chunk + (j - c * chunk) = j by omega] at this
          · exact hflat j hj (by omega))
    refine ⟨r, er, fun j hj => hr j hj ?_⟩
    have : nPoints ≤ (nPoints + chunk - 1) / chunk * chunk := (seasonRows_le hk).mp le_rfl
    omega
  · -- some complete column raises: either the loop stops there, or its results hold anyway
    by_cases hnone : chunkLoop E cfg n nPoints chunk data W = none
    · exact Or.inl ⟨hnone, hbad⟩
    · right
      unfold chunkLoop at hnone ⊢
      rw [if_neg hk.ne'] at hnone ⊢
      have key : ∀ c, c ≤ (nPoints + chunk - 1) / chunk → ∀ flat,
          (List.range c).foldlM (fun (flat : ℕ → Res) c => do
            let start := c * chunk
            let stop := min (start + chunk) nPoints
            let r ← vectorizedMk E cfg n (stop - start) (fun j => data (start + j)) W
            return fun k => if start ≤ k ∧ k < stop then r (k - start) else flat k) (fun (_ : ℕ) => Res.nan) = some flat →
          ∀ j, j < nPoints → j < c * chunk → flat j = point E cfg W (data j) ∧
        (Complete (data j) → (mkTest E cfg (data j) W).isSome) := by
        intro c
        induction c with
        | zero => intro _ flat _ j _ h; omega
        | succ c ih =>
          intro hcn flat hf j hj hj2
          rw [List.range_succ, List.foldlM_append] at hf
          cases hprev : (List.range c).foldlM (fun (flat : ℕ → Res) c => do
            let start := c * chunk
            let stop := min (start + chunk) nPoints
            let r ← vectorizedMk E cfg n (stop - start) (fun j => data (start + j)) W
            return fun k => if start ≤ k ∧ k < stop then r (k - start) else flat k) (fun (_ : ℕ) => Res.nan) with
          | none => rw [hprev] at hf; simp at hf
          | some prev =>
            rw [hprev] at hf
            simp only [List.foldlM_cons, List.foldlM_nil, Option.bind_eq_bind, Option.bind_some] at hf
            rcases vectorizedMk_ok E cfg hc (m := min (c * chunk + chunk) nPoints - c * chunk) (fun j => data (c * chunk + j))
              (fun j hj => hd _ (by omega)) W with ⟨hx, -⟩ | ⟨r, er, hr⟩
            · rw [hx] at hf; simp at hf
            · rw [er] at hf
              simp only [Option.bind_some, Option.pure_def, Option.some.injEq] at hf
              rw [← hf]
              rw [add_mul, one_mul] at hj2
              simp only
              split_ifs with h
              · have := hr (j - c * chunk) (by omega)
                rwa [show c * chunk + (j - c * chunk) = j by omega] at this
              · exact ih (by omega) prev hprev j hj (by omega)
      cases hfin : (List.range ((nPoints + chunk - 1) / chunk)).foldlM (fun (flat : ℕ → Res) c => do
            let start := c * chunk
            let stop := min (start + chunk) nPoints
            let r ← vectorizedMk E cfg n (stop - start) (fun j => data (start + j)) W
            return fun k => if start ≤ k ∧ k < stop then r (k - start) else flat k) (fun (_ : ℕ) => Res.nan) with
      | none => exact absurd hfin hnone
      | some r =>
        refine ⟨r, rfl, fun j hj => key _ le_rfl r hfin j hj ?_⟩
        have : nPoints ≤ (nPoints + chunk - 1) / chunk * chunk := (seasonRows_le hk).mp le_rfl
        omega

end Skyborn.MK.Py
