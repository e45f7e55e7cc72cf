import Verif.Trop.Layout

namespace Skyborn.Trop

/-! #### The columns depend only on the levels -/

theorem rd_congr {α : Type} {n : ℕ} {a b : ℕ → α} (h : ∀ k, 1 ≤ k → k ≤ n → a k = b k) : rd n a = rd n b := by
  funext k
  unfold rd
  split
  · rename_i hk; rw [h k hk.1 hk.2]
  · rfl

theorem findLoop_congr {n m : ℕ} {p t t' : ℕ → ℝ} (ht : rd n t = rd n t') (w : Work) (tmsg c : ℝ) (i : ℕ) (s : Find) :
    findLoop n m p t w tmsg c i s = findLoop n m p t' w tmsg c i s := by
  induction i generalizing s with
  | zero => rfl
  | succ i ih =>
    simp only [findLoop, ht]
    congr 1
    funext g
    congr 1
    funext pf
    congr 1
    funext s'
    exact ih s'

theorem profile1d_congr {n m : ℕ} {P P' T T' : ℕ → ℝ} (hP : ∀ k, 1 ≤ k → k ≤ n → P k = P' k) (hT : ∀ k, 1 ≤ k → k ≤ n → T k = T' k)
    (tmsg c : ℝ) (punit : ℕ) (w : Work) : profile1d n m P T tmsg c punit w = profile1d n m P' T' tmsg c punit w := by
  have h1 := rd_congr hP
  have h2 := rd_congr hT
  unfold profile1d validBoth stattropx dstattrop lapseLoop
  simp only [h1, h2, findLoop_congr h2]

theorem colCell_congr {n : ℕ} {P P' T T' : ℕ → ℝ} (hP : ∀ k, 1 ≤ k → k ≤ n → P k = P' k) (hT : ∀ k, 1 ≤ k → k ≤ n → T k = T' k)
    (tmsg c : ℝ) (punit : ℕ) : colCell n P T tmsg c punit = colCell n P' T' tmsg c punit := by
  unfold colCell; rw [profile1d_congr hP hT]

/-! #### The kernels -/

theorem backend_spec {p t : NDArr ℝ} {dims : List ℕ} {sz : ℕ → ℕ} {val : (ℕ → ℕ) → ℝ} (h : Lay dims t sz val) (hd : dims.Nodup)
    {n lv m : ℕ} (hn : dims.length = n) (hn' : n = 2 ∨ n = 3 ∨ n = 4) (hl : dims[levPos n]? = some lv) (hm : sz lv = m)
    (hp : p.shape = [m]) (tmsg c : ℝ) (punit : ℕ) (s : Scratch) (out0 : ℕ → ℕ → ℕ → Cell) :
    ∃ out, backend p t tmsg c punit (m + 1) s out0 = .ok out ∧
      Lay (dims.eraseIdx (levPos n)) out sz
        (fun f => colCell m (fun k => p.get [k - 1]) (fun k => val (Function.update f lv (k - 1))) tmsg c punit) := by
  subst hm
  rcases hn' with rfl | rfl | rfl
  · match dims, hn with
    | [a, l], _ =>
      have : l = lv := by simpa [levPos] using hl
      subst this
      have hne : a ≠ l := by simpa using hd
      have hsh : t.shape = [sz a, sz l] := h.1
      obtain ⟨r, e, hr⟩ := grid2d_spec (sz a) (sz l) (fun k => p.get [k - 1]) (fun i k => t.get [i - 1, k - 1]) tmsg c punit s
      refine ⟨⟨[sz a], fun idx => r.1 (idx.getD 0 0 + 1)⟩, ?_, rfl, fun f hf => ?_⟩
      · unfold backend
        rw [hsh]
        dsimp only
        rw [if_neg (by simp [hp]), e]
        rfl
      · have hfa : f a < sz a := hf a (by simp [levPos])
        have e1 : (⟨[sz a], fun idx => r.1 (idx.getD 0 0 + 1)⟩ : NDArr Cell).get (([a, l].eraseIdx (levPos 2)).map f) = r.1 (f a + 1) := by
          simp [levPos]
        rw [e1, hr _ (by omega) (by omega)]
        apply colCell_congr (fun _ _ _ => rfl)
        intro k h1 h2
        have := h.2 (Function.update f l (k - 1)) (by
          intro d hd'
          simp only [List.mem_cons, List.not_mem_nil, or_false] at hd'
          rcases hd' with rfl | rfl
          · rw [Function.update_of_ne hne]; exact hfa
          · rw [Function.update_self]; omega)
        rw [← this]
        simp [hne]
  · match dims, hn with
    | [a, b, l], _ =>
      have : l = lv := by simpa [levPos] using hl
      subst this
      have hne : a ≠ l ∧ b ≠ l := by simp at hd; tauto
      have hsh : t.shape = [sz a, sz b, sz l] := h.1
      obtain ⟨r, e, hr⟩ := grid3d_spec (sz a) (sz b) (sz l) (fun k => p.get [k - 1]) (fun i j k => t.get [i - 1, j - 1, k - 1]) tmsg c punit s
      refine ⟨⟨[sz a, sz b], fun idx => r.1 (idx.getD 0 0 + 1) (idx.getD 1 0 + 1)⟩, ?_, rfl, fun f hf => ?_⟩
      · unfold backend
        rw [hsh]
        dsimp only
        rw [if_neg (by simp [hp]), e]
        rfl
      · have hfa : f a < sz a := hf a (by simp [levPos])
        have hfb : f b < sz b := hf b (by simp [levPos])
        have e1 : (⟨[sz a, sz b], fun idx => r.1 (idx.getD 0 0 + 1) (idx.getD 1 0 + 1)⟩ : NDArr Cell).get
            (([a, b, l].eraseIdx (levPos 3)).map f) = r.1 (f a + 1) (f b + 1) := by
          simp [levPos]
        rw [e1, hr _ _ (by omega) (by omega) (by omega) (by omega)]
        apply colCell_congr (fun _ _ _ => rfl)
        intro k h1 h2
        have := h.2 (Function.update f l (k - 1)) (by
          intro d hd'
          simp only [List.mem_cons, List.not_mem_nil, or_false] at hd'
          rcases hd' with rfl | rfl | rfl
          · rw [Function.update_of_ne hne.1]; exact hfa
          · rw [Function.update_of_ne hne.2]; exact hfb
          · rw [Function.update_self]; omega)
        rw [← this]
        simp [hne.1, hne.2]
  · match dims, hn with
    | [a, b, l, q], _ =>
      have : l = lv := by simpa [levPos] using hl
      subst this
      have hne : a ≠ l ∧ b ≠ l ∧ q ≠ l := by simp at hd; refine ⟨by tauto, by tauto, by tauto⟩
      have hsh : t.shape = [sz a, sz b, sz l, sz q] := h.1
      obtain ⟨r, e, hr⟩ := grid4d_spec (sz a) (sz b) (sz l) (sz q) (fun k => p.get [k - 1])
        (fun i j k tt => t.get [i - 1, j - 1, k - 1, tt - 1]) tmsg c punit s out0
      refine ⟨⟨[sz a, sz b, sz q], fun idx => r (idx.getD 0 0 + 1) (idx.getD 1 0 + 1) (idx.getD 2 0 + 1)⟩, ?_, rfl, fun f hf => ?_⟩
      · unfold backend
        rw [hsh]
        dsimp only
        rw [if_neg (by simp [hp]), e]
        rfl
      · have hfa : f a < sz a := hf a (by simp [levPos])
        have hfb : f b < sz b := hf b (by simp [levPos])
        have hfq : f q < sz q := hf q (by simp [levPos])
        have e1 : (⟨[sz a, sz b, sz q], fun idx => r (idx.getD 0 0 + 1) (idx.getD 1 0 + 1) (idx.getD 2 0 + 1)⟩ : NDArr Cell).get
            (([a, b, l, q].eraseIdx (levPos 4)).map f) = r (f a + 1) (f b + 1) (f q + 1) := by
          simp [levPos]
        rw [e1, hr _ _ _ (by omega) (by omega) (by omega) (by omega) (by omega) (by omega)]
        apply colCell_congr (fun _ _ _ => rfl)
        intro k h1 h2
        have := h.2 (Function.update f l (k - 1)) (by
          intro d hd'
          simp only [List.mem_cons, List.not_mem_nil, or_false] at hd'
          rcases hd' with rfl | rfl | rfl | rfl
          · rw [Function.update_of_ne hne.1]; exact hfa
          · rw [Function.update_of_ne hne.2.1]; exact hfb
          · rw [Function.update_self]; omega
          · rw [Function.update_of_ne hne.2.2]; exact hfq)
        rw [← this]
        simp [hne.1, hne.2.1, hne.2.2]

/-! #### The order of the levels -/

/-- `σ` is the order in which the levels `0 .. m-1` with pressures `p` are processed: every level once; by increasing pressure when
the order is checked; as given when it is not checked or already non-decreasing. -/
structure LevelOrder (check : Bool) (m : ℕ) (p : ℕ → ℝ) (σ : ℕ → ℕ) : Prop where
  lt : ∀ k, k < m → σ k < m
  inj : ∀ j k, j < m → k < m → σ j = σ k → j = k
  sorted : check = true → ∀ j k, j < k → k < m → p (σ j) ≤ p (σ k)
  same : (check = false ∨ ∀ j k, j < k → k < m → p j ≤ p k) → ∀ k, k < m → σ k = k

/-- The level order used by the code (core.py:333-357). -/
noncomputable def levelOrder (check : Bool) (m : ℕ) (p : ℕ → ℝ) (k : ℕ) : ℕ :=
  if check = true ∧ ((List.range (m - 1)).all fun k => decide (p k ≤ p (k + 1))) = false then (argsort m p).getD k 0 else k

theorem argsort_perm {κ : Type} [LinearOrder κ] (n : ℕ) (key : ℕ → κ) : (argsort n key).Perm (List.range n) :=
  List.perm_insertionSort _ _

theorem argsort_sorted {κ : Type} [LinearOrder κ] (n : ℕ) (key : ℕ → κ) : (argsort n key).Pairwise (fun i j => key i ≤ key j) := by
  haveI : Std.Total (fun i j : ℕ => key i ≤ key j) := ⟨fun i j => le_total _ _⟩
  haveI : IsTrans ℕ (fun i j : ℕ => key i ≤ key j) := ⟨fun i j k => le_trans⟩
  exact List.pairwise_insertionSort _ _

theorem mono_of_step {m : ℕ} {p : ℕ → ℝ} (h : ∀ k, k + 1 < m → p k ≤ p (k + 1)) : ∀ j k, j ≤ k → k < m → p j ≤ p k := by
  intro j k hjk
  induction k, hjk using Nat.le_induction with
  | base => intro _; exact le_rfl
  | succ k hk ih => intro hm; exact (ih (by omega)).trans (h k hm)

theorem sortLevels_spec (check : Bool) {p t : NDArr ℝ} {dims : List ℕ} {sz : ℕ → ℕ} {val : (ℕ → ℕ) → ℝ} (h : Lay dims t sz val)
    (hd : dims.Nodup) {n lv m : ℕ} (hn : dims.length = n) (hl : dims[levPos n]? = some lv) (hm : sz lv = m) (hp : p.shape = [m]) :
    ∃ σ : ℕ → ℕ, σ = levelOrder check m (fun k => p.get [k]) ∧ LevelOrder check m (fun k => p.get [k]) σ ∧ (sortLevels check p t).1.shape = [m] ∧
      (∀ k, k < m → (sortLevels check p t).1.get [k] = p.get [σ k]) ∧
      Lay dims (sortLevels check p t).2 sz (fun f => val (Function.update f lv (σ (f lv)))) := by
  have hh : p.shape.headD 0 = m := by rw [hp]; rfl
  obtain ⟨hlp, hlv⟩ := List.getElem?_eq_some_iff.mp hl
  by_cases hc : check = true ∧ ((List.range (m - 1)).all fun k => decide (p.get [k] ≤ p.get [k + 1])) = false
  · have e : sortLevels check p t = (takeAxis p (argsort m (fun k => p.get [k])) 0,
        takeAxis t (argsort m (fun k => p.get [k])) (levPos n)) := by
      unfold sortLevels
      simp only [hh]
      rw [if_pos hc]
      congr 2
      have : t.shape.length = n := by rw [h.1, List.length_map, hn]
      rw [this]; rfl
    have hperm := argsort_perm m (fun k => p.get [k])
    have hsort := argsort_sorted m (fun k => p.get [k])
    have hlo : levelOrder check m (fun k => p.get [k]) = fun k => (argsort m (fun k => p.get [k])).getD k 0 := by
      funext k
      unfold levelOrder
      rw [if_pos hc]
    generalize argsort m (fun k => p.get [k]) = sel at *
    have hlen : sel.length = m := by rw [hperm.length_eq, List.length_range]
    have hnd : sel.Nodup := hperm.nodup_iff.mpr List.nodup_range
    have hget : ∀ k (hk : k < m), sel.getD k 0 = sel[k]'(by omega) := fun k hk => List.getD_eq_getElem _ _ _
    have hslt : ∀ k, k < m → sel.getD k 0 < m := by
      intro k hk
      rw [hget k hk]
      exact List.mem_range.mp (hperm.mem_iff.mp (List.getElem_mem _))
    refine ⟨fun k => sel.getD k 0, hlo.symm, ⟨hslt, ?_, ?_, ?_⟩, ?_, ?_, ?_⟩
    · intro j k hj hk hjk
      beta_reduce at hjk
      rw [hget j hj, hget k hk] at hjk
      exact (hnd.getElem_inj_iff).mp hjk
    · intro _ j k hjk hk
      beta_reduce
      rw [hget j (by omega), hget k hk]
      exact List.pairwise_iff_getElem.mp hsort j k _ _ hjk
    · rintro (h0 | h0)
      · rw [h0] at hc; exact absurd hc.1 (by simp)
      · exfalso
        have hall : ((List.range (m - 1)).all fun k => decide (p.get [k] ≤ p.get [k + 1])) = true := by
          rw [List.all_eq_true]
          intro k hk
          rw [List.mem_range] at hk
          exact decide_eq_true (h0 k (k + 1) (by omega) (by omega))
        rw [hall] at hc; exact absurd hc.2 (by simp)
    · rw [e]; simp [takeAxis, hp, hlen]
    · intro k hk
      rw [e]
      simp [takeAxis]
    · rw [e]
      refine ⟨?_, fun f hf => ?_⟩
      · simp only [takeAxis, hlen, h.1]
        apply List.ext_getElem (by simp)
        intro i h1 h2
        rw [List.getElem_set]
        split
        · rename_i hi; subst hi; rw [List.getElem_map, hlv, hm]
        · rfl
      · have hfl : f lv < m := by rw [← hm]; exact hf lv (hlv ▸ List.getElem_mem hlp)
        beta_reduce
        rw [← h.2 (Function.update f lv (sel.getD (f lv) 0)) (by
          intro d hd'
          by_cases hdl : d = lv
          · subst hdl; rw [Function.update_self, hm]; exact hslt _ hfl
          · rw [Function.update_of_ne hdl]; exact hf d hd')]
        simp only [takeAxis]
        congr 1
        have hg : (dims.map f).getD (levPos n) 0 = f lv := by
          rw [List.getD_eq_getElem _ _ (by simpa using hlp), List.getElem_map, hlv]
        rw [hg]
        apply List.ext_getElem (by simp)
        intro i h1 h2
        rw [List.getElem_set]
        split
        · rename_i hi; subst hi; rw [List.getElem_map, hlv, Function.update_self]
        · rename_i hi
          rw [List.getElem_map, List.getElem_map, Function.update_of_ne]
          intro hc'
          exact hi ((hd.getElem_inj_iff).mp (hlv.trans hc'.symm))
  · have e : sortLevels check p t = (p, t) := by
      unfold sortLevels
      simp only [hh]
      rw [if_neg hc]
    rw [e]
    refine ⟨id, by funext k; unfold levelOrder; rw [if_neg hc]; rfl, ⟨fun _ h => h, fun _ _ _ _ h => h, ?_, fun _ _ _ => rfl⟩, hp, fun _ _ => rfl, ?_⟩
    · intro hck
      have hall : ((List.range (m - 1)).all fun k => decide (p.get [k] ≤ p.get [k + 1])) = true := by
        by_contra h0; exact hc ⟨hck, by simpa using h0⟩
      rw [List.all_eq_true] at hall
      intro j k hjk hk
      refine mono_of_step (m := m) (p := fun k => p.get [k]) (fun k hk => ?_) j k hjk.le hk
      have := hall k (List.mem_range.mpr (by omega))
      exact of_decide_eq_true this
    · exact h.congr (fun _ _ => rfl) (fun f _ => by simp)

/-! #### `trop_wmo` column by column -/

theorem checks_ok {n m : ℕ} {xdim ydim levdim : ℤ} {timedim : Option ℤ} (h : Layout n xdim ydim levdim timedim) (hm : 0 < m) :
    checks n m m xdim ydim levdim timedim = .ok () := by
  obtain ⟨hlev, ⟨bx, by', bl, bt⟩, ⟨dx, dyl, dyt, dlt⟩, hsh⟩ := h
  unfold checks
  rw [if_neg (by omega), if_neg (by omega)]
  dsimp only
  generalize timedim.getD (-1) = td at *
  rw [if_neg, if_neg, if_neg]
  · omega
  · rw [not_not]
    by_cases hx : 0 ≤ xdim <;> by_cases hy : 0 ≤ ydim <;> by_cases ht : 0 ≤ td <;>
      simp [hx, hy, ht, hlev] <;> omega
  · rintro ⟨d, hd, hd'⟩
    rw [List.mem_filter] at hd
    simp only [List.mem_cons, List.not_mem_nil, or_false] at hd
    omega

theorem insert_map {n lv : ℕ} (hlv : lv < n) (f : ℕ → ℕ) (j : ℕ) :
    (((List.range n).filter (fun d => d ≠ lv)).map f).insertIdx lv j = (List.range n).map (Function.update f lv j) := by
  have e : (List.range n).filter (fun d => d ≠ lv) = (List.range n).eraseIdx lv := by
    rw [← List.erase_eq_eraseIdx_of_idxOf (idxOf_range hlv), List.nodup_range.erase_eq_filter]
    apply List.filter_congr; intro d _
    by_cases h : d = lv <;> simp [h]
  rw [e]
  apply List.ext_getElem
  · rw [List.length_insertIdx, List.length_map, List.length_eraseIdx, List.length_map, List.length_range, if_pos hlv, if_pos (by omega)]
    omega
  · intro i h1 h2
    rw [List.getElem_insertIdx, List.getElem_map, List.getElem_range]
    have hi : i < n := by simpa using h2
    split
    · rw [List.getElem_map, List.getElem_eraseIdx, dif_pos (by omega), List.getElem_range, Function.update_of_ne (by omega)]
    · split
      · rename_i h; subst h; rw [Function.update_self]
      · rw [List.getElem_map, List.getElem_eraseIdx, dif_neg (by omega), List.getElem_range, Function.update_of_ne (by omega)]
        congr 1; omega

theorem filter_eraseIdx {n lv : ℕ} (hlv : lv < n) : (List.range n).filter (fun d => d ≠ lv) = (List.range n).eraseIdx lv := by
  rw [← List.erase_eq_eraseIdx_of_idxOf (idxOf_range hlv), List.nodup_range.erase_eq_filter]
  apply List.filter_congr; intro d _
  by_cases h : d = lv <;> simp [h]

theorem erase_two {perm : List ℕ} {lv : ℕ} (hlen : perm.length = 2) (hperm : perm.Perm (List.range 2))
    (hl : perm[levPos 2]? = some lv) : perm.eraseIdx (levPos 2) = (List.range 2).filter (fun d => d ≠ lv) := by
  match perm, hlen with
  | [a, b], _ =>
    have hb : b = lv := by simpa [levPos] using hl
    rw [← hb]
    have ha2 : a < 2 := List.mem_range.mp (hperm.mem_iff.mp (by simp))
    have hb2 : b < 2 := List.mem_range.mp (hperm.mem_iff.mp (by simp))
    have hab : a ≠ b := by
      have : [a, b].Nodup := hperm.nodup_iff.mpr List.nodup_range
      simpa using this
    rcases (by omega : (a = 0 ∧ b = 1) ∨ (a = 1 ∧ b = 0)) with ⟨rfl, rfl⟩ | ⟨rfl, rfl⟩ <;> rfl

theorem tropWmo_columns {n m : ℕ} {temperature pressure : NDArr (Option ℝ)} {xdim ydim levdim : ℤ} {timedim : Option ℤ}
    (hn : temperature.shape.length = n) (hlay : Layout n xdim ydim levdim timedim) (hp : pressure.shape = [m]) (hm0 : 0 < m)
    (hm : temperature.shape.getD levdim.toNat 0 = m) (unit : String) (c missing : ℝ) (check : Bool) (s : Scratch)
    (out0 : ℕ → ℕ → ℕ → Cell) :
    ∃ σ out, σ = levelOrder check m (fun k => (pressure.get [k]).getD missing) ∧
      LevelOrder check m (fun k => (pressure.get [k]).getD missing) σ ∧
      tropWmo temperature pressure xdim ydim levdim timedim unit c missing check s out0 = .ok out ∧
      out.shape = temperature.shape.eraseIdx levdim.toNat ∧
      ∀ idx, InB out.shape idx → out.get idx = colCell m (fun k => (pressure.get [σ (k - 1)]).getD missing)
        (fun k => (temperature.get (idx.insertIdx levdim.toNat (σ (k - 1)))).getD missing) missing c (punitOf unit) := by
  obtain ⟨perm, eo, hperm, hl⟩ := newOrder_ok hlay
  have hlv : levdim.toNat < n := by have := hlay.bound.2.2.1; have := hlay.lev; omega
  have hlen : perm.length = n := by rw [hperm.length_eq, List.length_range]
  have hnd : perm.Nodup := hperm.nodup_iff.mpr List.nodup_range
  have h34 : n = 2 ∨ n = 3 ∨ n = 4 := by have := hlay.shape; omega
  -- the transposed field
  have L0 := lay_range (filled temperature missing)
  have hn' : (filled temperature missing).shape.length = n := hn
  rw [hn'] at L0
  have L1 := L0.transpose (q := perm) (by simpa using hperm)
  have em : perm.map (fun j => (List.range n).getD j 0) = perm := by
    conv_rhs => rw [← List.map_id perm]
    apply List.map_congr_left
    intro j hj
    have := List.mem_range.mp (hperm.mem_iff.mp hj)
    rw [List.getD_eq_getElem _ _ (by simpa using this), List.getElem_range, id]
  rw [em] at L1
  have hszlv : (fun d => (filled temperature missing).shape.getD d 0) levdim.toNat = m := hm
  obtain ⟨σ, hσe, hσ, e1, e2, L2⟩ := sortLevels_spec check (p := filled pressure missing) L1 hnd hlen hl hszlv hp
  obtain ⟨out, eb, L3⟩ := backend_spec (p := (sortLevels check (filled pressure missing) ((filled temperature missing).transpose perm)).1)
    L2 hnd hlen h34 hl hszlv e1 missing c (punitOf unit) s out0
  -- the whole function up to the last permutation
  have hshape : shapeAt temperature levdim = .ok m := by
    unfold shapeAt
    dsimp only
    rw [if_pos ⟨hlay.lev, by rw [hn]; exact hlay.bound.2.2.1⟩, hm]
  have hlen2 : (sortLevels check (filled pressure missing) ((filled temperature missing).transpose perm)).2.shape.length = n := by
    rw [L2.1, List.length_map, hlen]
  have hrun : tropWmo temperature pressure xdim ydim levdim timedim unit c missing check s out0 =
      if n = 2 then .ok out else .ok (out.transpose (restoreOrder ((List.range n).map perm.idxOf))) := by
    unfold tropWmo
    simp only [hshape, hn, show pressure.shape.headD 0 = m by rw [hp]; rfl, checks_ok hlay hm0, eo, checkAxes_ok hperm, inverse_eq hperm,
      bind, Except.bind, e1, List.headD_cons, eb, hlen2]
  -- final layout
  have L4 : ∃ out', tropWmo temperature pressure xdim ydim levdim timedim unit c missing check s out0 = .ok out' ∧
      Lay ((List.range n).filter (fun d => d ≠ levdim.toNat)) out' (fun d => (filled temperature missing).shape.getD d 0)
        (fun f => colCell m (fun k => (sortLevels check (filled pressure missing) ((filled temperature missing).transpose perm)).1.get [k - 1])
          (fun k => (filled temperature missing).get ((List.range n).map (Function.update f levdim.toNat (σ (k - 1)))))
            missing c (punitOf unit)) := by
    have hup : ∀ (f : ℕ → ℕ) (k : ℕ), Function.update (Function.update f levdim.toNat (k - 1)) levdim.toNat
        (σ (Function.update f levdim.toNat (k - 1) levdim.toNat)) = Function.update f levdim.toNat (σ (k - 1)) := by
      intro f k; simp
    simp only [hup] at L3
    rw [hrun]
    by_cases h2 : n = 2
    · rw [if_pos h2]
      refine ⟨out, rfl, ?_⟩
      subst h2
      rw [erase_two hlen hperm hl] at L3
      exact L3
    · rw [if_neg h2]
      refine ⟨_, rfl, ?_⟩
      have hlp : levPos n = 2 := by simp [levPos, h2]
      rw [hlp] at L3 hl
      obtain ⟨r1, r2⟩ := restore_eq hperm hl
      have hlt2 : 2 < perm.length := (List.getElem?_eq_some_iff.mp hl).1
      have := L3.transpose (q := restoreOrder ((List.range n).map perm.idxOf))
        (by rw [List.length_eraseIdx, if_pos hlt2, hlen]; exact r1)
      rw [r2] at this
      exact this
  obtain ⟨out', er, L⟩ := L4
  refine ⟨σ, out', hσe, hσ, er, ?_, fun idx hidx => ?_⟩
  · rw [L.1, filter_eraseIdx hlv, ← List.eraseIdx_map]
    congr 1
    have := L0.1
    exact this.symm
  · have hnd' : ((List.range n).filter (fun d => d ≠ levdim.toNat)).Nodup := List.nodup_range.filter _
    have hlidx : idx.length = ((List.range n).filter (fun d => d ≠ levdim.toNat)).length := by rw [hidx.length, L.1, List.length_map]
    have ex := exists_assign hnd' hlidx
    generalize hf : (fun d => idx.getD (((List.range n).filter (fun d => d ≠ levdim.toNat)).idxOf d) 0) = f at ex
    have hin : ∀ d ∈ (List.range n).filter (fun d => d ≠ levdim.toNat), f d < (filled temperature missing).shape.getD d 0 := by
      rw [← ex, L.1] at hidx
      exact inB_map.mp hidx
    rw [← ex, L.2 f hin]
    apply colCell_congr
    · intro k h1 h2
      rw [e2 (k - 1) (by omega)]
      rfl
    · intro k h1 h2
      rw [insert_map hlv]
      rfl

end Skyborn.Trop
