/-
C201-C205: the partial Mann-Kendall drivers.
-/
import Verif.MK.PartialPyGrid

namespace Skyborn.MK.Py

open Skyborn Skyborn.MK Finset Spec

variable (E : Env)

/-! ### C201: gridded = one test per grid point -/

/-- A covariate the gridded test accepts: one series for all points, or an array of the shape of the data. -/
def Spec.CovFits (data cov : NDArr (Option ℝ)) (ax : ℕ) : Prop :=
  cov.shape = [data.shape.getD ax 0] ∨ (cov.shape.length ≠ 1 ∧ cov.shape = data.shape)

/-- The covariate series that belongs to a grid point. -/
def Spec.covSeries (cov : NDArr (Option ℝ)) (ax : ℕ) (idx : List ℕ) : List (Option ℝ) :=
  if cov.shape.length = 1 then (List.range (cov.shape.headD 0)).map fun t => cov.get [t] else Spec.series cov ax idx

theorem resolveAxis_ok {nd : ℕ} {axis : ℤ} {ax : ℕ} (h : Spec.Denotes nd axis ax) : resolveAxis nd axis = some ax := by
  obtain ⟨h1, h2⟩ := h
  unfold resolveAxis
  rcases h2 with rfl | rfl
  · rw [if_pos (by omega)]; simp
  · rw [if_neg (by omega), if_pos (by omega)]; simp

theorem moved_reshape (a : NDArr (Option ℝ)) {n : ℕ} {sp : List ℕ} (h : a.shape = n :: sp) :
    a.reshape [n, sp.prod] = some ⟨[n, sp.prod], fun idx => a.get (unravel (n :: sp) (ravel [n, sp.prod] idx))⟩ := by
  unfold NDArr.reshape
  rw [if_pos (by rw [h]; simp), h]

theorem unravel_col {n t j : ℕ} {sp : List ℕ} (hj : j < sp.prod) : unravel (n :: sp) (ravel [n, sp.prod] [t, j]) = t :: unravel sp j := by
  simp only [ravel, unravel, List.prod_cons, List.prod_nil, mul_one, add_zero]
  have hp : 0 < sp.prod := by omega
  rw [Nat.mul_comm t, Nat.mul_add_div hp, Nat.div_eq_of_lt hj, add_zero, Nat.mul_add_mod, Nat.mod_eq_of_lt hj]

theorem broadcast_ok {data cov : NDArr (Option ℝ)} {ax : ℕ} (hc : Spec.CovFits data cov ax) :
    ∃ C, broadcastCovariate data cov ax = some (data.moveToFront ax, C) ∧ C.shape = data.shape.getD ax 0 :: data.shape.eraseIdx ax ∧
      ∀ idx, InB (data.shape.eraseIdx ax) idx →
        ((List.range (data.shape.getD ax 0)).map fun t => C.get (t :: idx)) = Spec.covSeries cov ax idx := by
  unfold broadcastCovariate Spec.covSeries
  dsimp only
  rcases hc with hc | ⟨h1, hc⟩
  · have hl : cov.shape.length = 1 := by rw [hc]; rfl
    rw [if_pos hl, if_neg (by rw [hc]; simp)]
    refine ⟨_, rfl, rfl, fun idx _ => ?_⟩
    rw [if_pos hl]
    rw [hc]; rfl
  · rw [if_neg h1, if_pos hc]
    refine ⟨_, rfl, by rw [← hc]; rfl, fun idx _ => ?_⟩
    rw [if_neg h1]
    unfold Spec.series
    rw [hc]
    rfl

theorem partialMultidim_ok (alpha : ℝ) (method : Method) (data cov : NDArr (Option ℝ)) (axis : ℤ) (ax : ℕ)
    (hax : Spec.Denotes data.shape.length axis ax) (hcov : Spec.CovFits data cov ax) (hrank : data.shape.length ≠ 1)
    (chunk : Option ℤ) (hck : ∀ c, chunk = some c → 0 < c) (W : ℕ → ℝ) :
    ∃ out, partialMultidim E alpha method data cov axis chunk W = some out ∧ out.shape = data.shape.eraseIdx ax ∧
      ∀ idx, InB (data.shape.eraseIdx ax) idx →
        out.get idx = pointP E alpha method (Spec.series data ax idx) (Spec.covSeries cov ax idx) := by
  unfold partialMultidim
  rw [resolveAxis_ok hax]
  obtain ⟨C, eC, hCs, hC⟩ := broadcast_ok hcov
  simp only [Option.bind_eq_bind, Option.bind_some, eC]
  set n := data.shape.getD ax 0 with hn
  set sp := data.shape.eraseIdx ax with hsp
  have hsp0 : sp ≠ [] := by
    intro h
    have := congrArg List.length h
    rw [hsp, List.length_eraseIdx, if_pos hax.1] at this
    have h1 := hax.1
    simp at this; omega
  have hmv : (data.moveToFront ax).shape = n :: sp := rfl
  simp only [hmv, List.headD_cons, List.tail_cons]
  rw [if_neg hsp0, moved_reshape _ hmv, moved_reshape C hCs]
  simp only [Option.bind_some]
  have hcpos : 0 < partialChunkSize chunk n sp.prod := by
    unfold partialChunkSize
    cases chunk with
    | none => simp only [Option.getD_none]; exact lt_of_lt_of_le (by norm_num) (le_max_left _ _)
    | some c => exact hck c rfl
  obtain ⟨g, eg, hg⟩ := partialFlat_ok E alpha method (n := n) (nPoints := sp.prod) hcpos
    (fun j => (List.range n).map fun t => (data.moveToFront ax).get (unravel (n :: sp) (ravel [n, sp.prod] [t, j])))
    (fun j => (List.range n).map fun t => C.get (unravel (n :: sp) (ravel [n, sp.prod] [t, j])))
    (fun j _ => by simp) W
  rw [eg]
  refine ⟨_, rfl, rfl, fun idx hidx => ?_⟩
  have hlt := ravel_lt hidx
  dsimp only
  rw [hg _ hlt]
  have e1 : ((List.range n).map fun t => (data.moveToFront ax).get (unravel (n :: sp) (ravel [n, sp.prod] [t, ravel sp idx]))) =
      Spec.series data ax idx := by
    unfold Spec.series
    refine List.map_congr_left fun t _ => ?_
    rw [unravel_col hlt, unravel_ravel hidx]; rfl
  have e2 : ((List.range n).map fun t => C.get (unravel (n :: sp) (ravel [n, sp.prod] [t, ravel sp idx]))) =
      Spec.covSeries cov ax idx := by
    rw [← hC idx hidx]
    refine List.map_congr_left fun t _ => ?_
    rw [unravel_col hlt, unravel_ravel hidx]
  rw [e1, e2]

theorem series_length (data : NDArr (Option ℝ)) (ax : ℕ) (idx : List ℕ) : (Spec.series data ax idx).length = data.shape.getD ax 0 := by
  simp [Spec.series]

theorem covSeries_length {data cov : NDArr (Option ℝ)} {ax : ℕ} (hc : Spec.CovFits data cov ax) (idx : List ℕ) :
    (Spec.covSeries cov ax idx).length = data.shape.getD ax 0 := by
  unfold Spec.covSeries
  rcases hc with hc | ⟨h1, hc⟩
  · rw [if_pos (by rw [hc]; rfl), hc]; simp
  · rw [if_neg h1, series_length, hc]

/-- C201, partial: on every grid (any rank, time axis, positive or default chunk size, covariate given once or per point, any
missing data) the gridded partial test returns the spatial shape and, at every point with at least three jointly valid
samples, exactly the record the 1-D test returns for that point's own series. At a point with fewer it returns NaNs and
`h = False` as the 1-D test does, but with `n = 0` and `n_dropped = T` (missing: those two counts; false, see
`C201_counts_false`). -/
theorem C201_grid_partial (alpha : ℝ) (method : Method) (data cov : NDArr (Option ℝ)) (axis : ℤ) (ax : ℕ)
    (hax : Spec.Denotes data.shape.length axis ax) (hcov : Spec.CovFits data cov ax) (hrank : data.shape.length ≠ 1)
    (chunk : Option ℤ) (hck : ∀ c, chunk = some c → 0 < c) (W : ℕ → ℝ) :
    ∃ out, partialMultidim E alpha method data cov axis chunk W = some out ∧ out.shape = data.shape.eraseIdx ax ∧
      ∀ idx, InB (data.shape.eraseIdx ax) idx →
        ∃ r, partialTest E alpha method (Spec.series data ax idx) (Spec.covSeries cov ax idx) = some r ∧
          (3 ≤ r.n → out.get idx = r) ∧
          (r.n < 3 → out.get idx = { r with n := 0, nDropped := data.shape.getD ax 0 } ∧
            r.trend = none ∧ r.h = false ∧ r.p = none ∧ r.z = .nan ∧ r.tau = none ∧ r.s = none ∧ r.varS = none ∧
            r.intercept = none ∧ r.stdError = none) := by
  obtain ⟨out, e, hs, ho⟩ := partialMultidim_ok E alpha method data cov axis ax hax hcov hrank chunk hck W
  refine ⟨out, e, hs, fun idx hidx => ⟨_, partialTest_eq E alpha method
    ((series_length data ax idx).trans (covSeries_length hcov idx).symm), ?_, ?_⟩⟩
  · intro h3
    rw [ho idx hidx]
    unfold pointP
    by_cases h : (jointPairs (Spec.series data ax idx) (Spec.covSeries cov ax idx)).length < 3
    · rw [if_pos h] at h3
      simp [PRes.empty] at h3; omega
    · rw [if_neg h, if_neg h]
  · intro h3
    rw [ho idx hidx]
    unfold pointP
    by_cases h : (jointPairs (Spec.series data ax idx) (Spec.covSeries cov ax idx)).length < 3
    · rw [if_pos h, if_pos h, series_length]
      simp [PRes.empty]
    · rw [if_neg h] at h3
      simp only [resOf] at h3
      exact absurd h3 h

/-- C201: a 1-D response is handed to the 1-D test as it is. -/
theorem C201_one_dim (alpha : ℝ) (method : Method) (resp cov : List (Option ℝ)) (hl : resp.length = cov.length) (axis : ℤ)
    (hax : axis = 0 ∨ axis = -1) (chunk : Option ℤ) (W : ℕ → ℝ) :
    ∃ out r, partialMultidim E alpha method ⟨[resp.length], fun i => resp.getD (i.headD 0) none⟩
        ⟨[cov.length], fun i => cov.getD (i.headD 0) none⟩ axis chunk W = some out ∧
      partialTest E alpha method resp cov = some r ∧ out.shape = [] ∧ out.get [] = r := by
  unfold partialMultidim
  have : resolveAxis 1 axis = some 0 := resolveAxis_ok ⟨by omega, by rcases hax with rfl | rfl <;> simp⟩
  simp only [List.length_cons, List.length_nil, zero_add, this, Option.bind_eq_bind, Option.bind_some]
  have hb : broadcastCovariate ⟨[resp.length], fun i => resp.getD (i.headD 0) none⟩ ⟨[cov.length], fun i => cov.getD (i.headD 0) none⟩ 0 =
      some (⟨[resp.length], fun i => resp.getD (i.headD 0) none⟩, ⟨[resp.length], fun i => cov.getD (i.headD 0) none⟩) := by
    unfold broadcastCovariate
    simp only [List.length_cons, List.length_nil, zero_add, if_true, List.headD_cons, List.getD_cons_zero, hl]
    rw [if_neg (by simp)]
    unfold NDArr.moveToFront
    simp only [List.getD_cons_zero, List.eraseIdx_zero, List.tail_cons, Option.some.injEq, Prod.mk.injEq, NDArr.mk.injEq, true_and]
    refine ⟨?_, ?_⟩
    · funext idx
      cases idx <;> simp
    · trivial
  rw [hb]
  simp only [Option.bind_some, List.headD_cons, List.tail_cons, if_true]
  rw [range_getD, hl, range_getD, partialTest_eq E alpha method hl]
  exact ⟨_, _, rfl, rfl, rfl, rfl⟩

/-- C201: the chunk size never changes the outcome (any two positive sizes, or the default). -/
theorem C201_chunk_invariant (alpha : ℝ) (method : Method) (data cov : NDArr (Option ℝ)) (axis : ℤ) (ax : ℕ)
    (hax : Spec.Denotes data.shape.length axis ax) (hcov : Spec.CovFits data cov ax) (c c' : Option ℤ)
    (hc : ∀ k, c = some k → 0 < k) (hc' : ∀ k, c' = some k → 0 < k) (W W' : ℕ → ℝ) (hrank : data.shape.length ≠ 1) :
    ∃ out out', partialMultidim E alpha method data cov axis c W = some out ∧
      partialMultidim E alpha method data cov axis c' W' = some out' ∧ out.Eqv out' := by
  obtain ⟨o, e, s, h⟩ := partialMultidim_ok E alpha method data cov axis ax hax hcov hrank c hc W
  obtain ⟨o', e', s', h'⟩ := partialMultidim_ok E alpha method data cov axis ax hax hcov hrank c' hc' W'
  refine ⟨o, o', e, e', s.trans s'.symm, fun idx hidx => ?_⟩
  rw [s] at hidx
  rw [h idx hidx, h' idx hidx]

/-- C201: what is refused: a covariate that is neither one series of the right length nor of the shape of the data, an axis out
of range, a zero chunk size (on a grid), and in the 1-D test series of different length. -/
theorem C201_refused (alpha : ℝ) (method : Method) (data cov : NDArr (Option ℝ)) (axis : ℤ) (chunk : Option ℤ) (W : ℕ → ℝ)
    (hbad : (∀ ax, ¬ Spec.Denotes data.shape.length axis ax) ∨
      (∃ ax, Spec.Denotes data.shape.length axis ax ∧ ¬ Spec.CovFits data cov ax) ∨
      (chunk = some 0 ∧ data.shape.length ≠ 1)) :
    partialMultidim E alpha method data cov axis chunk W = none := by
  unfold partialMultidim
  by_cases hax : ∃ ax, Spec.Denotes data.shape.length axis ax
  · obtain ⟨ax, hax⟩ := hax
    rw [resolveAxis_ok hax]
    simp only [Option.bind_eq_bind, Option.bind_some]
    by_cases hcov : Spec.CovFits data cov ax
    · rcases hbad with h | ⟨ax', h, hno⟩ | ⟨hc, hrank⟩
      · exact absurd hax (h ax)
      · have : ax' = ax := by
          have h1 := resolveAxis_ok h; rw [resolveAxis_ok hax] at h1; simpa using h1.symm
        exact absurd hcov (this ▸ hno)
      · obtain ⟨C, eC, hCs, hC⟩ := broadcast_ok hcov
        rw [eC]
        set n := data.shape.getD ax 0 with hn
        set sp := data.shape.eraseIdx ax with hsp
        have hsp0 : sp ≠ [] := by
          intro h
          have := congrArg List.length h
          rw [hsp, List.length_eraseIdx, if_pos hax.1] at this
          have h1 := hax.1
          simp at this; omega
        have hmv : (data.moveToFront ax).shape = n :: sp := rfl
        simp only [Option.bind_some, hmv, List.headD_cons, List.tail_cons]
        rw [if_neg hsp0, moved_reshape _ hmv, moved_reshape C hCs, hc]
        simp only [Option.bind_some, partialChunkSize, Option.getD_some, partialFlat, if_true, Option.bind_none]
    · have : broadcastCovariate data cov ax = none := by
        unfold broadcastCovariate
        dsimp only
        by_cases h1 : cov.shape.length = 1
        · rw [if_pos h1, if_pos]
          intro h2
          apply hcov
          left
          obtain ⟨a, ha⟩ := List.length_eq_one_iff.mp h1
          rw [ha] at h2 ⊢
          simpa using h2
        · rw [if_neg h1, if_neg fun h2 => hcov (Or.inr ⟨h1, h2⟩)]
      rw [this]; rfl
  · have : resolveAxis data.shape.length axis = none := by
      unfold resolveAxis
      rw [if_neg, if_neg]
      · intro h; exact hax ⟨(axis + data.shape.length).toNat, by omega, by right; omega⟩
      · intro h; exact hax ⟨axis.toNat, by omega, by left; omega⟩
    rw [this]; rfl

theorem C201_lengths_refused (alpha : ℝ) (method : Method) (resp cov : List (Option ℝ)) (h : resp.length ≠ cov.length) :
    partialTest E alpha method resp cov = none := partialTest_short_len h

/-- C201, the counts: at a grid point with two jointly valid samples of four, the 1-D test reports `n = 2, n_dropped = 2`, the
gridded one `n = 0, n_dropped = 4`. -/
theorem C201_counts_false (alpha : ℝ) (method : Method) (W : ℕ → ℝ) :
    ∃ (resp cov : List (Option ℝ)) (r : PRes) (out : NDArr PRes), partialTest E alpha method resp cov = some r ∧
      partialMultidim E alpha method ⟨[4, 1], fun i => resp.getD (i.headD 0) none⟩ ⟨[4], fun i => cov.getD (i.headD 0) none⟩ 0 none W =
        some out ∧ r.n = 2 ∧ r.nDropped = 2 ∧ (out.get [0]).n = 0 ∧ (out.get [0]).nDropped = 4 := by
  refine ⟨[some 1, some 2, none, none], [some 0, some 1, some 2, some 3], ?_⟩
  obtain ⟨out, e, hs, ho⟩ := C201_grid_partial E alpha method
    ⟨[4, 1], fun i => [some 1, some 2, none, none].getD (i.headD 0) none⟩
    ⟨[4], fun i => [some 0, some 1, some 2, some 3].getD (i.headD 0) none⟩ 0 0 ⟨by simp, Or.inl rfl⟩ (Or.inl rfl) (by simp) none
    (by simp) W
  obtain ⟨r, er, h1, h2⟩ := ho [0] (by simp [InB])
  have es : Spec.series ⟨[4, 1], fun i => ([some 1, some 2, none, none] : List (Option ℝ)).getD (i.headD 0) none⟩ 0 [0] =
      [some 1, some 2, none, none] := by
    simp [Spec.series, List.range_succ]
  have ec : Spec.covSeries ⟨[4], fun i => ([some 0, some 1, some 2, some 3] : List (Option ℝ)).getD (i.headD 0) none⟩ 0 [0] =
      [some 0, some 1, some 2, some 3] := by
    simp [Spec.covSeries, List.range_succ]
  rw [es, ec] at er
  have hj : (jointPairs [some (1 : ℝ), some 2, none, none] [some (0 : ℝ), some 1, some 2, some 3]).length = 2 := by
    simp [jointPairs]
  have er' := er
  rw [partialTest_eq E alpha method (resp := [some (1 : ℝ), some 2, none, none]) (cov := [some (0 : ℝ), some 1, some 2, some 3]) rfl, hj,
    if_pos (by norm_num)] at er'
  simp only [Option.some.injEq] at er'
  refine ⟨r, out, er, e, by rw [← er']; rfl, by rw [← er']; rfl, ?_, ?_⟩
  · rw [(h2 (by rw [← er']; simp [PRes.empty])).1]
  · rw [(h2 (by rw [← er']; simp [PRes.empty])).1]; rfl

/-- C201: a negative chunk size is accepted silently and blanks the whole grid. -/
theorem C201_negative_chunk (alpha : ℝ) (method : Method) (data cov : NDArr (Option ℝ)) (axis : ℤ) (ax : ℕ)
    (hax : Spec.Denotes data.shape.length axis ax) (hcov : Spec.CovFits data cov ax) (hrank : data.shape.length ≠ 1)
    (c : ℤ) (hck : c < 0) (W : ℕ → ℝ) :
    ∃ out, partialMultidim E alpha method data cov axis (some c) W = some out ∧ out.shape = data.shape.eraseIdx ax ∧
      ∀ idx, out.get idx = PRes.empty (data.shape.getD ax 0) 0 := by
  unfold partialMultidim
  rw [resolveAxis_ok hax]
  obtain ⟨C, eC, hCs, hC⟩ := broadcast_ok hcov
  simp only [Option.bind_eq_bind, Option.bind_some, eC]
  set n := data.shape.getD ax 0 with hn
  set sp := data.shape.eraseIdx ax with hsp
  have hsp0 : sp ≠ [] := by
    intro h
    have := congrArg List.length h
    rw [hsp, List.length_eraseIdx, if_pos hax.1] at this
    have h1 := hax.1
    simp at this; omega
  have hmv : (data.moveToFront ax).shape = n :: sp := rfl
  simp only [hmv, List.headD_cons, List.tail_cons]
  rw [if_neg hsp0, moved_reshape _ hmv, moved_reshape C hCs]
  have hsz : partialChunkSize (some c) n sp.prod = c := rfl
  rw [hsz]
  simp only [Option.bind_some]
  unfold partialFlat
  rw [if_neg hck.ne, if_pos hck]
  exact ⟨_, rfl, rfl, fun _ => rfl⟩

/-- a grid of shape (3 times, 2 x 2 points) with one covariate series meets the hypotheses of `C201_grid_partial` -/
example : Spec.Denotes 3 (-3) 0 ∧ Spec.CovFits ⟨[3, 2, 2], fun i => some (i.headD 0 : ℝ)⟩ ⟨[3], fun _ => some 1⟩ 0 ∧
    InB ([3, 2, 2].eraseIdx 0) [1, 1] := ⟨⟨by norm_num, Or.inr (by norm_num)⟩, Or.inl rfl, by simp [InB]⟩

end Skyborn.MK.Py
