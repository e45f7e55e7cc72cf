/-
C206: the xarray entry point of the partial test. A labelled array is a list of dimension names plus an array; what it means
is the named-axis reading `Lay` of Common/Axes.lean. Coordinate labels are not modelled: inputs whose labels disagree raise in
`xr.align(join="exact")` before anything else happens.
-/
import Verif.MK.PartialPyStats
import Verif.Common.Axes

namespace Skyborn.MK.Py

open Skyborn Skyborn.MK Finset Spec

variable (E : Env) {L : Type} [DecidableEq L]

/-- partial.py:399-402: `xr.align(join="exact")` refuses different sizes along a shared dimension; `broadcast_like` gives the
covariate the dimensions of the data, in the data's order, followed by its own extra ones. -/
def broadcastLike (ddims cdims : List L) (data cov : NDArr (Option ℝ)) : Option (NDArr (Option ℝ)) :=
  let dsz : L → ℕ := fun d => data.shape.getD (ddims.idxOf d) 0
  let csz : L → ℕ := fun d => cov.shape.getD (cdims.idxOf d) 0
  if ddims.all fun d => decide (d ∈ cdims → dsz d = csz d) then
    let extra := cdims.filter fun d => decide (d ∉ ddims)
    some ⟨ddims.map dsz ++ extra.map csz, fun idx => cov.get (cdims.map fun d => idx.getD ((ddims ++ extra).idxOf d) 0)⟩
  else none

/-- partial.py:388-437 `partial_mann_kendall_xarray`: dimension names and values of the result (attributes not modelled;
`dim` not among the dimensions of the data raises in `get_axis_num`). -/
noncomputable def partialXarray (alpha : ℝ) (method : Method) (ddims cdims : List L) (data cov : NDArr (Option ℝ)) (dim : L)
    (W : ℕ → ℝ) : Option (List L × NDArr PRes) := do
  let covB ← broadcastLike ddims cdims data cov
  if dim ∈ ddims then
    let r ← partialMultidim E alpha method data covB (ddims.idxOf dim : ℕ) none W
    return (ddims.filter (fun d => decide (d ≠ dim)), r)
  else none

/-- the series along `dim` through the point with coordinates `f` -/
def Spec.along (sz : L → ℕ) (val : (L → ℕ) → Option ℝ) (dim : L) (f : L → ℕ) : List (Option ℝ) :=
  (List.range (sz dim)).map fun t => val (Function.update f dim t)

/-- `a` is the record `r` of the 1-D test, except that with fewer than three joint samples the two counts may be blanked -/
def Spec.Agrees (T : ℕ) (a r : PRes) : Prop := a = r ∨ (r.n < 3 ∧ a = { r with n := 0, nDropped := T })

theorem filter_ne_eraseIdx {dims : List L} (hd : dims.Nodup) (d : L) :
    dims.filter (fun e => decide (e ≠ d)) = dims.eraseIdx (dims.idxOf d) := by
  rw [← List.erase_eq_eraseIdx_of_idxOf rfl, hd.erase_eq_filter]
  congr 1
  funext e
  by_cases h : e = d <;> simp [h]

theorem insert_point {dims : List L} (hd : dims.Nodup) {d : L} (hm : d ∈ dims) (f : L → ℕ) (t : ℕ) :
    ((dims.eraseIdx (dims.idxOf d)).map f).insertIdx (dims.idxOf d) t = dims.map (Function.update f d t) := by
  have hk := List.idxOf_lt_length_of_mem hm
  have h1 : (dims.eraseIdx (dims.idxOf d)).map f = (dims.map (Function.update f d t)).eraseIdx (dims.idxOf d) := by
    rw [List.eraseIdx_map]
    refine List.map_congr_left fun e he => ?_
    rw [Function.update_of_ne]
    rintro rfl
    rw [← filter_ne_eraseIdx hd] at he
    simp at he
  have h2 : (dims.map (Function.update f d t))[dims.idxOf d]'(by simpa using hk) = t := by
    rw [List.getElem_map, List.getElem_idxOf hk, Function.update_self]
  have h3 := List.insertIdx_eraseIdx_getElem (l := dims.map (Function.update f d t)) (n := dims.idxOf d) (by simpa using hk)
  rw [h2] at h3
  rw [h1]
  exact h3

theorem broadcastLike_ok {ddims cdims : List L} (hdn : ddims.Nodup) (hcn : cdims.Nodup) (hsub : cdims ⊆ ddims)
    {data cov : NDArr (Option ℝ)} {sz : L → ℕ} {vd vc : (L → ℕ) → Option ℝ} (hD : Lay ddims data sz vd) (hC : Lay cdims cov sz vc) :
    ∃ B, broadcastLike ddims cdims data cov = some B ∧ Lay ddims B sz vc ∧ B.shape = data.shape := by
  have hds : ∀ d ∈ ddims, data.shape.getD (ddims.idxOf d) 0 = sz d := by
    intro d hd
    have hk := List.idxOf_lt_length_of_mem hd
    rw [hD.1, List.getD_eq_getElem _ _ (by simpa using hk), List.getElem_map, List.getElem_idxOf hk]
  have hcs : ∀ d ∈ cdims, cov.shape.getD (cdims.idxOf d) 0 = sz d := by
    intro d hd
    have hk := List.idxOf_lt_length_of_mem hd
    rw [hC.1, List.getD_eq_getElem _ _ (by simpa using hk), List.getElem_map, List.getElem_idxOf hk]
  have hex : cdims.filter (fun d => decide (d ∉ ddims)) = [] := by
    rw [List.filter_eq_nil_iff]
    intro d hd; simpa using hsub hd
  unfold broadcastLike
  dsimp only
  rw [if_pos (by
    rw [List.all_eq_true]
    intro d hd
    simp only [decide_eq_true_eq]
    intro hc; rw [hds d hd, hcs d hc]), hex]
  have hshape : ddims.map (fun d => data.shape.getD (ddims.idxOf d) 0) ++ ([] : List L).map (fun d => cov.shape.getD (cdims.idxOf d) 0) =
      data.shape := by
    rw [List.map_nil, List.append_nil, hD.1]
    refine List.map_congr_left fun d hd => ?_
    rw [← hD.1]; exact hds d hd
  refine ⟨_, rfl, ⟨hshape.trans hD.1, fun f hf => ?_⟩, hshape⟩
  rw [← hC.2 f fun d hd => hf d (hsub hd)]
  dsimp only
  congr 1
  refine List.map_congr_left fun d hd => ?_
  have hk := List.idxOf_lt_length_of_mem (hsub hd)
  rw [List.append_nil, List.getD_eq_getElem _ _ (by simpa using hk), List.getElem_map, List.getElem_idxOf hk]

/-- C206: the labelled entry point computes, at every point of the remaining dimensions, the 1-D test of the response and
covariate series along `dim` through that point, whatever the order of the dimensions of either input and whichever of the
data's dimensions the covariate lacks. The result has the data's other dimensions, in the data's order. (Counts as in C201.) -/
theorem C206_labelled (alpha : ℝ) (method : Method) (ddims cdims : List L) (hdn : ddims.Nodup) (hcn : cdims.Nodup)
    (hsub : cdims ⊆ ddims) (data cov : NDArr (Option ℝ)) (sz : L → ℕ) (vd vc : (L → ℕ) → Option ℝ) (hD : Lay ddims data sz vd)
    (hC : Lay cdims cov sz vc) (dim : L) (hdim : dim ∈ ddims) (W : ℕ → ℝ) :
    ∃ out, partialXarray E alpha method ddims cdims data cov dim W = some (ddims.filter (fun d => decide (d ≠ dim)), out) ∧
      out.shape = (ddims.filter (fun d => decide (d ≠ dim))).map sz ∧
      ∀ f : L → ℕ, (∀ d ∈ ddims, d ≠ dim → f d < sz d) → ∃ r,
        partialTest E alpha method (Spec.along sz vd dim f) (Spec.along sz vc dim f) = some r ∧
          Spec.Agrees (sz dim) (out.get ((ddims.filter (fun d => decide (d ≠ dim))).map f)) r := by
  obtain ⟨B, eB, hB, hBs⟩ := broadcastLike_ok hdn hcn hsub hD hC
  have hk := List.idxOf_lt_length_of_mem hdim
  set k := ddims.idxOf dim with hkdef
  have hlen : data.shape.length = ddims.length := by rw [hD.1]; simp
  have hT : data.shape.getD k 0 = sz dim := by
    rw [hD.1, List.getD_eq_getElem _ _ (by simpa using hk), List.getElem_map, List.getElem_idxOf hk]
  have hax : Spec.Denotes data.shape.length (k : ℤ) k := ⟨by omega, Or.inl rfl⟩
  have hserD : ∀ f : L → ℕ, (∀ d ∈ ddims, d ≠ dim → f d < sz d) → ∀ (b : NDArr (Option ℝ)) (v : (L → ℕ) → Option ℝ), Lay ddims b sz v →
      Spec.series b k ((ddims.eraseIdx k).map f) = Spec.along sz v dim f := by
    intro f hf b v hb
    unfold Spec.series Spec.along
    have : b.shape.getD k 0 = sz dim := by
      rw [hb.1, List.getD_eq_getElem _ _ (by simpa using hk), List.getElem_map, List.getElem_idxOf hk]
    rw [this]
    refine List.map_congr_left fun t ht => ?_
    rw [hkdef, insert_point hdn hdim, hb.2]
    intro d hd
    by_cases hdd : d = dim
    · subst hdd; rw [Function.update_self]; exact List.mem_range.mp ht
    · rw [Function.update_of_ne hdd]; exact hf d hd hdd
  unfold partialXarray
  rw [eB]
  simp only [Option.bind_eq_bind, Option.bind_some, if_pos hdim]
  rw [filter_ne_eraseIdx hdn, ← hkdef]
  by_cases h1 : ddims.length = 1
  · -- a single dimension
    obtain ⟨d0, hd0⟩ := List.length_eq_one_iff.mp h1
    have hk0 : k = 0 := by omega
    have hdim0 : dim = d0 := by rw [hd0] at hdim; simpa using hdim
    have hsD : data.shape = [sz dim] := by rw [hD.1, hd0, hdim0]; rfl
    have hb : broadcastCovariate data B k = some (data.moveToFront 0, ⟨[sz dim], fun idx => B.get [idx.headD 0]⟩) := by
      unfold broadcastCovariate
      dsimp only
      rw [if_pos (by rw [hBs, hsD]; rfl), if_neg (by rw [hBs, hT, hsD]; simp), hk0]
      congr 3
      unfold NDArr.moveToFront
      simp [hsD]
    have hm : partialMultidim E alpha method data B (k : ℤ) none W =
        (partialTest E alpha method ((List.range (sz dim)).map fun t => (data.moveToFront 0).get [t])
          ((List.range (sz dim)).map fun t => B.get [t])).bind fun r => some ⟨[], fun _ => r⟩ := by
      unfold partialMultidim
      rw [resolveAxis_ok hax]
      simp only [Option.bind_eq_bind, Option.bind_some, hb]
      have hmv : (data.moveToFront 0).shape = [sz dim] := by unfold NDArr.moveToFront; simp [hsD]
      simp only [hmv, List.headD_cons, List.tail_cons, if_true]
      rfl
    have e1 : ∀ f : L → ℕ, ((List.range (sz dim)).map fun t => (data.moveToFront 0).get [t]) = Spec.along sz vd dim f := by
      intro f
      unfold Spec.along
      refine List.map_congr_left fun t ht => ?_
      have := hD.2 (Function.update f dim t) (by
        intro d hd; rw [hd0] at hd
        have : d = dim := by rw [hdim0]; simpa using hd
        subst this; rw [Function.update_self]; exact List.mem_range.mp ht)
      rw [← this, hd0, ← hdim0]
      unfold NDArr.moveToFront
      simp
    have e2 : ∀ f : L → ℕ, ((List.range (sz dim)).map fun t => B.get [t]) = Spec.along sz vc dim f := by
      intro f
      unfold Spec.along
      refine List.map_congr_left fun t ht => ?_
      have := hB.2 (Function.update f dim t) (by
        intro d hd; rw [hd0] at hd
        have : d = dim := by rw [hdim0]; simpa using hd
        subst this; rw [Function.update_self]; exact List.mem_range.mp ht)
      rw [← this, hd0, ← hdim0]
      simp
    rw [hm, e1 fun _ => 0, e2 fun _ => 0, partialTest_eq E alpha method (by simp [Spec.along])]
    refine ⟨_, rfl, by rw [hk0, hd0]; rfl, fun f hf => ?_⟩
    refine ⟨_, ?_, Or.inl rfl⟩
    rw [← e1 f, ← e2 f, e1 fun _ => 0, e2 fun _ => 0, partialTest_eq E alpha method (by simp [Spec.along])]
  · have hcov : Spec.CovFits data B k := Or.inr ⟨by rw [hBs, hlen]; exact h1, hBs⟩
    obtain ⟨out, e, hs, ho⟩ := C201_grid_partial E alpha method data B (k : ℤ) k hax hcov (by omega) none (by simp) W
    rw [e]
    have hs' : out.shape = (ddims.eraseIdx k).map sz := by rw [hs, hD.1, List.eraseIdx_map]
    refine ⟨out, rfl, hs', fun f hf => ?_⟩
    obtain ⟨r, er, h3, h4⟩ := ho ((ddims.eraseIdx k).map f) (by
      rw [hD.1, List.eraseIdx_map, inB_map]
      intro d hd
      rw [hkdef, ← filter_ne_eraseIdx hdn, List.mem_filter] at hd
      exact hf d hd.1 (by simpa using hd.2))
    have ec : Spec.covSeries B k ((ddims.eraseIdx k).map f) = Spec.along sz vc dim f := by
      unfold Spec.covSeries
      rw [if_neg (by rw [hBs, hlen]; exact h1), hserD f hf B vc hB]
    rw [hserD f hf data vd hD, ec] at er
    refine ⟨r, er, ?_⟩
    by_cases hr : 3 ≤ r.n
    · exact Or.inl (h3 hr)
    · exact Or.inr ⟨by omega, by rw [(h4 (by omega)).1, hT]⟩

/-- C206: reordering the dimensions of the inputs reorders the result and changes no value: at the same named point the two
results carry the same statistics (and the same counts when there are at least three joint samples). -/
theorem C206_order (alpha : ℝ) (method : Method) (ddims cdims ddims' cdims' : List L) (hdn : ddims.Nodup) (hcn : cdims.Nodup)
    (hsub : cdims ⊆ ddims) (hp : ddims'.Perm ddims) (hp' : cdims'.Perm cdims) (data cov data' cov' : NDArr (Option ℝ)) (sz : L → ℕ)
    (vd vc : (L → ℕ) → Option ℝ) (hD : Lay ddims data sz vd) (hC : Lay cdims cov sz vc) (hD' : Lay ddims' data' sz vd)
    (hC' : Lay cdims' cov' sz vc) (dim : L) (hdim : dim ∈ ddims) (W W' : ℕ → ℝ) :
    ∃ out out' od od', partialXarray E alpha method ddims cdims data cov dim W = some (od, out) ∧
      partialXarray E alpha method ddims' cdims' data' cov' dim W' = some (od', out') ∧ od'.Perm od ∧
      ∀ f : L → ℕ, (∀ d ∈ ddims, d ≠ dim → f d < sz d) → ∃ r, Spec.Agrees (sz dim) (out.get (od.map f)) r ∧
        Spec.Agrees (sz dim) (out'.get (od'.map f)) r := by
  obtain ⟨o, e, -, h⟩ := C206_labelled E alpha method ddims cdims hdn hcn hsub data cov sz vd vc hD hC dim hdim W
  obtain ⟨o', e', -, h'⟩ := C206_labelled E alpha method ddims' cdims' (hp.nodup_iff.mpr hdn) (hp'.nodup_iff.mpr hcn)
    (fun d hd => hp.mem_iff.mpr (hsub (hp'.mem_iff.mp hd))) data' cov' sz vd vc hD' hC' dim (hp.mem_iff.mpr hdim) W'
  refine ⟨o, o', _, _, e, e', hp.filter _, fun f hf => ?_⟩
  obtain ⟨r, er, hr⟩ := h f hf
  obtain ⟨r', er', hr'⟩ := h' f fun d hd hne => hf d (hp.mem_iff.mp hd) hne
  rw [er] at er'
  simp only [Option.some.injEq] at er'
  exact ⟨r, hr, er' ▸ hr'⟩

/-- C206: refused inputs: `dim` not a dimension of the data, a covariate with a dimension the data lacks, or sizes that disagree
along a shared dimension. -/
theorem C206_refused (alpha : ℝ) (method : Method) (ddims cdims : List L) (hdn : ddims.Nodup) (data cov : NDArr (Option ℝ))
    (hld : data.shape.length = ddims.length) (dim : L) (W : ℕ → ℝ)
    (hbad : dim ∉ ddims ∨ (∃ d ∈ cdims, d ∉ ddims) ∨
      ∃ d ∈ ddims, d ∈ cdims ∧ data.shape.getD (ddims.idxOf d) 0 ≠ cov.shape.getD (cdims.idxOf d) 0) :
    partialXarray E alpha method ddims cdims data cov dim W = none := by
  unfold partialXarray
  cases hb : broadcastLike ddims cdims data cov with
  | none => rfl
  | some B =>
    simp only [Option.bind_eq_bind, Option.bind_some]
    unfold broadcastLike at hb
    dsimp only at hb
    by_cases hal : ddims.all (fun d => decide (d ∈ cdims → data.shape.getD (ddims.idxOf d) 0 = cov.shape.getD (cdims.idxOf d) 0)) = true
    · rw [if_pos hal] at hb
      simp only [Option.some.injEq] at hb
      rcases hbad with h | ⟨d, hd, hnd⟩ | ⟨d, hd, hc, hne⟩
      · rw [if_neg h]
      · by_cases hdim : dim ∈ ddims
        · rw [if_pos hdim]
          have hk := List.idxOf_lt_length_of_mem hdim
          have hex : 0 < (cdims.filter fun d => decide (d ∉ ddims)).length :=
            List.length_pos_of_mem (List.mem_filter.mpr ⟨hd, by simpa using hnd⟩)
          have hBl : B.shape.length = ddims.length + (cdims.filter fun d => decide (d ∉ ddims)).length := by
            rw [← hb]; simp
          rw [C201_refused E alpha method data B (ddims.idxOf dim : ℕ) none W (Or.inr (Or.inl ⟨ddims.idxOf dim, ⟨by omega, Or.inl rfl⟩, ?_⟩))]
          · rfl
          · rintro (h | ⟨-, h⟩)
            · have := congrArg List.length h; simp at this; omega
            · have := congrArg List.length h; omega
        · rw [if_neg hdim]
      · rw [List.all_eq_true] at hal
        have := hal d hd
        simp only [decide_eq_true_eq] at this
        exact absurd (this hc) hne
    · rw [if_neg hal] at hb; simp at hb

/-- data(lat, time), covariate(time): the hypotheses of `C206_labelled` are met -/
example : Lay ["lat", "time"] (⟨[2, 3], fun i => some (i.getD 0 0 + 2 * i.getD 1 0 : ℝ)⟩ : NDArr (Option ℝ))
      (fun d => if d = "time" then 3 else 2) (fun f => some (f "lat" + 2 * f "time" : ℝ)) ∧
    Lay ["time"] (⟨[3], fun i => some (i.getD 0 0 : ℝ)⟩ : NDArr (Option ℝ)) (fun d => if d = "time" then 3 else 2)
      (fun f => some (f "time" : ℝ)) ∧ ["time"] ⊆ ["lat", "time"] := by
  refine ⟨⟨by simp, fun f _ => by simp⟩, ⟨by simp, fun f _ => by simp⟩, by simp⟩

end Skyborn.MK.Py
