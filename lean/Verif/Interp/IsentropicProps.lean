/-
Properties C77-C80: `interp_to_isentropic`.
-/
import Verif.Interp.IsentropicColumn
import Verif.Common.Axes
import Mathlib.Tactic.NormNum
import Mathlib.Tactic.FieldSimp

namespace Skyborn.Isen

variable {D : Type} [DecidableEq D]

/-! ### Specification -/

namespace Spec

/-- The marker of missing values: the finite `missing_value`, or the documented default fill value. -/
noncomputable def marker (mv : Option ℝ) : ℝ := mv.getD (-9.96921e36)

/-- The three arrays share dimensions in the same order, with the same sizes; the output dimension name is new. -/
structure WellFormed (data temp pres : XArr D) (lev outDim : D) : Prop where
  nodup : data.dims.Nodup
  lev_mem : lev ∈ data.dims
  temp_dims : temp.dims = data.dims
  pres_dims : pres.dims = data.dims
  sizes : ∀ d ∈ data.dims, temp.sz d = data.sz d ∧ pres.sz d = data.sz d
  out_new : outDim = lev ∨ outDim ∉ data.dims

/-- A labelled index of the result. -/
def InRange (data : XArr D) (lev outDim : D) (nt : ℕ) (f : D → ℕ) : Prop := (∀ d ∈ data.dims, d ≠ lev → f d < data.sz d) ∧ f outDim < nt

/-- The profile of an array at the horizontal position `f`. -/
def column (a : XArr D) (lev : D) (f : D → ℕ) (k : ℕ) : Option ℝ := a.val (Function.update f lev k)

/-- Level `k` of the column `f` is usable: all three values are present and the pressure is positive. -/
def Usable (mk : ℝ) (data temp pres : XArr D) (lev : D) (f : D → ℕ) (k : ℕ) : Prop :=
  k < data.sz lev ∧ ∃ d t p, column data lev f k = some d ∧ column temp lev f k = some t ∧ column pres lev f k = some p ∧
    d ≠ mk ∧ t ≠ mk ∧ p ≠ mk ∧ 0 < p

/-- Potential temperature of level `k`. -/
noncomputable def theta (temp pres : XArr D) (lev : D) (p0 kappa : ℝ) (f : D → ℕ) (k : ℕ) : ℝ :=
  (column temp lev f k).getD 0 * (p0 / (column pres lev f k).getD 0) ^ kappa

/-- Value of level `k`. -/
def value (data : XArr D) (lev : D) (f : D → ℕ) (k : ℕ) : ℝ := (column data lev f k).getD 0

/-- The point `(t, v)` lies on the line through `(s, x)` and `(s', x')`. -/
def OnLine (s x s' x' t v : ℝ) : Prop := (v - x) * (s' - s) = (x' - x) * (t - s)

end Spec

open Spec

/-! ### Labelled positions -/

theorem getD_map_idxOf {dims : List D} {f : D → ℕ} {d : D} (hd : d ∈ dims) : (dims.map f).getD (dims.idxOf d) 0 = f d := by
  induction dims with
  | nil => simp at hd
  | cons a l ih =>
    by_cases h : a = d
    · subst h; simp
    · have hd' : d ∈ l := by
        rcases List.mem_cons.1 hd with h' | h'
        · exact absurd h'.symm h
        · exact h'
      rw [List.idxOf_cons_ne _ h, List.map_cons, List.getD_cons_succ]
      exact ih hd'

/-- The value stored in the buffer at the position of a labelled index. -/
theorem flat_at (a : XArr D) {f : D → ℕ} (hf : ∀ d ∈ a.dims, f d < a.sz d) : a.flat (ravel a.shape (a.dims.map f)) = a.val f := by
  unfold XArr.flat
  have h : InB a.shape (a.dims.map f) := inB_map.2 hf
  rw [unravel_ravel h]
  exact a.ext _ _ fun d hd => getD_map_idxOf hd

theorem prod_split {pre post : List ℕ} {n : ℕ} : (pre ++ n :: post).prod = pre.prod * n * post.prod := by
  rw [List.prod_append, List.prod_cons, Nat.mul_assoc]

theorem ravel_split {pre post is js : List ℕ} {n k : ℕ} (hl : is.length = pre.length) :
    ravel (pre ++ n :: post) (is ++ k :: js) = (ravel pre is * n + k) * post.prod + ravel post js := by
  rw [ravel_append hl, List.prod_cons, ravel, Nat.add_mul, Nat.mul_assoc, Nat.add_assoc]

/-- What a successful call returns, in terms of the raw buffers. -/
theorem call_raw {data temp pres : XArr D} {lev outDim : D} {pre post : List D} (hdims : data.dims = pre ++ lev :: post) (hnd : data.dims.Nodup)
    (ht : lev ∈ temp.dims) (hp : lev ∈ pres.dims) (ha1 : aligned temp pres = true) (ha2 : aligned data temp = true)
    (hts : temp.shape.prod = data.shape.prod) (hps : pres.shape.prod = data.shape.prod)
    (theta : List ℝ) (p0 kappa : ℝ) (ex : Bool) (mv : Option ℝ) (junk empty : ℕ → ℝ) :
    ∃ out, interpToIsentropic data temp pres (theta.map some) lev outDim p0 kappa ex mv junk empty = .ok (pre ++ outDim :: post, out) ∧
      ∀ (is js : List ℕ) (k : ℕ) (t : ℝ) (f : D → ℕ), InB (pre.map data.sz) is → InB (post.map data.sz) js → theta[k]? = some t →
        (pre ++ outDim :: post).map f = is ++ k :: js → ∃ v, out f = decode (marker mv) v ∧
        RawSpec (Keep (data.sz lev)
            (fun l => (data.flat (ravel data.shape (is ++ (l - 1) :: js))).getD (marker mv))
            (fun l => (temp.flat (ravel data.shape (is ++ (l - 1) :: js))).getD (marker mv))
            (fun l => (pres.flat (ravel data.shape (is ++ (l - 1) :: js))).getD (marker mv)) (marker mv))
          (fun l => (temp.flat (ravel data.shape (is ++ (l - 1) :: js))).getD (marker mv) *
            (p0 / (pres.flat (ravel data.shape (is ++ (l - 1) :: js))).getD (marker mv)) ^ kappa)
          (fun l => (data.flat (ravel data.shape (is ++ (l - 1) :: js))).getD (marker mv)) t ex (marker mv) v := by
  have hlev : lev ∈ data.dims := by rw [hdims]; simp
  have hpre : lev ∉ pre := by
    rw [hdims] at hnd
    have := List.nodup_append.1 hnd
    intro h
    exact this.2.2 lev h lev (by simp) rfl
  have hpost : lev ∉ post := by
    rw [hdims] at hnd
    have := (List.nodup_append.1 hnd).2.1
    rw [List.nodup_cons] at this
    exact this.1
  have hidx : data.dims.idxOf lev = pre.length := by
    rw [hdims, List.idxOf_append_of_notMem hpre, List.idxOf_cons_self, Nat.add_zero]
  have hshape : data.shape = pre.map data.sz ++ data.sz lev :: post.map data.sz := by
    rw [XArr.shape, hdims, List.map_append, List.map_cons]
  have htake : data.shape.take pre.length = pre.map data.sz := by
    rw [hshape, List.take_append_of_le_length (by simp), List.take_of_length_le (by simp)]
  have hdrop : data.shape.drop (pre.length + 1) = post.map data.sz := by
    rw [hshape, List.drop_append]
    simp
  have hprod : data.shape.prod = (pre.map data.sz).prod * data.sz lev * (post.map data.sz).prod := by rw [hshape, prod_split]
  have hset : data.shape.set pre.length theta.length = pre.map data.sz ++ theta.length :: post.map data.sz := by
    rw [hshape, List.set_append_right _ _ (by simp)]
    simp
  have hmapdims : data.dims.map (fun d => if d = lev then outDim else d) = pre ++ outDim :: post := by
    rw [hdims, List.map_append, List.map_cons, if_pos rfl]
    congr 1
    · conv_rhs => rw [← List.map_id pre]
      apply List.map_congr_left
      intro d hd
      rw [if_neg (show ¬ d = lev from fun h => hpre (h ▸ hd)), id]
    · congr 1
      conv_rhs => rw [← List.map_id post]
      apply List.map_congr_left
      intro d hd
      rw [if_neg (show ¬ d = lev from fun h => hpost (h ▸ hd)), id]
  have hmk : mv.getD defaultSpvl = marker mv := rfl
  obtain ⟨out, e, h⟩ := kernel_spec (nouter := (pre.map data.sz).prod) (nlev := data.sz lev) (ninner := (post.map data.sz).prod)
    (ntheta := theta.length) (df := data.buffer (marker mv)) (tf := temp.buffer (marker mv)) (pf := pres.buffer (marker mv))
    (lev := fun k => (((theta.map some)[k - 1]?).getD none).getD 0) (p0 := p0) (kappa := kappa) (spvl := marker mv) (ex := ex) (junk := junk)
    (out := empty)
    (d := fun o k i => (data.flat ((o * data.sz lev + (k - 1)) * (post.map data.sz).prod + i)).getD (marker mv))
    (t := fun o k i => (temp.flat ((o * data.sz lev + (k - 1)) * (post.map data.sz).prod + i)).getD (marker mv))
    (p := fun o k i => (pres.flat ((o * data.sz lev + (k - 1)) * (post.map data.sz).prod + i)).getD (marker mv))
    (by intro o k i _ _ _ _; exact ⟨rfl, rfl, rfl⟩)
  refine ⟨fun f => decode (marker mv) (out (ravel (pre.map data.sz ++ theta.length :: post.map data.sz) ((pre ++ outDim :: post).map f) + 1)), ?_, ?_⟩
  · rw [interpToIsentropic, if_neg (by simp [hlev, ht, hp]), if_neg (by simp), if_neg (by simp [ha1, ha2])]
    simp only [hidx, htake, hdrop, List.length_map, hmapdims, hset, hmk]
    rw [if_neg (by rw [hts, hps, hprod]; simp), e]
  · intro is js k t f his hjs hk hf
    refine ⟨_, rfl, ?_⟩
    rw [hf, ravel_split (by rw [his.length])]
    have hkl : k < theta.length := by
      by_contra hc
      rw [List.getElem?_eq_none (by omega)] at hk
      cases hk
    have := h (ravel (pre.map data.sz) is) (k + 1) (ravel (post.map data.sz) js) (ravel_lt his) (by omega) (by omega) (ravel_lt hjs)
    have hlv : (((theta.map some)[k]?).getD none).getD 0 = t := by simp [hk]
    simp only [Nat.add_sub_cancel] at this
    rw [hlv] at this
    have hr : ∀ l, ravel data.shape (is ++ (l - 1) :: js) =
        (ravel (pre.map data.sz) is * data.sz lev + (l - 1)) * (post.map data.sz).prod + ravel (post.map data.sz) js := by
      intro l
      rw [hshape, ravel_split (by rw [his.length])]
    simp only [hr]
    exact this

/-- Change of level numbering. -/
theorem RawSpec.transfer {U V : ℕ → Prop} {th val th' val' : ℕ → ℝ} {t : ℝ} {ex : Bool} {spvl v : ℝ} (h : RawSpec U th val t ex spvl v)
    (h1 : ∀ k, U k → 1 ≤ k) (hU : ∀ k, U (k + 1) ↔ V k) (hth : ∀ k, V k → th (k + 1) = th' k) (hval : ∀ k, V k → val (k + 1) = val' k) :
    RawSpec V th' val' t ex spvl v := by
  have back : ∀ k, U k → ∃ j, k = j + 1 ∧ V j := by
    intro k hk
    obtain ⟨j, rfl⟩ : ∃ j, k = j + 1 := ⟨k - 1, by have := h1 k hk; omega⟩
    exact ⟨j, rfl, (hU j).1 hk⟩
  have lex : ∀ a b, V a → V b → Lex th' a b → Lex th (a + 1) (b + 1) := by
    intro a b ha hb hl
    unfold Lex
    rw [hth a ha, hth b hb]
    rcases hl with hl | hl
    · exact Or.inl hl
    · exact Or.inr ⟨hl.1, by omega⟩
  refine ⟨?_, ?_, ?_, ?_, ?_⟩
  · intro hf
    apply h.few
    intro a b ha hb
    obtain ⟨a, rfl, haV⟩ := back a ha; replace ha := haV
    obtain ⟨b, rfl, hbV⟩ := back b hb; replace hb := hbV
    rw [hf a b ha hb]
  · intro a b ha hb hne hall
    obtain ⟨g1, g2⟩ := h.below (a + 1) (b + 1) ((hU a).2 ha) ((hU b).2 hb) (by omega) (by
      intro k hk
      obtain ⟨k, rfl, hkV⟩ := back k hk; replace hk := hkV
      rw [hth k hk]; exact hall k hk)
    refine ⟨g1, ?_⟩
    intro m hex hm hmin
    rw [← hval m hm]
    apply g2 (m + 1) hex ((hU m).2 hm)
    intro k hk
    obtain ⟨k, rfl, hkV⟩ := back k hk; replace hk := hkV
    rcases hmin k hk with h | h
    · exact Or.inl (by rw [h])
    · exact Or.inr (lex _ _ hm hk h)
  · intro a b ha hb hne hall
    obtain ⟨g1, g2⟩ := h.above (a + 1) (b + 1) ((hU a).2 ha) ((hU b).2 hb) (by omega) (by
      intro k hk
      obtain ⟨k, rfl, hkV⟩ := back k hk; replace hk := hkV
      rw [hth k hk]; exact hall k hk)
    refine ⟨g1, ?_⟩
    intro m hex hm hmin
    rw [← hval m hm]
    apply g2 (m + 1) hex ((hU m).2 hm)
    intro k hk
    obtain ⟨k, rfl, hkV⟩ := back k hk; replace hk := hkV
    rcases hmin k hk with h | h
    · exact Or.inl (by rw [h])
    · exact Or.inr (lex _ _ hk hm h)
  · intro a b ha hb hne m hm hmt hfirst
    rw [← hval m hm]
    apply h.exact (a + 1) (b + 1) ((hU a).2 ha) ((hU b).2 hb) (by omega) (m + 1) ((hU m).2 hm) (by rw [hth m hm]; exact hmt)
    intro k hk hkt
    obtain ⟨k, rfl, hkV⟩ := back k hk; replace hk := hkV
    rw [hth k hk] at hkt
    have := hfirst k hk hkt
    omega
  · intro a b ha hb hat hbt hno hamax hbmin
    rw [← hval a ha, ← hval b hb, ← hth a ha, ← hth b hb]
    apply h.between (a + 1) (b + 1) ((hU a).2 ha) ((hU b).2 hb) (by rw [hth a ha]; exact hat) (by rw [hth b hb]; exact hbt)
    · intro k hk
      obtain ⟨k, rfl, hkV⟩ := back k hk; replace hk := hkV
      rw [hth k hk]; exact hno k hk
    · intro k hk hkt
      obtain ⟨k, rfl, hkV⟩ := back k hk; replace hk := hkV
      rw [hth k hk] at hkt
      rcases hamax k hk hkt with h | h
      · exact Or.inl (by rw [h])
      · exact Or.inr (lex _ _ hk ha h)
    · intro k hk hkt
      obtain ⟨k, rfl, hkV⟩ := back k hk; replace hk := hkV
      rw [hth k hk] at hkt
      rcases hbmin k hk hkt with h | h
      · exact Or.inl (by rw [h])
      · exact Or.inr (lex _ _ hb hk h)

/-- The labelled form: every entry of a well-formed call. -/
theorem call_spec {data temp pres : XArr D} {lev outDim : D} (hw : WellFormed data temp pres lev outDim)
    (levels : List ℝ) (p0 kappa : ℝ) (ex : Bool) (mv : Option ℝ) (junk empty : ℕ → ℝ) :
    ∃ out, interpToIsentropic data temp pres (levels.map some) lev outDim p0 kappa ex mv junk empty =
        .ok (data.dims.map (fun d => if d = lev then outDim else d), out) ∧
      ∀ (f : D → ℕ), InRange data lev outDim levels.length f → ∀ t, levels[f outDim]? = some t →
        ∃ v, out f = decode (marker mv) v ∧
          RawSpec (Usable (marker mv) data temp pres lev f) (theta temp pres lev p0 kappa f) (value data lev f) t ex (marker mv) v := by
  obtain ⟨hnd, hl, ht, hp, hs, hout⟩ := hw
  obtain ⟨pre, post, hdims⟩ := List.append_of_mem hl
  have hpre : lev ∉ pre := by
    rw [hdims] at hnd
    intro h
    exact (List.nodup_append.1 hnd).2.2 lev h lev (by simp) rfl
  have hpost : lev ∉ post := by
    rw [hdims] at hnd
    have := (List.nodup_append.1 hnd).2.1
    rw [List.nodup_cons] at this
    exact this.1
  have htsh : temp.shape = data.shape := by
    rw [XArr.shape, XArr.shape, ht]
    exact List.map_congr_left fun d hd => (hs d hd).1
  have hpsh : pres.shape = data.shape := by
    rw [XArr.shape, XArr.shape, hp]
    exact List.map_congr_left fun d hd => (hs d hd).2
  have hmapdims : data.dims.map (fun d => if d = lev then outDim else d) = pre ++ outDim :: post := by
    rw [hdims, List.map_append, List.map_cons, if_pos rfl]
    congr 1
    · conv_rhs => rw [← List.map_id pre]
      apply List.map_congr_left
      intro d hd
      rw [if_neg (show ¬ d = lev from fun h => hpre (h ▸ hd)), id]
    · congr 1
      conv_rhs => rw [← List.map_id post]
      apply List.map_congr_left
      intro d hd
      rw [if_neg (show ¬ d = lev from fun h => hpost (h ▸ hd)), id]
  obtain ⟨out, e, h⟩ := call_raw (outDim := outDim) hdims hnd (by rw [ht]; exact hl) (by rw [hp]; exact hl)
    (by
      simp only [aligned, List.all_eq_true, decide_eq_true_eq]
      intro d hd _
      rw [ht] at hd
      rw [(hs d hd).1, (hs d hd).2])
    (by
      simp only [aligned, List.all_eq_true, decide_eq_true_eq]
      intro d hd _
      rw [(hs d hd).1])
    (by rw [htsh]) (by rw [hpsh]) levels p0 kappa ex mv junk empty
  refine ⟨out, by rw [hmapdims]; exact e, ?_⟩
  rintro f ⟨hf1, hf2⟩ t hk
  have hb1 : InB (pre.map data.sz) (pre.map f) := inB_map.2 fun d hd =>
    hf1 d (by rw [hdims]; simp [hd]) (fun h => hpre (h ▸ hd))
  have hb2 : InB (post.map data.sz) (post.map f) := inB_map.2 fun d hd =>
    hf1 d (by rw [hdims]; simp [hd]) (fun h => hpost (h ▸ hd))
  obtain ⟨v, hv, hR⟩ := h (pre.map f) (post.map f) (f outDim) t f hb1 hb2 hk (by rw [List.map_append, List.map_cons])
  refine ⟨v, hv, ?_⟩
  have hmap : ∀ k, pre.map f ++ k :: post.map f = data.dims.map (Function.update f lev k) := by
    intro k
    rw [hdims, List.map_append, List.map_cons, Function.update_self]
    congr 1
    · exact List.map_congr_left fun d hd => by rw [Function.update_of_ne (show d ≠ lev from fun h => hpre (h ▸ hd))]
    · congr 1
      exact List.map_congr_left fun d hd => by rw [Function.update_of_ne (show d ≠ lev from fun h => hpost (h ▸ hd))]
  have hrange : ∀ k, k < data.sz lev → ∀ d ∈ data.dims, Function.update f lev k d < data.sz d := by
    intro k hk d hd
    by_cases hdl : d = lev
    · subst hdl; rw [Function.update_self]; exact hk
    · rw [Function.update_of_ne hdl]; exact hf1 d hd hdl
  have cd : ∀ k, k < data.sz lev → data.flat (ravel data.shape (pre.map f ++ k :: post.map f)) = column data lev f k := by
    intro k hk
    rw [hmap, flat_at data (hrange k hk)]; rfl
  have ct : ∀ k, k < data.sz lev → temp.flat (ravel data.shape (pre.map f ++ k :: post.map f)) = column temp lev f k := by
    intro k hk
    rw [hmap, ← htsh, ← ht, flat_at temp (by rw [ht]; intro d hd; rw [(hs d hd).1]; exact hrange k hk d hd)]; rfl
  have cp : ∀ k, k < data.sz lev → pres.flat (ravel data.shape (pre.map f ++ k :: post.map f)) = column pres lev f k := by
    intro k hk
    rw [hmap, ← hpsh, ← hp, flat_at pres (by rw [hp]; intro d hd; rw [(hs d hd).2]; exact hrange k hk d hd)]; rfl
  refine hR.transfer (fun k hk => hk.1) ?_ ?_ ?_
  · intro k
    unfold Keep Usable
    simp only [Nat.add_sub_cancel]
    constructor
    · rintro ⟨-, k2, k3, k4, k5, k6⟩
      rw [cd k (by omega)] at k3
      rw [ct k (by omega)] at k4
      rw [cp k (by omega)] at k5 k6
      refine ⟨by omega, ?_⟩
      cases hd' : column data lev f k with
      | none => rw [hd'] at k3; exact absurd rfl k3
      | some d =>
        cases ht' : column temp lev f k with
        | none => rw [ht'] at k4; exact absurd rfl k4
        | some t' =>
          cases hp' : column pres lev f k with
          | none => rw [hp'] at k5; exact absurd rfl k5
          | some p =>
            rw [hd'] at k3; rw [ht'] at k4; rw [hp'] at k5 k6
            exact ⟨d, t', p, rfl, rfl, rfl, k3, k4, k5, k6⟩
    · rintro ⟨k2, d, t', p, e1, e2, e3, n1, n2, n3, n4⟩
      rw [cd k k2, ct k k2, cp k k2, e1, e2, e3]
      exact ⟨by omega, by omega, n1, n2, n3, n4⟩
  · rintro k ⟨k2, d, t', p, e1, e2, e3, -⟩
    simp only [Nat.add_sub_cancel]
    rw [ct k k2, cp k k2, theta, e2, e3]; rfl
  · rintro k ⟨k2, d, t', p, e1, -⟩
    simp only [Nat.add_sub_cancel]
    rw [cd k k2, value, e1]; rfl

theorem decode_marker (s : ℝ) : decode s s = none := by simp [decode]

theorem decode_ne {s v : ℝ} (h : v ≠ s) : decode s v = some v := by simp [decode, h]

/-! ### C77: interpolation along the column -/

/-- C77. A well-formed call with finite levels succeeds; the level dimension is replaced by the output dimension; non-finite levels raise. -/
theorem C77_total {data temp pres : XArr D} {lev outDim : D} (hw : WellFormed data temp pres lev outDim) (p0 kappa : ℝ) (ex : Bool)
    (mv : Option ℝ) (junk empty : ℕ → ℝ) :
    (∀ levels : List ℝ, ∃ out, interpToIsentropic data temp pres (levels.map some) lev outDim p0 kappa ex mv junk empty =
      .ok (data.dims.map (fun d => if d = lev then outDim else d), out)) ∧
    (∀ levels : List (Option ℝ), none ∈ levels → interpToIsentropic data temp pres levels lev outDim p0 kappa ex mv junk empty =
      .error .thetaNotFinite) := by
  constructor
  · intro levels
    obtain ⟨out, e, -⟩ := call_spec hw levels p0 kappa ex mv junk empty
    exact ⟨out, e⟩
  · intro levels h
    rw [interpToIsentropic, if_neg (by simp [hw.lev_mem, hw.temp_dims, hw.pres_dims]), if_pos]
    simp only [List.any_eq_true]
    exact ⟨none, h, rfl⟩

/-- The common hypotheses of the theorems below: a successful well-formed call and one entry of its result. -/
structure Entry (data temp pres : XArr D) (lev outDim : D) (levels : List ℝ) (p0 kappa : ℝ) (ex : Bool) (mv : Option ℝ) (junk empty : ℕ → ℝ)
    (f : D → ℕ) (t : ℝ) (r : Option ℝ) : Prop where
  wf : WellFormed data temp pres lev outDim
  inRange : InRange data lev outDim levels.length f
  target : levels[f outDim]? = some t
  result : ∃ dims out, interpToIsentropic data temp pres (levels.map some) lev outDim p0 kappa ex mv junk empty = .ok (dims, out) ∧ out f = r

theorem Entry.raw {data temp pres : XArr D} {lev outDim : D} {levels : List ℝ} {p0 kappa : ℝ} {ex : Bool} {mv : Option ℝ} {junk empty : ℕ → ℝ}
    {f : D → ℕ} {t : ℝ} {r : Option ℝ} (h : Entry data temp pres lev outDim levels p0 kappa ex mv junk empty f t r) :
    ∃ v, r = decode (marker mv) v ∧
      RawSpec (Usable (marker mv) data temp pres lev f) (theta temp pres lev p0 kappa f) (value data lev f) t ex (marker mv) v := by
  obtain ⟨hw, hi, ht, dims, out, e, rfl⟩ := h
  obtain ⟨out', e', h'⟩ := call_spec hw levels p0 kappa ex mv junk empty
  rw [e] at e'
  cases e'
  exact h' f hi t ht

section
variable {data temp pres : XArr D} {lev outDim : D} {levels : List ℝ} {p0 kappa : ℝ} {ex : Bool} {mv : Option ℝ} {junk empty : ℕ → ℝ}
  {f : D → ℕ} {t : ℝ} {r : Option ℝ}

/-- C77. A column with fewer than two usable levels is missing at every target. -/
theorem C77_too_few (h : Entry data temp pres lev outDim levels p0 kappa ex mv junk empty f t r)
    (hf : ∀ a b, Usable (marker mv) data temp pres lev f a → Usable (marker mv) data temp pres lev f b → a = b) : r = none := by
  obtain ⟨v, rfl, hR⟩ := h.raw
  rw [hR.few hf, decode_marker]

/-- C77. A target between two usable levels that are neighbours in potential temperature (no usable level lies strictly between them or
shares their potential temperature) lies on the line through them, hence between their values. The levels need not be stored in any order. -/
theorem C77_between (h : Entry data temp pres lev outDim levels p0 kappa ex mv junk empty f t r) {a b : ℕ}
    (ha : Usable (marker mv) data temp pres lev f a) (hb : Usable (marker mv) data temp pres lev f b)
    (hat : theta temp pres lev p0 kappa f a < t) (hbt : t < theta temp pres lev p0 kappa f b)
    (hnb : ∀ k, Usable (marker mv) data temp pres lev f k → k = a ∨ k = b ∨
      theta temp pres lev p0 kappa f k < theta temp pres lev p0 kappa f a ∨ theta temp pres lev p0 kappa f b < theta temp pres lev p0 kappa f k) :
    ∃ v, (v ≠ marker mv → r = some v) ∧
      OnLine (theta temp pres lev p0 kappa f a) (value data lev f a) (theta temp pres lev p0 kappa f b) (value data lev f b) t v ∧
      min (value data lev f a) (value data lev f b) ≤ v ∧ v ≤ max (value data lev f a) (value data lev f b) := by
  obtain ⟨v, rfl, hR⟩ := h.raw
  have e := hR.between a b ha hb hat hbt
    (by
      intro k hk hkt
      rcases hnb k hk with h | h | h | h
      · subst h; linarith
      · subst h; linarith
      · linarith
      · linarith)
    (by
      intro k hk hkt
      rcases hnb k hk with h | h | h | h
      · exact Or.inl h
      · subst h; linarith
      · exact Or.inr (Or.inl h)
      · linarith)
    (by
      intro k hk hkt
      rcases hnb k hk with h | h | h | h
      · subst h; linarith
      · exact Or.inl h
      · linarith
      · exact Or.inr (Or.inl h))
  generalize theta temp pres lev p0 kappa f a = s at *
  generalize theta temp pres lev p0 kappa f b = s' at *
  generalize value data lev f a = x at *
  generalize value data lev f b = x' at *
  have hpos : 0 < s' - s := by linarith
  refine ⟨v, fun hv => decode_ne hv, ?_, ?_⟩
  · unfold OnLine
    rw [e]
    field_simp
    ring
  · have hw0 : 0 ≤ (t - s) / (s' - s) := div_nonneg (by linarith) hpos.le
    have hw1 : (t - s) / (s' - s) ≤ 1 := (div_le_one hpos).2 (by linarith)
    have ev : v = x + (x' - x) * ((t - s) / (s' - s)) := by rw [e]; ring
    generalize (t - s) / (s' - s) = w at *
    rw [ev]
    constructor
    · rcases le_total x x' with hx | hx
      · rw [min_eq_left hx]; nlinarith
      · rw [min_eq_right hx]; nlinarith
    · rcases le_total x x' with hx | hx
      · rw [max_eq_right hx]; nlinarith
      · rw [max_eq_left hx]; nlinarith

/-- C77. A target equal to the potential temperature of a usable level gets that level's value (the first such level, if several). -/
theorem C77_exact (h : Entry data temp pres lev outDim levels p0 kappa ex mv junk empty f t r) {m k : ℕ}
    (hm : Usable (marker mv) data temp pres lev f m) (hk : Usable (marker mv) data temp pres lev f k) (hne : m ≠ k)
    (hmt : theta temp pres lev p0 kappa f m = t)
    (hfirst : ∀ j, Usable (marker mv) data temp pres lev f j → theta temp pres lev p0 kappa f j = t → m ≤ j) : r = some (value data lev f m) := by
  obtain ⟨v, rfl, hR⟩ := h.raw
  rw [hR.exact m k hm hk hne m hm hmt hfirst]
  apply decode_ne
  obtain ⟨-, d, _, _, e, -, -, hd, -⟩ := hm
  rw [value, e]
  exact hd

/-- C77. Without extrapolation a target outside the potential temperatures of the usable levels is missing. -/
theorem C77_outside (h : Entry data temp pres lev outDim levels p0 kappa false mv junk empty f t r)
    (ho : (∀ k, Usable (marker mv) data temp pres lev f k → t < theta temp pres lev p0 kappa f k) ∨
      (∀ k, Usable (marker mv) data temp pres lev f k → theta temp pres lev p0 kappa f k < t)) : r = none := by
  obtain ⟨v, rfl, hR⟩ := h.raw
  have : v = marker mv := by
    by_cases hf : ∀ a b, Usable (marker mv) data temp pres lev f a → Usable (marker mv) data temp pres lev f b → a = b
    · exact hR.few hf
    · push Not at hf
      obtain ⟨a, b, ha, hb, hne⟩ := hf
      rcases ho with ho | ho
      · exact (hR.below a b ha hb hne ho).1 rfl
      · exact (hR.above a b ha hb hne ho).1 rfl
  rw [this, decode_marker]

/-! ### C78: constant extrapolation -/

/-- C78. With extrapolation a target beyond one end gets the value of the usable level at that end. -/
theorem C78_ends (h : Entry data temp pres lev outDim levels p0 kappa true mv junk empty f t r) {m k : ℕ}
    (hm : Usable (marker mv) data temp pres lev f m) (hk : Usable (marker mv) data temp pres lev f k) (hne : m ≠ k)
    (he : t < theta temp pres lev p0 kappa f m ∧ (∀ j, Usable (marker mv) data temp pres lev f j → j = m ∨
        theta temp pres lev p0 kappa f m < theta temp pres lev p0 kappa f j) ∨
      theta temp pres lev p0 kappa f m < t ∧ (∀ j, Usable (marker mv) data temp pres lev f j → j = m ∨
        theta temp pres lev p0 kappa f j < theta temp pres lev p0 kappa f m)) : r = some (value data lev f m) := by
  obtain ⟨v, rfl, hR⟩ := h.raw
  have hv : v = value data lev f m := by
    rcases he with ⟨h1, h2⟩ | ⟨h1, h2⟩
    · refine (hR.below m k hm hk hne ?_).2 m rfl hm ?_
      · intro j hj
        rcases h2 j hj with h | h
        · rw [h]; exact h1
        · exact h1.trans h
      · intro j hj
        rcases h2 j hj with h | h
        · exact Or.inl h
        · exact Or.inr (Or.inl h)
    · refine (hR.above m k hm hk hne ?_).2 m rfl hm ?_
      · intro j hj
        rcases h2 j hj with h | h
        · rw [h]; exact h1
        · exact h.trans h1
      · intro j hj
        rcases h2 j hj with h | h
        · exact Or.inl h
        · exact Or.inr (Or.inl h)
  rw [hv]
  apply decode_ne
  obtain ⟨-, d, _, _, e, -, -, hd, -⟩ := hm
  rw [value, e]
  exact hd
end

/-! ### C79: only the usable (theta, value) pairs matter -/

theorem exists_least {U : ℕ → Prop} {n : ℕ} (hU : ∀ k, U k → k < n) (hne : ∃ k, U k) (th : ℕ → ℝ) : ∃ m, U m ∧ ∀ k, U k → th m ≤ th k := by
  classical
  obtain ⟨k0, hk0⟩ := hne
  obtain ⟨m, hm, hmin⟩ := Finset.exists_min_image ((Finset.range n).filter U) th ⟨k0, by simp [hk0, hU k0 hk0]⟩
  simp only [Finset.mem_filter, Finset.mem_range] at hm hmin
  exact ⟨m, hm.2, fun k hk => hmin k ⟨hU k hk, hk⟩⟩

theorem exists_greatest {U : ℕ → Prop} {n : ℕ} (hU : ∀ k, U k → k < n) (hne : ∃ k, U k) (th : ℕ → ℝ) : ∃ m, U m ∧ ∀ k, U k → th k ≤ th m := by
  obtain ⟨m, h1, h2⟩ := exists_least hU hne fun k => - th k
  exact ⟨m, h1, fun k hk => by have := h2 k hk; linarith⟩

/-- Two columns with the same set of usable (theta, value) pairs, distinct thetas. -/
theorem raw_unique {U U' : ℕ → Prop} {n n' : ℕ} (hU : ∀ k, U k → k < n) {th th' val val' : ℕ → ℝ} {t : ℝ} {ex : Bool} {spvl v v' : ℝ}
    (h : RawSpec U th val t ex spvl v) (h' : RawSpec U' th' val' t ex spvl v') (_hU' : ∀ k, U' k → k < n')
    (inj : ∀ a b, U a → U b → th a = th b → a = b) (inj' : ∀ a b, U' a → U' b → th' a = th' b → a = b)
    (fwd : ∀ a, U a → ∃ a', U' a' ∧ th' a' = th a ∧ val' a' = val a) (bwd : ∀ a', U' a' → ∃ a, U a ∧ th' a' = th a ∧ val' a' = val a) :
    v' = v := by
  by_cases hf : ∀ a b, U a → U b → a = b
  · rw [h.few hf, h'.few]
    intro a' b' ha' hb'
    obtain ⟨a, ha, e1, -⟩ := bwd a' ha'
    obtain ⟨b, hb, e2, -⟩ := bwd b' hb'
    apply inj' a' b' ha' hb'
    rw [e1, e2, hf a b ha hb]
  · push Not at hf
    obtain ⟨a, b, ha, hb, hne⟩ := hf
    obtain ⟨a', ha', ea, -⟩ := fwd a ha
    obtain ⟨b', hb', eb, -⟩ := fwd b hb
    have hne' : a' ≠ b' := by
      intro hc
      subst hc
      exact hne (inj a b ha hb (ea.symm.trans eb))
    have lexof : ∀ x y, U x → U y → th x ≤ th y → y = x ∨ Lex th x y := by
      intro x y hx hy hxy
      by_cases hc : y = x
      · exact Or.inl hc
      · exact Or.inr (Or.inl (lt_of_le_of_ne hxy fun he => hc (inj x y hx hy he).symm))
    have lexof' : ∀ x y, U' x → U' y → th' x ≤ th' y → y = x ∨ Lex th' x y := by
      intro x y hx hy hxy
      by_cases hc : y = x
      · exact Or.inl hc
      · exact Or.inr (Or.inl (lt_of_le_of_ne hxy fun he => hc (inj' x y hx hy he).symm))
    by_cases c1 : ∀ k, U k → t < th k
    · have c1' : ∀ k, U' k → t < th' k := by
        intro k hk
        obtain ⟨j, hj, e, -⟩ := bwd k hk
        rw [e]; exact c1 j hj
      obtain ⟨g1, g2⟩ := h.below a b ha hb hne c1
      obtain ⟨g1', g2'⟩ := h'.below a' b' ha' hb' hne' c1'
      cases ex with
      | false => rw [g1 rfl, g1' rfl]
      | true =>
        obtain ⟨m, hm, hmin⟩ := exists_least hU ⟨a, ha⟩ th
        obtain ⟨m', hm', em, evm⟩ := fwd m hm
        rw [g2 m rfl hm fun k hk => lexof m k hm hk (hmin k hk), g2' m' rfl hm' fun k hk => lexof' m' k hm' hk (by
          obtain ⟨j, hj, e, -⟩ := bwd k hk
          rw [em, e]; exact hmin j hj), evm]
    · by_cases c2 : ∀ k, U k → th k < t
      · have c2' : ∀ k, U' k → th' k < t := by
          intro k hk
          obtain ⟨j, hj, e, -⟩ := bwd k hk
          rw [e]; exact c2 j hj
        obtain ⟨g1, g2⟩ := h.above a b ha hb hne c2
        obtain ⟨g1', g2'⟩ := h'.above a' b' ha' hb' hne' c2'
        cases ex with
        | false => rw [g1 rfl, g1' rfl]
        | true =>
          obtain ⟨m, hm, hmax⟩ := exists_greatest hU ⟨a, ha⟩ th
          obtain ⟨m', hm', em, evm⟩ := fwd m hm
          have flip : ∀ x y, x = y ∨ Lex th y x → y = x ∨ Lex th y x := fun x y h => h.imp Eq.symm id
          rw [g2 m rfl hm fun k hk => flip _ _ (lexof k m hk hm (hmax k hk)), g2' m' rfl hm' fun k hk => by
            have := lexof' k m' hk hm' (by
              obtain ⟨j, hj, e, -⟩ := bwd k hk
              rw [em, e]; exact hmax j hj)
            exact this.imp Eq.symm id, evm]
      · by_cases c3 : ∃ m, U m ∧ th m = t
        · obtain ⟨m, hm, hmt⟩ := c3
          obtain ⟨m', hm', em, evm⟩ := fwd m hm
          rw [h.exact a b ha hb hne m hm hmt fun k hk hkt => le_of_eq (inj m k hm hk (hmt.trans hkt.symm)),
            h'.exact a' b' ha' hb' hne' m' hm' (em.trans hmt) fun k hk hkt => le_of_eq (inj' m' k hm' hk ((em.trans hmt).trans hkt.symm)), evm]
        · push Not at c1 c2 c3
          obtain ⟨l0, hl0, hl0t⟩ := c1
          obtain ⟨u0, hu0, hu0t⟩ := c2
          obtain ⟨l, ⟨hl, hlt⟩, hlmax⟩ := exists_greatest (U := fun k => U k ∧ th k < t) (n := n) (fun k hk => hU k hk.1)
            ⟨l0, hl0, lt_of_le_of_ne hl0t (c3 l0 hl0)⟩ th
          obtain ⟨u, ⟨hu, hut⟩, humin⟩ := exists_least (U := fun k => U k ∧ t < th k) (n := n) (fun k hk => hU k hk.1)
            ⟨u0, hu0, lt_of_le_of_ne hu0t (Ne.symm (c3 u0 hu0))⟩ th
          obtain ⟨l', hl', el, evl⟩ := fwd l hl
          obtain ⟨u', hu', eu, evu⟩ := fwd u hu
          rw [h.between l u hl hu hlt hut c3 (fun k hk hkt => (lexof k l hk hl (hlmax k ⟨hk, hkt⟩)).imp Eq.symm id)
            (fun k hk hkt => lexof u k hu hk (humin k ⟨hk, hkt⟩)),
            h'.between l' u' hl' hu' (el ▸ hlt) (eu ▸ hut)
              (by
                intro k hk
                obtain ⟨j, hj, e, -⟩ := bwd k hk
                rw [e]; exact c3 j hj)
              (by
                intro k hk hkt
                obtain ⟨j, hj, e, -⟩ := bwd k hk
                exact (lexof' k l' hk hl' (by rw [e, el]; exact hlmax j ⟨hj, e ▸ hkt⟩)).imp Eq.symm id)
              (by
                intro k hk hkt
                obtain ⟨j, hj, e, -⟩ := bwd k hk
                exact lexof' u' k hu' hk (by rw [e, eu]; exact humin j ⟨hj, e ▸ hkt⟩)), el, eu, evl, evu]

/-- C79. Two calls (different arrays, layouts, level orders, extra missing levels, other columns, other targets, other memory contents) whose
columns at `f` and `f'` have the same usable (theta, value) pairs, with distinct thetas, agree there for the same target, `extrapolate` and
missing value. -/
theorem C79_only_usable_pairs {data temp pres data' temp' pres' : XArr D} {lev outDim lev' outDim' : D} {levels levels' : List ℝ}
    {p0 kappa p0' kappa' : ℝ} {ex : Bool} {mv : Option ℝ} {junk empty junk' empty' : ℕ → ℝ} {f f' : D → ℕ} {t : ℝ} {r r' : Option ℝ}
    (h : Entry data temp pres lev outDim levels p0 kappa ex mv junk empty f t r)
    (h' : Entry data' temp' pres' lev' outDim' levels' p0' kappa' ex mv junk' empty' f' t r')
    (inj : ∀ a b, Usable (marker mv) data temp pres lev f a → Usable (marker mv) data temp pres lev f b →
      theta temp pres lev p0 kappa f a = theta temp pres lev p0 kappa f b → a = b)
    (inj' : ∀ a b, Usable (marker mv) data' temp' pres' lev' f' a → Usable (marker mv) data' temp' pres' lev' f' b →
      theta temp' pres' lev' p0' kappa' f' a = theta temp' pres' lev' p0' kappa' f' b → a = b)
    (same : ∀ s x, (∃ k, Usable (marker mv) data temp pres lev f k ∧ theta temp pres lev p0 kappa f k = s ∧ value data lev f k = x) ↔
      (∃ k, Usable (marker mv) data' temp' pres' lev' f' k ∧ theta temp' pres' lev' p0' kappa' f' k = s ∧ value data' lev' f' k = x)) :
    r' = r := by
  obtain ⟨v, rfl, hR⟩ := h.raw
  obtain ⟨v', rfl, hR'⟩ := h'.raw
  congr 1
  refine raw_unique (fun k hk => hk.1) hR hR' (fun k hk => hk.1) inj inj' ?_ ?_
  · intro a ha
    obtain ⟨k, h1, h2, h3⟩ := (same _ _).1 ⟨a, ha, rfl, rfl⟩
    exact ⟨k, h1, h2, h3⟩
  · intro a ha
    obtain ⟨k, h1, h2, h3⟩ := (same _ _).2 ⟨a, ha, rfl, rfl⟩
    exact ⟨k, h1, h2.symm, h3.symm⟩

/-! ### C80: dimension order -/

/-- An array over the dimensions `true` (the level) and `false`, both of size 2. -/
def arr2 (dims : List Bool) (hd : ∀ d, d ∈ dims) (v : ℕ → ℕ → ℝ) : XArr Bool :=
  ⟨dims, fun _ => 2, fun f => some (v (f true) (f false)), fun f g h => by rw [h true (hd true), h false (hd false)]⟩

/-- The example: values 0 and 10 on the two levels, temperatures `300 + 20 l + 100 x`. -/
noncomputable def exData : XArr Bool := arr2 [true, false] (by simp) fun l _ => 10 * l
noncomputable def exPres : XArr Bool := arr2 [true, false] (by simp) fun _ _ => 1
noncomputable def exTemp : XArr Bool := arr2 [true, false] (by simp) fun l x => 300 + 20 * l + 100 * x
noncomputable def exTempT : XArr Bool := arr2 [false, true] (by simp) fun l x => 300 + 20 * l + 100 * x

theorem ex_wf : WellFormed exData exTemp exPres true true := ⟨by simp [exData, arr2], by simp [exData, arr2], rfl, rfl, fun _ _ => ⟨rfl, rfl⟩, Or.inl rfl⟩

theorem marker_none : marker none = -9.96921e36 := rfl

theorem ex_usable (temp : XArr Bool) (ht : temp = exTemp) (k : ℕ) (hk : k < 2) : Usable (marker none) exData temp exPres true (fun _ => 0) k := by
  subst ht
  refine ⟨hk, _, _, _, rfl, rfl, rfl, ?_, ?_, ?_, ?_⟩
  · rw [marker_none]
    have : (0 : ℝ) ≤ 10 * ((Function.update (fun _ => 0 : Bool → ℕ) true k) true : ℕ) := by positivity
    intro h; beta_reduce at h; rw [h] at this; norm_num at this
  · rw [marker_none]
    have : (0 : ℝ) ≤ 300 + 20 * ((Function.update (fun _ => 0 : Bool → ℕ) true k) true : ℕ) +
      100 * ((Function.update (fun _ => 0 : Bool → ℕ) true k) false : ℕ) := by positivity
    intro h; beta_reduce at h; rw [h] at this; norm_num at this
  · rw [marker_none]; norm_num
  · norm_num

/-- Non-vacuity of C77: the column of the example at target 310, half way between the two levels. -/
example : ∃ r, Entry exData exTemp exPres true true [310] 1 0 false none (fun _ => 0) (fun _ => 0) (fun _ => 0) 310 r ∧ r = some 5 := by
  obtain ⟨out, e, -⟩ := call_spec ex_wf [310] 1 0 false none (fun _ => 0) (fun _ => 0)
  have he : Entry exData exTemp exPres true true [310] 1 0 false none (fun _ => 0) (fun _ => 0) (fun _ => 0) 310 (out fun _ => 0) :=
    ⟨ex_wf, ⟨fun d _ _ => by simp [exData, arr2], by simp⟩, by simp, _, out, e, rfl⟩
  refine ⟨_, he, ?_⟩
  have t0 : theta exTemp exPres true 1 0 (fun _ => 0) 0 = 300 := by simp [theta, column, exTemp, exPres, arr2]
  have t1 : theta exTemp exPres true 1 0 (fun _ => 0) 1 = 320 := by simp [theta, column, exTemp, exPres, arr2]; norm_num
  have v0 : value exData true (fun _ => 0) 0 = 0 := by simp [value, column, exData, arr2]
  have v1 : value exData true (fun _ => 0) 1 = 10 := by simp [value, column, exData, arr2]
  obtain ⟨v, hv, hl, -⟩ := C77_between he (a := 0) (b := 1) (ex_usable _ rfl 0 (by omega)) (ex_usable _ rfl 1 (by omega)) (by rw [t0]; norm_num)
    (by rw [t1]; norm_num)
    (by
      intro k hk
      have := hk.1
      simp only [exData, arr2] at this
      omega)
  rw [t0, t1, v0, v1] at hl
  unfold OnLine at hl
  have : v = 5 := by linarith
  rw [this] at hv
  exact hv (by rw [marker_none]; norm_num)

/-- C80 (false). The order in which an array stores its dimensions is not irrelevant: with the same labelled temperatures stored as
`(x, lev)` instead of `(lev, x)`, the call still succeeds, but returns 2 instead of 10 at the same labelled position. -/
theorem C80_dimension_order_false : ∃ (temp temp' : XArr Bool) (out out' : (Bool → ℕ) → Option ℝ) (dims dims' : List Bool),
    temp.val = temp'.val ∧ temp.sz = temp'.sz ∧ temp.dims.Perm temp'.dims ∧
    interpToIsentropic exData temp exPres [some 320] true true 1 0 false none (fun _ => 0) (fun _ => 0) = .ok (dims, out) ∧
    interpToIsentropic exData temp' exPres [some 320] true true 1 0 false none (fun _ => 0) (fun _ => 0) = .ok (dims', out') ∧
    out (fun _ => 0) = some 10 ∧ out' (fun _ => 0) = some 2 := by
  obtain ⟨out, e, -⟩ := call_spec ex_wf [320] 1 0 false none (fun _ => 0) (fun _ => 0)
  have he : Entry exData exTemp exPres true true [320] 1 0 false none (fun _ => 0) (fun _ => 0) (fun _ => 0) 320 (out fun _ => 0) :=
    ⟨ex_wf, ⟨fun d _ _ => by simp [exData, arr2], by simp⟩, by simp, _, out, e, rfl⟩
  have t0 : theta exTemp exPres true 1 0 (fun _ => 0) 0 = 300 := by simp [theta, column, exTemp, exPres, arr2]
  have t1 : theta exTemp exPres true 1 0 (fun _ => 0) 1 = 320 := by simp [theta, column, exTemp, exPres, arr2]; norm_num
  have v1 : value exData true (fun _ => 0) 1 = 10 := by simp [value, column, exData, arr2]
  have r1 := C77_exact he (m := 1) (k := 0) (ex_usable _ rfl 1 (by omega)) (ex_usable _ rfl 0 (by omega)) (by omega) t1 (by
    intro j hj hjt
    by_contra hc
    have : j = 0 := by omega
    subst this
    rw [t0] at hjt; norm_num at hjt)
  rw [v1] at r1
  obtain ⟨out', e', h'⟩ := call_raw (data := exData) (temp := exTempT) (pres := exPres) (lev := true) (outDim := true) (pre := []) (post := [false]) rfl
    (by simp [exData, arr2]) (by simp [exTempT, arr2]) (by simp [exPres, arr2]) (by simp [aligned, exTempT, exPres, arr2])
    (by simp [aligned, exData, exTempT, arr2]) (by simp [XArr.shape, exTempT, exData, arr2]) (by simp [XArr.shape, exPres, exData, arr2])
    [320] 1 0 false none (fun _ => 0) (fun _ => 0)
  obtain ⟨v, hv, hR⟩ := h' [] [0] 0 320 (fun _ => 0) (by simp [InB]) (by simp [InB, exData, arr2]) (by simp) (by simp)
  have b0 : exTempT.flat (ravel exData.shape ([] ++ (1 - 1) :: [0])) = some 300 := by
    simp [XArr.flat, XArr.shape, exTempT, exData, arr2, ravel, unravel, List.idxOf, List.findIdx, List.findIdx.go]
  have b1 : exTempT.flat (ravel exData.shape ([] ++ (2 - 1) :: [0])) = some 400 := by
    simp [XArr.flat, XArr.shape, exTempT, exData, arr2, ravel, unravel, List.idxOf, List.findIdx, List.findIdx.go]
    norm_num
  have d0 : exData.flat (ravel exData.shape ([] ++ (1 - 1) :: [0])) = some 0 := by
    simp [XArr.flat, XArr.shape, exData, arr2, ravel, unravel, List.idxOf, List.findIdx, List.findIdx.go]
  have d1 : exData.flat (ravel exData.shape ([] ++ (2 - 1) :: [0])) = some 10 := by
    simp [XArr.flat, XArr.shape, exData, arr2, ravel, unravel, List.idxOf, List.findIdx, List.findIdx.go]
  have pa : ∀ q, exPres.flat q = some 1 := fun q => rfl
  have hv2 := hR.between 1 2
    ⟨le_rfl, by simp [exData, arr2], by beta_reduce; rw [d0, marker_none]; norm_num, by beta_reduce; rw [b0, marker_none]; norm_num,
      by beta_reduce; rw [pa, marker_none]; norm_num, by beta_reduce; rw [pa]; norm_num⟩
    ⟨by omega, by simp [exData, arr2], by beta_reduce; rw [d1, marker_none]; norm_num, by beta_reduce; rw [b1, marker_none]; norm_num,
      by beta_reduce; rw [pa, marker_none]; norm_num, by beta_reduce; rw [pa]; norm_num⟩
    (by beta_reduce; rw [b0, pa]; norm_num) (by beta_reduce; rw [b1, pa]; norm_num)
    (by
      intro k hk
      have h1 := hk.1
      have h2 := hk.2.1
      simp only [exData, arr2] at h2
      have : k = 1 ∨ k = 2 := by omega
      rcases this with rfl | rfl
      · beta_reduce; rw [b0, pa]; norm_num
      · beta_reduce; rw [b1, pa]; norm_num)
    (by
      intro k hk hkt
      have h1 := hk.1
      have h2 := hk.2.1
      simp only [exData, arr2] at h2
      have : k = 1 ∨ k = 2 := by omega
      rcases this with rfl | rfl
      · exact Or.inl rfl
      · beta_reduce at hkt; rw [b1, pa] at hkt; norm_num at hkt)
    (by
      intro k hk hkt
      have h1 := hk.1
      have h2 := hk.2.1
      simp only [exData, arr2] at h2
      have : k = 1 ∨ k = 2 := by omega
      rcases this with rfl | rfl
      · beta_reduce at hkt; rw [b0, pa] at hkt; norm_num at hkt
      · exact Or.inl rfl)
  beta_reduce at hv2
  rw [b0, b1, d0, d1, pa, pa] at hv2
  have hv3 : v = 2 := by rw [hv2]; norm_num
  refine ⟨exTemp, exTempT, out, out', _, _, rfl, rfl, List.Perm.swap _ _ _, e, e', r1, ?_⟩
  rw [hv, hv3]
  exact decode_ne (by rw [marker_none]; norm_num)

/-- C80 (partial). When all three arrays store their dimensions in the same order, that order is irrelevant: storing all of them in another
order gives the same value at the same labelled position (for columns with distinct potential temperatures). -/
theorem C80_dimension_order_partial {data temp pres data' temp' pres' : XArr D} {lev outDim : D} {levels : List ℝ}
    {p0 kappa : ℝ} {ex : Bool} {mv : Option ℝ} {junk empty junk' empty' : ℕ → ℝ} {f : D → ℕ} {t : ℝ} {r r' : Option ℝ}
    (h : Entry data temp pres lev outDim levels p0 kappa ex mv junk empty f t r)
    (h' : Entry data' temp' pres' lev outDim levels p0 kappa ex mv junk' empty' f t r')
    (hd : data'.val = data.val) (ht : temp'.val = temp.val) (hp : pres'.val = pres.val) (hs : data'.sz = data.sz)
    (inj : ∀ a b, Usable (marker mv) data temp pres lev f a → Usable (marker mv) data temp pres lev f b →
      theta temp pres lev p0 kappa f a = theta temp pres lev p0 kappa f b → a = b) : r' = r := by
  have e1 : Usable (marker mv) data' temp' pres' lev f = Usable (marker mv) data temp pres lev f := by
    funext k; unfold Usable column; rw [hd, ht, hp, hs]
  have e2 : theta temp' pres' lev p0 kappa f = theta temp pres lev p0 kappa f := by funext k; unfold theta column; rw [ht, hp]
  have e3 : value data' lev f = value data lev f := by funext k; unfold value column; rw [hd]
  refine C79_only_usable_pairs h h' inj (by rw [e1, e2]; exact inj) ?_
  rw [e1, e2, e3]
  intro s x
  exact Iff.rfl

end Skyborn.Isen
