/-
C215, C218: which calls are refused and how; which objects can be made.
-/
import Verif.RedGauss.SameProps

namespace Skyborn.RedGauss

open Skyborn Sphere

variable {lib : Lib} {c : Cfg} {E E' : Env}

theorem error_iff {α : Type} {x : M α} {P : World × Caches → Prop} {φ : α → Prop} {ε : Fail → Prop} (h : Tri P x φ ε) (h1 : ∀ a e, φ a → ¬ ε e) (h2 : ∀ e f, ε e → ε f → e = f)
    {s : World × Caches} (hs : P s) (e : Fail) : (exec x s).1 = .error e ↔ ε e := by
  have hx := (h s hs).2
  revert hx
  cases (exec x s).1 with
  | error f => exact fun hx => ⟨fun h => by simp only [Except.error.injEq] at h; exact h ▸ hx, fun h => by rw [h2 _ _ h hx]⟩
  | ok a => exact fun hx => ⟨fun h => by simp at h, fun h => absurd h (h1 a e hx)⟩

/-- A packed array of the grid: the first dimension is the number of points. -/
def Spec.GoodGrid (pl : List ℕ) (x : NDArr ℝ) : Prop := ∃ extra, x.shape = pl.sum :: extra

/-- A triangular spectrum of at most `nlat - 1` degrees. -/
def Spec.GoodSpec (nlat : ℕ) (s : NDArr ℂ) : Prop := ∃ T extra, s.shape = (T + 1) * (T + 2) / 2 :: extra ∧ T < nlat

/-- A truncation the grid has. -/
def Spec.GoodTrunc (nlat : ℕ) (t : Option ℤ) : Prop := ∀ k, t = some k → 0 ≤ k ∧ k < nlat

/-- No slice: one of the extra dimensions has length zero. -/
def Spec.NoSlice {α : Type} (x : NDArr α) : Prop := 0 ∈ x.shape.tail

theorem goodTrunc_iff (h3 : 3 ≤ c.nlat) (t : Option ℤ) : Spec.GoodTrunc c.nlat t ↔ ∃ T, Sphere.Spec.Truncation c.nlat t T := by
  constructor
  · intro h
    cases t with
    | none => exact ⟨_, .inl ⟨rfl, rfl⟩⟩
    | some k =>
      obtain ⟨a, b⟩ := h k rfl
      exact ⟨k.toNat, .inr ⟨by congr 1; omega, by omega⟩⟩
  · rintro ⟨T, ⟨rfl, rfl⟩ | ⟨rfl, h⟩⟩ k hk
    · simp at hk
    · simp at hk; omega

theorem noSlice_iff {α : Type} {x : NDArr α} {n : ℕ} {extra : List ℕ} (h : x.shape = n :: extra) : Spec.NoSlice x ↔ extra.prod = 0 := by
  unfold Spec.NoSlice
  rw [h, List.tail_cons, List.prod_eq_zero_iff]

theorem gridRefusal_iff (h3 : 3 ≤ c.nlat) (x : NDArr ℝ) (t : Option ℤ) (e : Fail) :
    GridRefusal c x t e ↔ (e = .validation ∧ ¬ (Spec.GoodGrid c.pl x ∧ Spec.GoodTrunc c.nlat t)) ∨ (e = .spherepack 3 ∧ Spec.GoodGrid c.pl x ∧ Spec.GoodTrunc c.nlat t ∧ Spec.NoSlice x) := by
  unfold GridRefusal
  rw [goodTrunc_iff h3]
  refine or_congr (and_congr_right fun _ => ?_) (and_congr_right fun _ => ?_)
  · unfold Spec.GoodGrid Spec.IsGridShape; push Not; constructor
    · rintro (h | h) ⟨ex, hx⟩
      · exact absurd hx (h ex)
      · exact h
    · intro h
      by_cases hx : ∃ extra, x.shape = c.pl.sum :: extra
      · exact .inr (h hx)
      · push Not at hx; exact .inl hx
  · constructor
    · rintro ⟨⟨ex, h, h0⟩, hT⟩; exact ⟨⟨ex, h⟩, hT, (noSlice_iff h).mpr h0⟩
    · rintro ⟨⟨ex, h⟩, hT, h0⟩; exact ⟨⟨ex, h, (noSlice_iff h).mp h0⟩, hT⟩

theorem specRefusal_iff (s : NDArr ℂ) (e : Fail) :
    SpecRefusal c s e ↔ (e = .validation ∧ ¬ Spec.GoodSpec c.nlat s) ∨ (e = .spherepack 4 ∧ Spec.GoodSpec c.nlat s ∧ Spec.NoSlice s) := by
  unfold SpecRefusal
  refine or_congr (and_congr_right fun _ => ?_) (and_congr_right fun _ => ?_)
  · unfold Spec.GoodSpec Spec.IsSpecShape; push Not; rfl
  · constructor
    · rintro ⟨T, ex, h, h0⟩; exact ⟨⟨T, ex, h⟩, (noSlice_iff h.1).mpr h0⟩
    · rintro ⟨⟨T, ex, h⟩, h0⟩; exact ⟨T, ex, h, (noSlice_iff h.1).mp h0⟩

theorem pairRefusal_iff (s t : NDArr ℂ) (e : Fail) :
    PairRefusal c s t e ↔ (e = .validation ∧ ¬ (s.shape = t.shape ∧ Spec.GoodSpec c.nlat s)) ∨ (e = .spherepack 4 ∧ s.shape = t.shape ∧ Spec.GoodSpec c.nlat s ∧ Spec.NoSlice s) := by
  unfold PairRefusal
  refine or_congr (and_congr_right fun _ => ?_) (and_congr_right fun _ => ?_)
  · unfold Spec.GoodSpec Spec.IsSpecShape
    rw [not_and_or]; push Not; rfl
  · constructor
    · rintro ⟨T, ex, h, hst, h0⟩; exact ⟨hst.symm, ⟨T, ex, h⟩, (noSlice_iff h.1).mpr h0⟩
    · rintro ⟨hst, ⟨T, ex, h⟩, h0⟩; exact ⟨T, ex, h, hst.symm, (noSlice_iff h.1).mp h0⟩

theorem windRefusal_iff (h3 : 3 ≤ c.nlat) (u v : NDArr ℝ) (t : Option ℤ) (e : Fail) :
    WindRefusal c u v t e ↔ (e = .validation ∧ ¬ (u.shape = v.shape ∧ Spec.GoodGrid c.pl u ∧ Spec.GoodTrunc c.nlat t)) ∨
      (e = .spherepack 3 ∧ u.shape = v.shape ∧ Spec.GoodGrid c.pl u ∧ Spec.GoodTrunc c.nlat t ∧ Spec.NoSlice u) := by
  unfold WindRefusal
  rw [goodTrunc_iff h3]
  refine or_congr (and_congr_right fun _ => ?_) (and_congr_right fun _ => ?_)
  · unfold Spec.GoodGrid Spec.IsGridShape
    rw [not_and_or, not_and_or]; push Not; rfl
  · constructor
    · rintro ⟨⟨ex, h, hst, h0⟩, hT⟩; exact ⟨hst.symm, ⟨ex, h⟩, hT, (noSlice_iff h).mpr h0⟩
    · rintro ⟨hst, ⟨ex, h⟩, hT, h0⟩; exact ⟨⟨ex, h, hst.symm, (noSlice_iff h).mp h0⟩, hT⟩

/-- C215: a call is refused exactly when its arguments do not fit the grid, with a `ValidationError`, or when there is no
slice to transform, with an error of the compiled routine. -/
theorem C215_refusals (hl : lib.Sound) {st : World × Caches} (hst : Live lib c st) (hE : E.ok) (hE' : E'.ok) (e : Fail) :
    (∀ x t, (exec (grdtospecM E lib c x t) st).1 = .error e ↔
      (e = .validation ∧ ¬ (Spec.GoodGrid c.pl x ∧ Spec.GoodTrunc c.nlat t)) ∨ (e = .spherepack 3 ∧ Spec.GoodGrid c.pl x ∧ Spec.GoodTrunc c.nlat t ∧ Spec.NoSlice x)) ∧
    (∀ s, (exec (spectogrdM E lib c s) st).1 = .error e ↔ (e = .validation ∧ ¬ Spec.GoodSpec c.nlat s) ∨ (e = .spherepack 4 ∧ Spec.GoodSpec c.nlat s ∧ Spec.NoSlice s)) ∧
    (∀ s t, (exec (spectogrdPairM E E' lib c s t) st).1 = .error e ↔
      (e = .validation ∧ ¬ (s.shape = t.shape ∧ Spec.GoodSpec c.nlat s)) ∨ (e = .spherepack 4 ∧ s.shape = t.shape ∧ Spec.GoodSpec c.nlat s ∧ Spec.NoSlice s)) ∧
    (∀ u v t, (exec (getvrtdivspecM E lib c u v t) st).1 = .error e ↔
      (e = .validation ∧ ¬ (u.shape = v.shape ∧ Spec.GoodGrid c.pl u ∧ Spec.GoodTrunc c.nlat t)) ∨
      (e = .spherepack 3 ∧ u.shape = v.shape ∧ Spec.GoodGrid c.pl u ∧ Spec.GoodTrunc c.nlat t ∧ Spec.NoSlice u)) ∧
    (∀ u v t k, k = 1 ∨ k = 2 → ((exec (getcomponentM E lib c u v t k) st).1 = .error e ↔
      (e = .validation ∧ ¬ (u.shape = v.shape ∧ Spec.GoodGrid c.pl u ∧ Spec.GoodTrunc c.nlat t)) ∨
      (e = .spherepack 3 ∧ u.shape = v.shape ∧ Spec.GoodGrid c.pl u ∧ Spec.GoodTrunc c.nlat t ∧ Spec.NoSlice u))) ∧
    (∀ s t, (exec (getuvM E lib c s t) st).1 = .error e ↔
      (e = .validation ∧ ¬ (s.shape = t.shape ∧ Spec.GoodSpec c.nlat s)) ∨ (e = .spherepack 4 ∧ s.shape = t.shape ∧ Spec.GoodSpec c.nlat s ∧ Spec.NoSlice s)) ∧
    (∀ s, (exec (getgradM E lib c s) st).1 = .error e ↔ (e = .validation ∧ ¬ Spec.GoodSpec c.nlat s) ∨ (e = .spherepack 4 ∧ Spec.GoodSpec c.nlat s ∧ Spec.NoSlice s)) ∧
    (∀ s t, (exec (getgradPairM E lib c s t) st).1 = .error e ↔
      (e = .validation ∧ ¬ (s.shape = t.shape ∧ Spec.GoodSpec c.nlat s)) ∨ (e = .spherepack 4 ∧ s.shape = t.shape ∧ Spec.GoodSpec c.nlat s ∧ Spec.NoSlice s)) ∧
    ∀ x f, (exec (specsmoothM E E' lib c x f) st).1 = .error e ↔
      (e = .validation ∧ ¬ (f.shape = [c.nlat] ∧ Spec.GoodGrid c.pl x)) ∨ (e = .spherepack 3 ∧ f.shape = [c.nlat] ∧ Spec.GoodGrid c.pl x ∧ Spec.NoSlice x) := by
  obtain ⟨hc, hs⟩ := hst.good hl
  refine ⟨fun x t => ?_, fun s => ?_, fun s t => ?_, fun u v t => ?_, fun u v t k hk => ?_, fun s t => ?_, fun s => ?_, fun s t => ?_, fun x f => ?_⟩
  · rw [← gridRefusal_iff hc.h3]
    exact error_iff (grdtospecM_tri hE hl hc x t) (fun a e ⟨_, _, h1, h2, h3, _⟩ => not_gridRefusal h1 h2 h3 e) (fun _ _ h h' => gridRefusal_same h h') hs e
  · rw [← specRefusal_iff]
    exact error_iff (spectogrdM_tri hE hl hc s) (fun a e ⟨_, _, h1, h2, _⟩ => not_specRefusal h1 h2 e) (fun _ _ h h' => specRefusal_same h h') hs e
  · rw [← pairRefusal_iff]
    exact error_iff (spectogrdPairM_tri hE hE' hl hc s t) (fun a e ⟨_, _, h1, h2, h3, _⟩ => not_pairRefusal h1 h2 h3 e) (fun _ _ h h' => pairRefusal_same h h') hs e
  · rw [← windRefusal_iff hc.h3]
    exact error_iff (getvrtdivspecM_tri hE hl hc u v t) (fun a e ⟨_, _, h1, h2, h3, h4, _⟩ => not_windRefusal h1 h2 h3 h4 e) (fun _ _ h h' => windRefusal_same h h') hs e
  · rw [← windRefusal_iff hc.h3]
    exact error_iff (getcomponentM_tri hk hE hl hc u v t) (fun a e ⟨_, _, h1, h2, h3, h4, _⟩ => not_windRefusal h1 h2 h3 h4 e) (fun _ _ h h' => windRefusal_same h h') hs e
  · rw [← pairRefusal_iff]
    exact error_iff (getuvM_tri hE hl hc s t) (fun a e ⟨_, _, h1, h2, h3, _⟩ => not_pairRefusal h1 h2 h3 e) (fun _ _ h h' => pairRefusal_same h h') hs e
  · rw [← specRefusal_iff]
    exact error_iff (getgradM_tri hE hl hc s) (fun a e ⟨_, _, h1, h2, _⟩ => not_specRefusal h1 h2 e) (fun _ _ h h' => specRefusal_same h h') hs e
  · rw [← pairRefusal_iff]
    exact error_iff (getgradPairM_tri hE hl hc s t) (fun a e ⟨_, _, h1, h2, h3, _⟩ => not_pairRefusal h1 h2 h3 e) (fun _ _ h h' => pairRefusal_same h h') hs e
  · have : SmoothRefusal c x f e ↔ (e = .validation ∧ ¬ (f.shape = [c.nlat] ∧ Spec.GoodGrid c.pl x)) ∨
        (e = .spherepack 3 ∧ f.shape = [c.nlat] ∧ Spec.GoodGrid c.pl x ∧ Spec.NoSlice x) := by
      unfold SmoothRefusal
      refine or_congr (and_congr_right fun _ => ?_) (and_congr_right fun _ => and_congr_right fun _ => ?_)
      · unfold Spec.GoodGrid Spec.IsGridShape
        rw [not_and_or]; push Not; rfl
      · constructor
        · rintro ⟨ex, h, h0⟩; exact ⟨⟨ex, h⟩, (noSlice_iff h).mpr h0⟩
        · rintro ⟨⟨ex, h⟩, h0⟩; exact ⟨ex, h, (noSlice_iff h).mp h0⟩
    rw [← this]
    exact error_iff (specsmoothM_tri hE hE' hl hc x f) (fun a e ⟨_, h1, h2, h3, _⟩ => not_smoothRefusal h1 h2 h3 e) (fun _ _ h h' => smoothRefusal_same h h') hs e

/-! ### Construction -/

/-- The words `precision` accepts, in any letter case. -/
def Spec.PrecisionWord (p : String) (q : Prec) : Prop :=
  (p.toLower = "auto" ∧ q = .auto) ∨ ((p.toLower = "single" ∨ p.toLower = "float32") ∧ q = .single) ∨ ((p.toLower = "double" ∨ p.toLower = "float64") ∧ q = .double)

theorem validatePrecision_iff (p : String) (q : Prec) : validatePrecision p = .ok q ↔ Spec.PrecisionWord p q := by
  unfold validatePrecision Spec.PrecisionWord
  generalize p.toLower = s
  split <;> simp_all [eq_comm]

theorem validatePrecision_error (p : String) {e : Fail} (h : validatePrecision p = .error e) : e = .validation := by
  unfold validatePrecision at h
  split at h <;> simp_all

/-- `__init__` in a module state that is in order. -/
theorem construct_spec {W : World} (hg : WorldGood lib W) (pl : NDArr ℤ) (r : ℝ) (lf p : String) :
    ((∃ n q, pl.shape = [n] ∧ 3 ≤ n ∧ (∀ j, j < n → 4 ≤ pl.get [j]) ∧ (lf = "stored" ∨ lf = "computed") ∧ Spec.PrecisionWord p q ∧ 0 < r) ↔
      ∃ c W', construct lib W pl r lf p = .ok (c, W')) ∧
    (∀ c W', construct lib W pl r lf p = .ok (c, W') → pl.shape = [c.pl.length] ∧ (∀ j, j < c.pl.length → (c.pl.getD j 0 : ℤ) = pl.get [j]) ∧ c.rsphere = r ∧ c.legfunc = lf ∧
      Spec.PrecisionWord p c.precision ∧ c.weights = lib.weight c.pl.length ∧ ∀ j, c.sinTheta j = Real.sin (lib.theta c.pl.length j)) ∧
    ∀ e, construct lib W pl r lf p = .error e → e = .validation := by
  have hcons : ∀ c W', construct lib W pl r lf p = .ok (c, W') → c.Valid lib ∧ ∃ n q, pl.shape = [n] ∧ 3 ≤ n ∧ (∀ j, j < n → 4 ≤ pl.get [j]) ∧ (lf = "stored" ∨ lf = "computed") ∧
      Spec.PrecisionWord p q ∧ 0 < r ∧ c.pl = (List.range n).map (fun j => (pl.get [j]).toNat) ∧ c.rsphere = r ∧ c.legfunc = lf ∧ c.precision = q := by
    intro c W' h
    refine ⟨(construct_good hg h).1, ?_⟩
    unfold construct at h
    split at h
    · rename_i n hn
      split_ifs at h with h1 h2 h3 h4
      · split at h <;> simp at h
      cases hp : validatePrecision p with
      | error e => rw [hp] at h; simp at h
      | ok q =>
        rw [hp] at h
        dsimp only at h
        simp only [Except.ok.injEq, Prod.mk.injEq] at h
        obtain ⟨rfl, _⟩ := h
        refine ⟨n, q, hn, by omega, fun j hj => ?_, ?_, (validatePrecision_iff p q).mp hp, not_le.mp h4, rfl, rfl, rfl, rfl⟩
        · by_contra hlt
          exact h2 (List.any_eq_true.mpr ⟨j, List.mem_range.mpr hj, by simpa using hlt⟩)
        · by_contra hne
          exact h3 (not_or.mp hne)
    · simp at h
  refine ⟨⟨?_, ?_⟩, ?_, ?_⟩
  · rintro ⟨n, q, h1, h2, h3, h4, h5, h6⟩
    unfold construct
    simp only [h1]
    rw [if_neg (by omega), if_neg, if_neg (by tauto), (validatePrecision_iff p q).mpr h5]
    · dsimp only
      rw [if_neg (not_le.mpr h6)]
      exact ⟨_, _, rfl⟩
    · intro h
      obtain ⟨j, hj, h⟩ := List.any_eq_true.mp h
      have := h3 j (List.mem_range.mp hj)
      simp at h; omega
  · rintro ⟨c, W', h⟩
    obtain ⟨_, n, q, h1, h2, h3, h4, h5, h6, _⟩ := hcons c W' h
    exact ⟨n, q, h1, h2, h3, h4, h5, h6⟩
  · intro c W' h
    obtain ⟨hv, n, q, h1, h2, h3, h4, h5, h6, h7, h8, h9, h10⟩ := hcons c W' h
    have hlen : c.pl.length = n := by rw [h7]; simp
    refine ⟨by rw [hlen]; exact h1, fun j hj => ?_, h8, h9, h10 ▸ h5, hv.hw, hv.hs⟩
    rw [hlen] at hj
    have := h3 j hj
    rw [h7, List.getD_eq_getElem?_getD, List.getElem?_map, List.getElem?_range hj]
    simp; omega
  · intro e h
    unfold construct at h
    split at h
    · split_ifs at h
      · simpa using h.symm
      · simpa using h.symm
      · simpa using h.symm
      all_goals
        split at h
        · rename_i hp; simp at h; subst h; exact validatePrecision_error p hp
        · simp at h <;> exact h.symm
    · simpa using h.symm

/-- C218: after any history, an object is made exactly when `pl` is one-dimensional, has at least three rows of at least
four points, `legfunc` is one of the two words, `precision` is one of the five words and the radius is positive; the object
has the rows, the radius and the modes asked for, the Gaussian weights and the sines of the Gaussian colatitudes, and any
other call raises a `ValidationError`. -/
theorem C218_construct (hl : lib.Sound) {W : World} {objs : List (Cfg × Caches)} (hW : Reach lib W objs) (pl : NDArr ℤ) (r : ℝ) (lf p : String) :
    ((∃ n q, pl.shape = [n] ∧ 3 ≤ n ∧ (∀ j, j < n → 4 ≤ pl.get [j]) ∧ (lf = "stored" ∨ lf = "computed") ∧ Spec.PrecisionWord p q ∧ 0 < r) ↔
      ∃ c W', construct lib W pl r lf p = .ok (c, W')) ∧
    (∀ c W', construct lib W pl r lf p = .ok (c, W') → pl.shape = [c.pl.length] ∧ (∀ j, j < c.pl.length → (c.pl.getD j 0 : ℤ) = pl.get [j]) ∧ c.rsphere = r ∧ c.legfunc = lf ∧
      Spec.PrecisionWord p c.precision ∧ c.weights = lib.weight c.pl.length ∧ ∀ j, c.sinTheta j = Real.sin (lib.theta c.pl.length j)) ∧
    ∀ e, construct lib W pl r lf p = .error e → e = .validation :=
  construct_spec (hW.good hl).1 pl r lf p

end Skyborn.RedGauss
