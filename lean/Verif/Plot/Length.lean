/-
Length of the curly-vector glyphs and of the arrow of the reference key.
Modelled: plot/_core/vector_engine.py:52-196, 799-826, plot/_core/result.py:79-102,
plot/_artists/vector_key_artist.py:405-417.
-/
import Mathlib.Analysis.SpecialFunctions.Sqrt

namespace Skyborn.Plot.Length

/-! ## Model -/

/-- `np.clip(x, 0.0, 1.0)`. -/
noncomputable def clip01 (x : ℝ) : ℝ := min (max x 0) 1

/-- The constant 1e-12. -/
noncomputable def tiny : ℝ := 1 / 10 ^ 12

/-- plot/_core/vector_engine.py:52-60 `_default_ncl_max_length_px`; a panel `w` by `h` pixels. -/
noncomputable def defaultMax (w h densityX densityY : ℝ) : ℝ :=
  let nx := max (30 * max densityX (1 / 10)) 1
  let ny := max (30 * max densityY (1 / 10)) 1
  max (Real.sqrt ((w / nx * (w / nx) + h / ny * (h / ny)) / 2)) 1

/-- The dictionary returned at plot/_core/vector_engine.py:171-180 (what is read of it). -/
structure Scale where
  /-- `min_mag` -/ minMag : ℝ
  /-- `max_mag` -/ maxMag : ℝ
  /-- `ref_length_px` -/ refLength : ℝ
  /-- `min_length_px` -/ minLength : ℝ
  /-- `max_length_px` -/ maxLength : ℝ
  /-- `adjust_min` -/ adjust : Bool

open Classical in
/-- plot/_core/vector_engine.py:93-180 `_resolve_ncl_length_scale`; `ref ≤ 0`, `req ≤ 0`: not given. -/
noncomputable def scale (minMag maxMag ref req minFrac dflt : ℝ) : Scale :=
  let uvmn := minMag
  let uvmx := max maxMag tiny
  let vfr := clip01 minFrac
  let rdmx := max dflt 1
  if uvmx - uvmn ≤ tiny then
    if 0 < req ∧ 0 < ref then ⟨uvmn, uvmx, req, req, req * uvmx / max ref tiny, false⟩
    else if 0 < ref then ⟨uvmn, uvmx, rdmx * ref / uvmx, rdmx * ref / uvmx, rdmx, false⟩
    else if 0 < req then ⟨uvmn, uvmx, req, req, req, false⟩
    else ⟨uvmn, uvmx, rdmx, rdmx, rdmx, false⟩
  else if ref ≤ 0 then
    let rdmx := if 0 < req then req else rdmx
    if 0 < vfr then ⟨uvmn, uvmx, rdmx, vfr * rdmx, rdmx, true⟩
    else ⟨uvmn, uvmx, rdmx, rdmx * (uvmn / uvmx), rdmx, false⟩
  else if ref ≤ uvmn then
    if 0 < req then ⟨uvmn, uvmx, req, req * uvmn / max ref tiny, req * uvmx / max ref tiny, true⟩
    else if 0 < vfr then ⟨uvmn, uvmx, rdmx * vfr, rdmx * vfr * uvmn / max ref tiny, rdmx, true⟩
    else ⟨uvmn, uvmx, rdmx * ref / uvmx, rdmx * ref / uvmx * uvmn / max ref tiny, rdmx, true⟩
  else if 0 < vfr then
    if 0 < req then
      ⟨uvmn, uvmx, req, vfr * req, vfr * req + (req - vfr * req) * (uvmx - uvmn) / max (ref - uvmn) tiny, true⟩
    else
      let ratio := (ref - uvmn) / max (uvmx - uvmn) tiny
      let denominator := 1 - vfr + vfr * ratio
      let vrl := if tiny < denominator then rdmx * ratio / denominator else rdmx
      ⟨uvmn, uvmx, vrl, vfr * vrl, rdmx, true⟩
  else
    if 0 < req then ⟨uvmn, uvmx, req, req * uvmn / max ref tiny, req * uvmx / max ref tiny, false⟩
    else ⟨uvmn, uvmx, rdmx * ref / uvmx, rdmx * uvmn / uvmx, rdmx, false⟩

open Classical in
/-- plot/_core/vector_engine.py:183-200 `_curve_length_from_magnitude`. -/
noncomputable def curveLength (m : ℝ) (s : Scale) : ℝ :=
  if s.maxMag - s.minMag ≤ tiny then s.maxLength
  else if s.adjust = false then clip01 (m / s.maxMag) * s.maxLength
  else s.minLength + (s.maxLength - s.minLength) * clip01 ((m - s.minMag) / max (s.maxMag - s.minMag) tiny)

/-- plot/_core/vector_engine.py:799-826 and 887: the length, in pixels, of the glyph of a vector of magnitude
`m` in a plot whose magnitudes range from `minMag` to `maxMag`, on a panel `w` pixels wide and `h` high. `ref`, `refLength`:
`ref_magnitude` and `ref_length`, `none` if not given. -/
noncomputable def glyphLength (w h densityX densityY minMag maxMag : ℝ) (ref refLength : Option ℝ) (minFrac m : ℝ) : ℝ :=
  let req := match refLength with
    | none => 0
    | some r => max (w * r) 1
  curveLength m (scale minMag maxMag (ref.getD 0) req (clip01 minFrac) (defaultMax w h densityX densityY))

open Classical in
/-- plot/_core/result.py:79-96 `glyph_length_axes_fraction` and plot/_artists/vector_key_artist.py:405-417: length of the arrow of
the reference key of magnitude `U`, as a fraction of the width of the panel. `none`: the fallbacks of the key, not modelled. -/
noncomputable def keyLength (w h densityX densityY minMag maxMag : ℝ) (ref refLength : Option ℝ) (minFrac U : ℝ) : Option ℝ :=
  if U ≤ 0 then none
  else
    let l := max (glyphLength w h densityX densityY minMag maxMag ref refLength minFrac U / max w 1) 0
    if 0 < l then some (max l (12 / 1000)) else none

/-! ## Proofs -/

private theorem tiny_pos : 0 < tiny := by unfold tiny; positivity

private theorem clip01_nonneg (x : ℝ) : 0 ≤ clip01 x := le_min (le_max_right _ _) zero_le_one

private theorem clip01_le (x : ℝ) : clip01 x ≤ 1 := min_le_right _ _

private theorem clip01_mono {x y : ℝ} (h : x ≤ y) : clip01 x ≤ clip01 y :=
  min_le_min (max_le_max h le_rfl) le_rfl

private theorem clip01_eq {x : ℝ} (h0 : 0 ≤ x) (h1 : x ≤ 1) : clip01 x = x := by
  unfold clip01; rw [max_eq_left h0, min_eq_left h1]

private theorem scale_mags (minMag maxMag ref req minFrac dflt : ℝ) :
    (scale minMag maxMag ref req minFrac dflt).minMag = minMag ∧
    (scale minMag maxMag ref req minFrac dflt).maxMag = max maxMag tiny := by
  unfold scale
  dsimp only
  split_ifs <;> exact ⟨rfl, rfl⟩

private theorem max_pos (m : ℝ) : 0 < max m tiny := lt_of_lt_of_le tiny_pos (le_max_right _ _)

private theorem nonconst_max {a b : ℝ} (h0 : 0 ≤ a) (h : tiny < b - a) : max b tiny = b :=
  max_eq_left (by linarith)

/-- Scale without a reference magnitude. -/
private theorem scale_noref {a b ref req f dflt : ℝ} (h0 : 0 ≤ a) (h : tiny < b - a) (hr : ref ≤ 0) :
    scale a b ref req f dflt = if 0 < clip01 f then
        ⟨a, b, if 0 < req then req else max dflt 1, clip01 f * (if 0 < req then req else max dflt 1),
          if 0 < req then req else max dflt 1, true⟩
      else ⟨a, b, if 0 < req then req else max dflt 1, (if 0 < req then req else max dflt 1) * (a / b),
          if 0 < req then req else max dflt 1, false⟩ := by
  unfold scale
  dsimp only
  rw [nonconst_max h0 h, if_neg (not_le.mpr h), if_pos hr]

/-- Scale with a reference magnitude not above the smallest magnitude. -/
private theorem scale_below {a b ref req f dflt : ℝ} (h0 : 0 ≤ a) (h : tiny < b - a) (hr : 0 < ref) (hra : ref ≤ a) :
    scale a b ref req f dflt =
      if 0 < req then ⟨a, b, req, req * a / max ref tiny, req * b / max ref tiny, true⟩
      else if 0 < clip01 f then
        ⟨a, b, max dflt 1 * clip01 f, max dflt 1 * clip01 f * a / max ref tiny, max dflt 1, true⟩
      else ⟨a, b, max dflt 1 * ref / b, max dflt 1 * ref / b * a / max ref tiny, max dflt 1, true⟩ := by
  unfold scale
  dsimp only
  rw [nonconst_max h0 h, if_neg (not_le.mpr h), if_neg (not_le.mpr hr), if_pos hra]

/-- Scale with a reference magnitude above the smallest magnitude. -/
private theorem scale_above {a b ref req f dflt : ℝ} (h0 : 0 ≤ a) (h : tiny < b - a) (hr : a < ref) :
    scale a b ref req f dflt = if 0 < clip01 f then
        if 0 < req then ⟨a, b, req, clip01 f * req,
          clip01 f * req + (req - clip01 f * req) * (b - a) / max (ref - a) tiny, true⟩
        else
          ⟨a, b, if tiny < 1 - clip01 f + clip01 f * ((ref - a) / (b - a)) then
            max dflt 1 * ((ref - a) / (b - a)) / (1 - clip01 f + clip01 f * ((ref - a) / (b - a))) else max dflt 1,
            clip01 f * (if tiny < 1 - clip01 f + clip01 f * ((ref - a) / (b - a)) then
              max dflt 1 * ((ref - a) / (b - a)) / (1 - clip01 f + clip01 f * ((ref - a) / (b - a))) else max dflt 1),
            max dflt 1, true⟩
      else if 0 < req then ⟨a, b, req, req * a / max ref tiny, req * b / max ref tiny, false⟩
      else ⟨a, b, max dflt 1 * ref / b, max dflt 1 * a / b, max dflt 1, false⟩ := by
  unfold scale
  dsimp only
  rw [nonconst_max h0 h, if_neg (not_le.mpr h), if_neg (not_le.mpr (lt_of_le_of_lt h0 hr)), if_neg (not_le.mpr hr),
    max_eq_left h.le]

/-- The lengths of the scale are sensible: not negative, and the minimum is at most the maximum apart from one case. -/
private theorem scale_order {a b ref req f dflt : ℝ} (h0 : 0 ≤ a) (h : tiny < b - a)
    (hcase : 0 < ref → ref ≤ a → req ≤ 0 → f ≤ 0) :
    0 ≤ (scale a b ref req f dflt).maxLength ∧ 0 ≤ (scale a b ref req f dflt).minLength ∧
    ((scale a b ref req f dflt).adjust = true →
      (scale a b ref req f dflt).minLength ≤ (scale a b ref req f dflt).maxLength) := by
  have hd : 0 < max dflt 1 := lt_of_lt_of_le one_pos (le_max_right _ _)
  have ht := tiny_pos
  have hb : 0 < b := by linarith
  have hmr := max_pos ref
  have hv0 := clip01_nonneg f
  have hv1 := clip01_le f
  rcases le_or_gt ref 0 with hr | hr
  · rw [scale_noref h0 h hr]
    have hx : 0 < (if 0 < req then req else max dflt 1) := by split_ifs with hq <;> assumption
    generalize (if 0 < req then req else max dflt 1) = x at hx
    split_ifs
    · exact ⟨hx.le, by positivity, fun _ => by nlinarith⟩
    · exact ⟨hx.le, by positivity, fun hf => absurd hf (by simp)⟩
  · rcases le_or_gt ref a with hra | hra
    · rw [scale_below h0 h hr hra]
      split_ifs with h1 h2
      · refine ⟨by positivity, by positivity, fun _ => ?_⟩
        apply div_le_div_of_nonneg_right _ hmr.le
        exact mul_le_mul_of_nonneg_left (by linarith) h1.le
      · exfalso
        have := hcase hr hra (not_lt.mp h1)
        have : clip01 f = 0 := by unfold clip01; rw [max_eq_right this]; simp
        linarith
      · refine ⟨hd.le, by positivity, fun _ => ?_⟩
        dsimp only
        have h3 : ref ≤ max ref tiny := le_max_left _ _
        rw [div_le_iff₀ hmr, div_mul_eq_mul_div, div_le_iff₀ hb]
        have : ref * a ≤ max ref tiny * b := mul_le_mul h3 (by linarith) h0 hmr.le
        nlinarith
    · rw [scale_above h0 h hra]
      have hratio : 0 < (ref - a) / (b - a) := div_pos (by linarith) (by linarith)
      generalize (ref - a) / (b - a) = ratio at hratio
      generalize clip01 f = v at *
      split_ifs with h1 h2 h3 h4
      · have hp : 0 ≤ (req - v * req) * (b - a) / max (ref - a) tiny := by
          apply div_nonneg _ (max_pos _).le
          exact mul_nonneg (by nlinarith) (by linarith)
        have : 0 ≤ v * req := by positivity
        dsimp only
        exact ⟨by linarith, this, fun _ => by linarith⟩
      · have hden : 0 < 1 - v + v * ratio := by linarith
        refine ⟨hd.le, by positivity, fun _ => ?_⟩
        dsimp only
        rw [mul_div_assoc', div_le_iff₀ hden]
        nlinarith
      · exact ⟨hd.le, by positivity, fun _ => by nlinarith⟩
      · exact ⟨by positivity, by positivity, fun hf => absurd hf (by simp)⟩
      · exact ⟨hd.le, by positivity, fun hf => absurd hf (by simp)⟩

private theorem clip01_pos {f : ℝ} (h : f ≤ 0) : clip01 f = 0 := by unfold clip01; rw [max_eq_right h]; simp

private theorem req_pos {w : ℝ} (r : ℝ) : 0 < max (w * r) 1 := lt_of_lt_of_le one_pos (le_max_right _ _)

/-- The full statement of C264: a stronger vector never gets a shorter glyph. -/
def C264_statement : Prop :=
  ∀ (w h densityX densityY a b : ℝ) (ref refLength : Option ℝ) (minFrac m m' : ℝ), 0 < w → 0 < h → 0 ≤ a → a ≤ b →
    m ≤ m' → glyphLength w h densityX densityY a b ref refLength minFrac m ≤
      glyphLength w h densityX densityY a b ref refLength minFrac m'

/-- C264, the part that holds: the length does not decrease with the magnitude, unless a reference magnitude not above
the smallest magnitude is given without a reference length but with a minimum fraction. Missing: that case (false, see `C264_false`). -/
theorem C264_partial (w h densityX densityY a b : ℝ) (ref refLength : Option ℝ) (minFrac m m' : ℝ) (h0 : 0 ≤ a)
    (hm : m ≤ m') (hcase : ∀ r, ref = some r → 0 < r → r ≤ a → refLength = none → minFrac ≤ 0) :
    glyphLength w h densityX densityY a b ref refLength minFrac m ≤
      glyphLength w h densityX densityY a b ref refLength minFrac m' := by
  unfold glyphLength
  dsimp only
  generalize hreq : (match refLength with | none => (0 : ℝ) | some r => max (w * r) 1) = req
  obtain ⟨e1, e2⟩ := scale_mags a b (ref.getD 0) req (clip01 minFrac) (defaultMax w h densityX densityY)
  unfold curveLength
  rw [e1, e2]
  split_ifs with c1 c2
  · exact le_rfl
  all_goals
    have hab : tiny < b - a := by
      rcases le_total b tiny with hb | hb
      · rw [max_eq_right hb] at c1; linarith
      · rw [max_eq_left hb] at c1; linarith
    obtain ⟨o1, o2, o3⟩ := scale_order (ref := ref.getD 0) (req := req) (f := clip01 minFrac)
      (dflt := defaultMax w h densityX densityY) h0 hab (by
        intro hr hra hq
        cases ref with
        | none => simp at hr
        | some r =>
          cases refLength with
          | none => rw [clip01_pos (hcase r rfl hr hra rfl)]
          | some l => rw [← hreq] at hq; exact absurd (req_pos (w := w) l) (not_lt.mpr hq))
  · exact mul_le_mul_of_nonneg_right (clip01_mono (div_le_div_of_nonneg_right hm (max_pos b).le)) o1
  · have hle := o3 (by simpa using c2)
    have : clip01 ((m - a) / max (max b tiny - a) tiny) ≤ clip01 ((m' - a) / max (max b tiny - a) tiny) :=
      clip01_mono (div_le_div_of_nonneg_right (by linarith) (max_pos _).le)
    have := mul_le_mul_of_nonneg_left this (sub_nonneg.mpr hle)
    linarith

/-- C264 is false: magnitudes from 10 to 20, `ref_magnitude=1`, `min_frac_length=0.5`: the weakest vectors get
glyphs five times as long as the strongest. -/
theorem C264_false : ¬ C264_statement := by
  intro H
  have h1 := H 300 300 1 1 10 20 (some 1) none (1 / 2) 10 20 (by norm_num) (by norm_num) (by norm_num) (by norm_num) (by norm_num)
  have ht : tiny < 1 := by unfold tiny; norm_num
  have hc : clip01 (1 / 2) = 1 / 2 := clip01_eq (by norm_num) (by norm_num)
  have hd : (1 : ℝ) ≤ max (defaultMax 300 300 1 1) 1 := le_max_right _ _
  unfold glyphLength at h1
  dsimp only [Option.getD_some] at h1
  rw [hc, scale_below (by norm_num) (by linarith) one_pos (by norm_num), if_neg (lt_irrefl 0), hc, if_pos (by norm_num)] at h1
  unfold curveLength at h1
  dsimp only at h1
  rw [if_neg (by linarith), if_neg (by simp), if_neg (by linarith), if_neg (by simp), max_eq_left ht.le,
    max_eq_left (a := (20 : ℝ) - 10) (by linarith)] at h1
  rw [show clip01 (((10 : ℝ) - 10) / (20 - 10)) = 0 by rw [clip01_eq] <;> norm_num,
    show clip01 (((20 : ℝ) - 10) / (20 - 10)) = 1 by rw [clip01_eq] <;> norm_num] at h1
  linarith

/-- The full statement of C265: a vector of the reference magnitude gets a glyph of the reference length. -/
def C265_statement : Prop :=
  ∀ (w h densityX densityY a b ref refLength minFrac : ℝ), 0 < w → 0 < h → 0 ≤ a → a ≤ ref → ref ≤ b → 0 < ref →
    1 ≤ w * refLength →
    glyphLength w h densityX densityY a b (some ref) (some refLength) minFrac ref = w * refLength

/-- C265, the part that holds: magnitudes that are not within 1e-12 of each other (or equal) or of zero.
Missing: smaller differences, for which the code replaces divisors (false, see `C265_false`). -/
theorem C265_partial (w h densityX densityY a b ref refLength minFrac : ℝ) (h0 : 0 ≤ a) (hra : a ≤ ref) (hrb : ref ≤ b)
    (hres : tiny ≤ ref) (hres2 : ref = a ∨ tiny ≤ ref - a) (hres3 : a = b ∨ tiny < b - a) (hl : 1 ≤ w * refLength) :
    glyphLength w h densityX densityY a b (some ref) (some refLength) minFrac ref = w * refLength := by
  have ht := tiny_pos
  have hr : 0 < ref := by linarith
  have hmr : max ref tiny = ref := max_eq_left hres
  have hb : 0 < b := by linarith
  have hmb : max b tiny = b := max_eq_left (by linarith)
  have hreq : max (w * refLength) 1 = w * refLength := max_eq_left hl
  unfold glyphLength
  dsimp only [Option.getD_some]
  rw [hreq]
  generalize w * refLength = L at hl
  have hL : 0 < L := by linarith
  rcases hres3 with rfl | hab
  · have : ref = a := le_antisymm hrb hra
    subst this
    unfold scale
    dsimp only
    rw [hmb, if_pos (by linarith), if_pos ⟨hL, hr⟩]
    unfold curveLength
    dsimp only
    rw [if_pos (by linarith)]
    field_simp
  · rcases hres2 with rfl | hra'
    · rw [scale_below h0 hab hr le_rfl, if_pos hL]
      unfold curveLength
      dsimp only
      rw [if_neg (by linarith), if_neg (by simp), sub_self, zero_div, clip01_eq le_rfl zero_le_one, hmr]
      field_simp
      ring
    · rw [scale_above h0 hab (by linarith)]
      have hba : 0 < b - a := by linarith
      split_ifs with hv
      · unfold curveLength
        dsimp only
        rw [if_neg (by linarith), if_neg (by simp), max_eq_left hab.le, max_eq_left hra',
          clip01_eq (div_nonneg (by linarith) hba.le) (by rw [div_le_one hba]; linarith)]
        have hrr : ref - a ≠ 0 := by linarith
        field_simp
        ring
      · unfold curveLength
        dsimp only
        rw [if_neg (by linarith), if_pos rfl, hmr,
          clip01_eq (div_nonneg hr.le hb.le) (by rw [div_le_one hb]; exact hrb)]
        field_simp

/-- C265 is false for a reference magnitude below 1e-12: half of it gives half the reference length. -/
theorem C265_false : ¬ C265_statement := by
  intro H
  have ht := tiny_pos
  have ht1 : tiny < 1 := by unfold tiny; norm_num
  have h1 := H 100 100 1 1 0 1 (tiny / 2) (1 / 10) 0 (by norm_num) (by norm_num) le_rfl (by linarith) (by linarith)
    (by linarith) (by norm_num)
  have hc0 : clip01 0 = 0 := clip01_pos le_rfl
  unfold glyphLength at h1
  dsimp only [Option.getD_some] at h1
  rw [hc0, scale_above le_rfl (by linarith) (by linarith), hc0, if_neg (lt_irrefl 0), if_pos (by norm_num)] at h1
  unfold curveLength at h1
  dsimp only at h1
  rw [if_neg (by linarith), if_pos rfl, clip01_eq (by linarith) (by linarith), max_eq_right (by linarith : tiny / 2 ≤ tiny)] at h1
  norm_num at h1
  have h2 : tiny / 2 * (10 / tiny) = 5 := by field_simp; norm_num
  rw [h2] at h1
  norm_num at h1

/-- C265: without a minimum fraction, lengths are proportional to magnitudes. -/
theorem C265_proportional (w h densityX densityY a b : ℝ) (ref refLength : Option ℝ) (m m' : ℝ) (h0 : 0 ≤ a)
    (hab : tiny < b - a) (href : ∀ r, ref = some r → tiny ≤ r)
    (hm : a ≤ m) (hmb : m ≤ b) (hm' : a ≤ m') (hmb' : m' ≤ b) :
    glyphLength w h densityX densityY a b ref refLength 0 m * m' =
      glyphLength w h densityX densityY a b ref refLength 0 m' * m := by
  have ht := tiny_pos
  have hb : 0 < b := by linarith
  have hba : 0 < b - a := by linarith
  have hc0 : clip01 0 = 0 := clip01_pos le_rfl
  unfold glyphLength
  dsimp only
  generalize (match refLength with | none => (0 : ℝ) | some r => max (w * r) 1) = req
  rw [hc0]
  have hfrac : ∀ x, a ≤ x → x ≤ b → clip01 (x / b) = x / b := fun x h1 h2 =>
    clip01_eq (div_nonneg (by linarith) hb.le) (by rw [div_le_one hb]; exact h2)
  have hfrac2 : ∀ x, a ≤ x → x ≤ b → clip01 ((x - a) / (b - a)) = (x - a) / (b - a) := fun x h1 h2 =>
    clip01_eq (div_nonneg (by linarith) hba.le) (by rw [div_le_one hba]; linarith)
  have hplain : ∀ (p q r s : ℝ), curveLength m ⟨a, b, p, q, s, false⟩ * m' = curveLength m' ⟨a, b, p, q, s, false⟩ * m := by
    intro p q r s
    unfold curveLength
    dsimp only
    rw [if_neg (by linarith), if_pos rfl, if_neg (by linarith), if_pos rfl, hfrac m hm hmb, hfrac m' hm' hmb']
    field_simp
  have hadj : ∀ (p s : ℝ), curveLength m ⟨a, b, p, s * a, s * b, true⟩ * m' =
      curveLength m' ⟨a, b, p, s * a, s * b, true⟩ * m := by
    intro p s
    unfold curveLength
    dsimp only
    rw [if_neg (by linarith), if_neg (by simp), if_neg (by linarith), if_neg (by simp), max_eq_left hab.le,
      hfrac2 m hm hmb, hfrac2 m' hm' hmb']
    have : b - a ≠ 0 := hba.ne'
    field_simp
    ring
  cases ref with
  | none =>
    rw [Option.getD_none, scale_noref h0 hab le_rfl, hc0, if_neg (lt_irrefl 0)]
    exact hplain _ _ 0 _
  | some r =>
    have hr := href r rfl
    rw [Option.getD_some]
    have hmr : max r tiny = r := max_eq_left hr
    have hr0 : 0 < r := by linarith
    rcases le_or_gt r a with hra | hra
    · rw [scale_below h0 hab hr0 hra, hc0, if_neg (lt_irrefl 0), hmr]
      split_ifs
      · rw [show req * a / r = req / r * a by ring, show req * b / r = req / r * b by ring]
        exact hadj _ _
      · rw [show max (defaultMax w h densityX densityY) 1 * r / b * a / r = max (defaultMax w h densityX densityY) 1 / b * a by field_simp]
        have := hadj (max (defaultMax w h densityX densityY) 1 * r / b) (max (defaultMax w h densityX densityY) 1 / b)
        rwa [div_mul_cancel₀ _ hb.ne'] at this
    · rw [scale_above h0 hab hra, hc0, if_neg (lt_irrefl 0)]
      split_ifs
      · exact hplain _ _ 0 _
      · exact hplain _ _ 0 _

/-- C266: every glyph is at least `min_frac_length` times as long as the glyph of the reference length, and the
strongest vector gets the longest length of the scale: the reference length when no reference magnitude is given. -/
theorem C266_min (w h densityX densityY a b : ℝ) (refLength minFrac m : ℝ) (h0 : 0 ≤ a) (hab : tiny < b - a)
    (hl : 1 ≤ w * refLength) (hf0 : 0 ≤ minFrac) (hf1 : minFrac ≤ 1) :
    (∀ ref : Option ℝ, (∀ r, ref = some r → r ≤ b ∧ tiny ≤ r) → 0 < minFrac →
      minFrac * (w * refLength) ≤ glyphLength w h densityX densityY a b ref (some refLength) minFrac m) ∧
    glyphLength w h densityX densityY a b none (some refLength) minFrac b = w * refLength := by
  have ht := tiny_pos
  have hb : 0 < b := by linarith
  have hba : 0 < b - a := by linarith
  have hreq : max (w * refLength) 1 = w * refLength := max_eq_left hl
  have hcc : clip01 minFrac = minFrac := clip01_eq hf0 hf1
  have hcc2 : clip01 (clip01 minFrac) = minFrac := by rw [hcc, hcc]
  unfold glyphLength
  dsimp only
  rw [hreq]
  generalize w * refLength = L at hl
  have hL : 0 < L := by linarith
  constructor
  · intro ref href hf
    cases ref with
    | none =>
      rw [Option.getD_none, scale_noref h0 hab le_rfl, hcc2, if_pos hf, if_pos hL]
      unfold curveLength
      dsimp only
      rw [if_neg (by linarith), if_neg (by simp)]
      have := clip01_nonneg ((m - a) / max (b - a) tiny)
      have : 0 ≤ (L - minFrac * L) * clip01 ((m - a) / max (b - a) tiny) := mul_nonneg (by nlinarith) this
      linarith
    | some r =>
      obtain ⟨hrb, hrt⟩ := href r rfl
      have hr0 : 0 < r := by linarith
      rw [Option.getD_some]
      rcases le_or_gt r a with hra | hra
      · rw [scale_below h0 hab hr0 hra, if_pos hL, max_eq_left hrt]
        unfold curveLength
        dsimp only
        rw [if_neg (by linarith), if_neg (by simp)]
        have hc := clip01_nonneg ((m - a) / max (b - a) tiny)
        have h1 : minFrac * L ≤ L * a / r := by
          rw [le_div_iff₀ hr0]
          have : minFrac * r ≤ 1 * a := mul_le_mul hf1 hra hr0.le zero_le_one
          nlinarith
        have h2 : 0 ≤ (L * b / r - L * a / r) * clip01 ((m - a) / max (b - a) tiny) := by
          apply mul_nonneg _ hc
          rw [← sub_div]
          apply div_nonneg _ hr0.le
          nlinarith
        linarith
      · rw [scale_above h0 hab hra, hcc2, if_pos hf, if_pos hL]
        unfold curveLength
        dsimp only
        rw [if_neg (by linarith), if_neg (by simp)]
        have hc := clip01_nonneg ((m - a) / max (b - a) tiny)
        have hp : 0 ≤ (L - minFrac * L) * (b - a) / max (r - a) tiny := by
          apply div_nonneg _ (max_pos _).le
          exact mul_nonneg (by nlinarith) hba.le
        have : 0 ≤ (minFrac * L + (L - minFrac * L) * (b - a) / max (r - a) tiny - minFrac * L) *
            clip01 ((m - a) / max (b - a) tiny) := mul_nonneg (by linarith) hc
        linarith
  · rw [Option.getD_none, scale_noref h0 hab le_rfl, hcc2]
    have hone : clip01 ((b - a) / (b - a)) = 1 := by rw [div_self hba.ne']; exact clip01_eq zero_le_one le_rfl
    have hone' : clip01 (b / b) = 1 := by rw [div_self hb.ne']; exact clip01_eq zero_le_one le_rfl
    split_ifs
    · unfold curveLength
      dsimp only
      rw [if_neg (by linarith), if_neg (by simp), max_eq_left hab.le, hone]
      ring
    · unfold curveLength
      dsimp only
      rw [if_neg (by linarith), if_pos rfl, hone']
      ring

/-- The full statement of C267: the arrow of the reference key shows the scale of the plot: the lengths of the
key arrows for two magnitudes are in the ratio of the magnitudes, in a plot whose glyphs are (no minimum fraction). -/
def C267_statement : Prop :=
  ∀ (w h densityX densityY a b : ℝ) (ref refLength : Option ℝ) (U U' l l' : ℝ), 0 < w → 0 < h → 0 ≤ a → tiny < b - a →
    keyLength w h densityX densityY a b ref refLength 0 U = some l →
    keyLength w h densityX densityY a b ref refLength 0 U' = some l' → l * U' = l' * U

/-- C267, the part that holds: for a magnitude that occurs in the plot and whose glyph is at least 0.012 of the width of
the panel, the arrow of the key has the length of that glyph. Missing: shorter glyphs and magnitudes beyond
the strongest vector (false, see `C267_false`). -/
theorem C267_partial (w h densityX densityY a b : ℝ) (ref refLength : Option ℝ) (minFrac U : ℝ) (hw : 1 ≤ w) (hU : 0 < U)
    (hbig : 12 / 1000 * w ≤ glyphLength w h densityX densityY a b ref refLength minFrac U) :
    ∃ l, keyLength w h densityX densityY a b ref refLength minFrac U = some l ∧
      l * w = glyphLength w h densityX densityY a b ref refLength minFrac U := by
  unfold keyLength
  dsimp only
  generalize glyphLength w h densityX densityY a b ref refLength minFrac U = g at *
  have hw0 : 0 < w := by linarith
  have hg : 12 / 1000 ≤ g / w := by rw [le_div_iff₀ hw0]; exact hbig
  rw [if_neg (not_le.mpr hU), max_eq_left hw, max_eq_left (by linarith), if_pos (by linarith), max_eq_left hg]
  exact ⟨g / w, rfl, by field_simp⟩

/-- C267 is false: a key for twice the strongest magnitude is no longer than the key for the strongest. -/
theorem C267_false : ¬ C267_statement := by
  intro H
  have ht := tiny_pos
  have ht1 : tiny < 1 := by unfold tiny; norm_num
  have hc0 : clip01 0 = 0 := clip01_pos le_rfl
  have hg : ∀ m : ℝ, 1 ≤ m → glyphLength 100 100 1 1 0 1 none (some (1 / 10)) 0 m = 10 := by
    intro m hm
    unfold glyphLength
    dsimp only
    rw [Option.getD_none, hc0, scale_noref le_rfl (by linarith) le_rfl, hc0, if_neg (lt_irrefl 0)]
    unfold curveLength
    dsimp only
    rw [if_neg (by linarith), if_pos rfl, div_one]
    have : clip01 m = 1 := by
      unfold clip01; rw [max_eq_left (by linarith), min_eq_right hm]
    rw [this]
    norm_num
  obtain ⟨l, e, h1⟩ := C267_partial 100 100 1 1 0 1 none (some (1 / 10)) 0 1 (by norm_num) (by norm_num) (by rw [hg 1 le_rfl]; norm_num)
  obtain ⟨l', e', h2⟩ := C267_partial 100 100 1 1 0 1 none (some (1 / 10)) 0 2 (by norm_num) (by norm_num) (by rw [hg 2 (by norm_num)]; norm_num)
  have := H 100 100 1 1 0 1 none (some (1 / 10)) 1 2 l l' (by norm_num) (by norm_num) le_rfl (by linarith) e e'
  rw [hg 1 le_rfl] at h1
  rw [hg 2 (by norm_num)] at h2
  linarith

/-- Magnitudes from 5 to 20, reference 10 at a tenth of 500 pixels: the hypotheses of `C264_partial`, `C265_partial`,
`C265_proportional`, `C266_min` are met. -/
example : tiny ≤ (10 : ℝ) ∧ tiny ≤ (10 : ℝ) - 5 ∧ tiny < (20 : ℝ) - 5 ∧ (1 : ℝ) ≤ 500 * (1 / 10) ∧
    ∀ r, some (10 : ℝ) = some r → 0 < r → r ≤ 5 → (some (1 / 10 : ℝ)) = none → (1 / 4 : ℝ) ≤ 0 := by
  have : tiny < 1 := by unfold tiny; norm_num
  refine ⟨by linarith, by linarith, by linarith, by norm_num, ?_⟩
  intro r _ _ _ h; simp at h

end Skyborn.Plot.Length
