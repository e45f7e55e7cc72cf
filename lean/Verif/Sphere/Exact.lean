/-
What is assumed of the SPHEREPACK analyses where a theorem needs it: they recover the coefficients of band-limited
fields from their values on the grid. The assumption is satisfiable on every grid with distinct rows
(`exact_exists`), because the values determine the coefficients.
-/
import Verif.Sphere.UniqueField
import Verif.Sphere.WindLemmas

namespace Skyborn.Sphere

open Skyborn Skyborn.Spectral

/-- The values of a field on the grid of `I`, as an analysis sees them. -/
noncomputable def Spec.sampled (I : Inst) (F : ℝ → ℝ → ℝ) : ℕ → ℕ → ℝ :=
  fun i j => if i < I.nlat ∧ j < I.nlon then F (I.lat i) (I.lon j) else 0

/-- Coefficients of a real field: real for zonal means. -/
def Spec.RealMean (x : ℕ → ℕ → ℂ) : Prop := ∀ n, (x 0 n).im = 0

/-- Coefficients with `m ≤ n ≤ K` and `2m < nlon` only. -/
def Spec.Band (K nlon : ℕ) (x : ℕ → ℕ → ℂ) : Prop := ∀ m n, ¬ (m ≤ n ∧ n ≤ K ∧ 2 * m < nlon) → x m n = 0

/-- The analyses are exact: scalar fields up to degree `K`, winds over all modes of the vector transforms; the analyses
of one part agree with the analysis of both. -/
structure Spec.Exact (I : Inst) (K : ℕ) : Prop where
  scalar : ∀ x, Spec.Band K I.nlon x → Spec.RealMean x → ∀ m n, (m, n) ∈ sModes I.nlat I.nlon →
    I.anaS (Spec.sampled I (Spec.seriesOn (sModes I.nlat I.nlon) x)) m n = (2 * (x m n).re, 2 * (x m n).im)
  vector : ∀ br bi cr ci : ℕ → ℕ → ℝ, (∀ n, bi 0 n = 0 ∧ ci 0 n = 0) → ∀ m n, (m, n) ∈ vModes I.nlat I.nlon →
    I.anaV (Spec.sampled I fun φ => colatField (vModes I.nlat I.nlon) br bi cr ci (Real.pi / 2 - φ))
      (Spec.sampled I fun φ => eastField (vModes I.nlat I.nlon) br bi cr ci (Real.pi / 2 - φ)) m n
        = (br m n, bi m n, cr m n, ci m n)
  div : ∀ v w m n, (m, n) ∈ vModes I.nlat I.nlon → I.anaDiv v w m n = ((I.anaV v w m n).1, (I.anaV v w m n).2.1)
  vrt : ∀ v w m n, (m, n) ∈ vModes I.nlat I.nlon → I.anaVrt v w m n = (I.anaV v w m n).2.2

theorem sampled_eq {I : Inst} {F G : ℝ → ℝ → ℝ} (h : Spec.sampled I F = Spec.sampled I G) :
    ∀ i < I.nlat, ∀ j < I.nlon, F (I.lat i) (I.lon j) = G (I.lat i) (I.lon j) := by
  intro i hi j hj
  have := congrFun (congrFun h i) j
  simpa [Spec.sampled, hi, hj] using this

theorem scalarField_sub (M : Finset (ℕ × ℕ)) (a b a' b' : ℕ → ℕ → ℝ) (φ l : ℝ) :
    scalarField M (fun m n => a m n - a' m n) (fun m n => b m n - b' m n) φ l = scalarField M a b φ l - scalarField M a' b' φ l := by
  unfold scalarField
  rw [← Finset.sum_sub_distrib]
  exact Finset.sum_congr rfl fun p _ => by ring

theorem uField_sub (M : Finset (ℕ × ℕ)) (br bi cr ci br' bi' cr' ci' : ℕ → ℕ → ℝ) (φ l : ℝ) :
    uField M (fun m n => br m n - br' m n) (fun m n => bi m n - bi' m n) (fun m n => cr m n - cr' m n)
      (fun m n => ci m n - ci' m n) φ l = uField M br bi cr ci φ l - uField M br' bi' cr' ci' φ l ∧
    vField M (fun m n => br m n - br' m n) (fun m n => bi m n - bi' m n) (fun m n => cr m n - cr' m n)
      (fun m n => ci m n - ci' m n) φ l = vField M br bi cr ci φ l - vField M br' bi' cr' ci' φ l := by
  unfold uField vField eastField colatField
  constructor
  · rw [← Finset.sum_sub_distrib]
    exact Finset.sum_congr rfl fun p _ => by ring
  · rw [← neg_sub', ← Finset.sum_sub_distrib]
    congr 1
    exact Finset.sum_congr rfl fun p _ => by ring

/-- Two band-limited series with the same values on the grid have the same coefficients. -/
theorem series_inj {I : Inst} (hR : Spec.Rows I.nlat I.lat) (hlon : 0 < I.nlon) {K : ℕ} (h0 : K < I.nlat)
    (h1 : K ≤ (Spec.interior I.nlat I.lat).card) {x y : ℕ → ℕ → ℂ} (hx : Spec.Band K I.nlon x) (hy : Spec.Band K I.nlon y)
    (mx : Spec.RealMean x) (my : Spec.RealMean y)
    (h : ∀ i < I.nlat, ∀ j < I.nlon, Spec.seriesOn (sModes I.nlat I.nlon) x (I.lat i) (I.lon j)
      = Spec.seriesOn (sModes I.nlat I.nlon) y (I.lat i) (I.lon j)) : x = y := by
  set M := (sModes I.nlat I.nlon).filter fun p => p.2 ≤ K ∧ 2 * p.1 < I.nlon with hMdef
  have hM : ∀ p ∈ M, p.1 ≤ p.2 ∧ p.2 ≤ K ∧ 2 * p.1 < I.nlon := by
    rintro ⟨m, n⟩ hp
    rw [hMdef, Finset.mem_filter, mem_sModes] at hp
    exact ⟨hp.1.1, hp.2⟩
  have red : ∀ x : ℕ → ℕ → ℂ, Spec.Band K I.nlon x → ∀ φ l,
      Spec.seriesOn (sModes I.nlat I.nlon) x φ l = scalarField M (fun m n => 2 * (x m n).re) (fun m n => 2 * (x m n).im) φ l := by
    intro x hx φ l
    rw [scalarField_series]
    unfold Spec.seriesOn
    rw [hMdef, Finset.sum_filter]
    refine Finset.sum_congr rfl fun p hp => ?_
    by_cases hc : p.2 ≤ K ∧ 2 * p.1 < I.nlon
    · rw [if_pos hc]
    · rw [if_neg hc, hx p.1 p.2 (by tauto)]; simp
  have key := scalar_unique hR hlon hM h0 h1 (a := fun m n => 2 * (x m n).re - 2 * (y m n).re)
    (b := fun m n => 2 * (x m n).im - 2 * (y m n).im) (by
      intro i hi j hj
      have := h i hi j hj
      rw [red x hx, red y hy] at this
      rw [scalarField_sub]
      rw [show (2 * Real.pi * j / I.nlon : ℝ) = I.lon j from rfl]
      linarith)
  funext m n
  by_cases hb : m ≤ n ∧ n ≤ K ∧ 2 * m < I.nlon
  · have hp : (m, n) ∈ M := by
      rw [hMdef, Finset.mem_filter, mem_sModes]
      exact ⟨⟨hb.1, by omega, by omega⟩, hb.2⟩
    have := key _ hp
    apply Complex.ext
    · linarith [this.1]
    · rcases Nat.eq_zero_or_pos m with rfl | hm
      · rw [mx n, my n]
      · have := this.2 (by simp only; omega)
        linarith
  · rw [hx m n hb, hy m n hb]

/-- Two vector expansions with the same values on the grid have the same coefficients on the modes. -/
theorem vector_inj {I : Inst} (hR : Spec.Rows I.nlat I.lat) (hlat : 3 ≤ I.nlat) (hlon : 4 ≤ I.nlon)
    {br bi cr ci br' bi' cr' ci' : ℕ → ℕ → ℝ} (m0 : ∀ n, bi 0 n = bi' 0 n ∧ ci 0 n = ci' 0 n)
    (hu : ∀ i < I.nlat, ∀ j < I.nlon, uField (vModes I.nlat I.nlon) br bi cr ci (I.lat i) (I.lon j)
      = uField (vModes I.nlat I.nlon) br' bi' cr' ci' (I.lat i) (I.lon j))
    (hv : ∀ i < I.nlat, ∀ j < I.nlon, vField (vModes I.nlat I.nlon) br bi cr ci (I.lat i) (I.lon j)
      = vField (vModes I.nlat I.nlon) br' bi' cr' ci' (I.lat i) (I.lon j)) :
    ∀ m n, (m, n) ∈ vModes I.nlat I.nlon → br m n = br' m n ∧ bi m n = bi' m n ∧ cr m n = cr' m n ∧ ci m n = ci' m n := by
  have key := vector_unique hR hlat (nlon := I.nlon) (by omega) (M := vModes I.nlat I.nlon) (by
      rintro ⟨m, n⟩ hp
      rw [mem_vModes] at hp
      simp only
      omega)
    (br := fun m n => br m n - br' m n) (bi := fun m n => bi m n - bi' m n) (cr := fun m n => cr m n - cr' m n)
    (ci := fun m n => ci m n - ci' m n)
    (fun i hi j hj => by rw [(uField_sub _ _ _ _ _ _ _ _ _ _ _).1]; exact sub_eq_zero.mpr (hu i hi j hj))
    (fun i hi j hj => by rw [(uField_sub _ _ _ _ _ _ _ _ _ _ _).2]; exact sub_eq_zero.mpr (hv i hi j hj))
  intro m n hp
  have := key _ hp
  simp only [sub_eq_zero] at this
  refine ⟨this.1, ?_, this.2.1, ?_⟩
  · rcases Nat.eq_zero_or_pos m with rfl | hm
    · exact (m0 n).1
    · exact (this.2.2 (by omega)).1
  · rcases Nat.eq_zero_or_pos m with rfl | hm
    · exact (m0 n).2
    · exact (this.2.2 (by omega)).2

/-- On every grid with distinct rows there are exact analyses. -/
theorem exact_exists (J : Inst) (hR : Spec.Rows J.nlat J.lat) (hlat : 3 ≤ J.nlat) (hlon : 4 ≤ J.nlon) {K : ℕ}
    (h0 : K < J.nlat) (h1 : K ≤ (Spec.interior J.nlat J.lat).card) :
    ∃ I : Inst, I.nlat = J.nlat ∧ I.nlon = J.nlon ∧ I.rsphere = J.rsphere ∧ I.grid = J.grid ∧ I.leg = J.leg ∧ I.lat = J.lat ∧
      Spec.Exact I K := by
  classical
  set S : (ℕ → ℕ → ℝ) → (ℕ → ℕ → ℂ) → Prop := fun f x => Spec.Band K J.nlon x ∧ Spec.RealMean x ∧
    f = Spec.sampled J (Spec.seriesOn (sModes J.nlat J.nlon) x) with hS
  set V : (ℕ → ℕ → ℝ) → (ℕ → ℕ → ℝ) → ((ℕ → ℕ → ℝ) × (ℕ → ℕ → ℝ) × (ℕ → ℕ → ℝ) × (ℕ → ℕ → ℝ)) → Prop := fun f g c =>
    (∀ n, c.2.1 0 n = 0 ∧ c.2.2.2 0 n = 0) ∧
    f = Spec.sampled J (fun φ => colatField (vModes J.nlat J.nlon) c.1 c.2.1 c.2.2.1 c.2.2.2 (Real.pi / 2 - φ)) ∧
    g = Spec.sampled J (fun φ => eastField (vModes J.nlat J.nlon) c.1 c.2.1 c.2.2.1 c.2.2.2 (Real.pi / 2 - φ)) with hV
  let aS : (ℕ → ℕ → ℝ) → ℕ → ℕ → ℝ × ℝ := fun f m n =>
    if h : ∃ x, S f x then (2 * (h.choose m n).re, 2 * (h.choose m n).im) else 0
  let aV : (ℕ → ℕ → ℝ) → (ℕ → ℕ → ℝ) → ℕ → ℕ → ℝ × ℝ × ℝ × ℝ := fun f g m n =>
    if h : ∃ c, V f g c then (h.choose.1 m n, h.choose.2.1 m n, h.choose.2.2.1 m n, h.choose.2.2.2 m n) else 0
  let aD : (ℕ → ℕ → ℝ) → (ℕ → ℕ → ℝ) → ℕ → ℕ → ℝ × ℝ := fun f g m n => ((aV f g m n).1, (aV f g m n).2.1)
  let aZ : (ℕ → ℕ → ℝ) → (ℕ → ℕ → ℝ) → ℕ → ℕ → ℝ × ℝ := fun f g m n => (aV f g m n).2.2
  refine ⟨⟨J.nlat, J.nlon, J.rsphere, J.grid, J.leg, J.lat, aS, aV, aD, aZ⟩, rfl, rfl, rfl, rfl, rfl, rfl, ?_, ?_, fun _ _ _ _ _ => rfl, fun _ _ _ _ _ => rfl⟩
  · intro x hb hr m n hp
    have hex : ∃ y, S (Spec.sampled J (Spec.seriesOn (sModes J.nlat J.nlon) x)) y := ⟨x, hb, hr, rfl⟩
    show aS (Spec.sampled J (Spec.seriesOn (sModes J.nlat J.nlon) x)) m n = _
    simp only [aS]
    rw [dif_pos hex]
    obtain ⟨hb', hr', he⟩ := hex.choose_spec
    have e := series_inj hR (by omega) h0 h1 hb hb' hr hr' (sampled_eq he)
    rw [← e]
  · intro br bi cr ci h00 m n hp
    have hex : ∃ c, V (Spec.sampled J (fun φ => colatField (vModes J.nlat J.nlon) br bi cr ci (Real.pi / 2 - φ)))
      (Spec.sampled J (fun φ => eastField (vModes J.nlat J.nlon) br bi cr ci (Real.pi / 2 - φ))) c := ⟨(br, bi, cr, ci), h00, rfl, rfl⟩
    show aV (Spec.sampled J (fun φ => colatField (vModes J.nlat J.nlon) br bi cr ci (Real.pi / 2 - φ)))
      (Spec.sampled J (fun φ => eastField (vModes J.nlat J.nlon) br bi cr ci (Real.pi / 2 - φ))) m n = _
    simp only [aV]
    rw [dif_pos hex]
    obtain ⟨z0, hc, he⟩ := hex.choose_spec
    have := vector_inj hR hlat hlon (br := br) (bi := bi) (cr := cr) (ci := ci) (br' := hex.choose.1) (bi' := hex.choose.2.1)
      (cr' := hex.choose.2.2.1) (ci' := hex.choose.2.2.2) (fun n => by rw [(h00 n).1, (h00 n).2, (z0 n).1, (z0 n).2]; exact ⟨rfl, rfl⟩)
      (sampled_eq he) (fun i hi j hj => by
        have := sampled_eq hc i hi j hj
        exact neg_inj.mpr this) m n hp
    rw [← this.1, ← this.2.1, ← this.2.2.1, ← this.2.2.2]

/-- Rows of a regular grid: from pole to pole in equal steps (sphcom.f90:306, 636, 1110). -/
def Spec.Regular (I : Inst) : Prop := I.grid = .regular ∧ ∀ i < I.nlat, I.lat i = Real.pi / 2 - i * (Real.pi / ((I.nlat : ℝ) - 1))

theorem Spec.Regular.rows {I : Inst} (h : Spec.Regular I) (hlat : 3 ≤ I.nlat) : Spec.Rows I.nlat I.lat := by
  have hp := Real.pi_pos
  have hn : (2 : ℝ) ≤ (I.nlat : ℝ) - 1 := by
    have : (3 : ℝ) ≤ I.nlat := by exact_mod_cast hlat
    linarith
  have hd : 0 < Real.pi / ((I.nlat : ℝ) - 1) := by positivity
  refine ⟨fun i hi => ?_, fun i hi j hj e => ?_⟩
  · rw [h.2 i hi]
    have h1 : (i : ℝ) ≤ (I.nlat : ℝ) - 1 := by
      have : (i : ℝ) + 1 ≤ I.nlat := by exact_mod_cast hi
      linarith
    have h2 : (i : ℝ) * (Real.pi / ((I.nlat : ℝ) - 1)) ≤ Real.pi := by
      calc (i : ℝ) * (Real.pi / ((I.nlat : ℝ) - 1)) ≤ ((I.nlat : ℝ) - 1) * (Real.pi / ((I.nlat : ℝ) - 1)) :=
            mul_le_mul_of_nonneg_right h1 hd.le
        _ = Real.pi := by field_simp
    have h3 : 0 ≤ (i : ℝ) * (Real.pi / ((I.nlat : ℝ) - 1)) := by positivity
    constructor <;> linarith
  · rw [h.2 i hi, h.2 j hj] at e
    have : (i : ℝ) * (Real.pi / ((I.nlat : ℝ) - 1)) = j * (Real.pi / ((I.nlat : ℝ) - 1)) := by linarith
    exact_mod_cast mul_right_cancel₀ hd.ne' this

end Skyborn.Sphere
