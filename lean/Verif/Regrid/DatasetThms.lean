/-
C323-C329: regridding of whole datasets (`regrid_dataset`, `Regridder.regrid_dataset`).
-/
import Verif.Regrid.DatasetProps
import Verif.Regrid.ConsProps
import Verif.Regrid.NearProps

namespace Skyborn.Regrid

open Skyborn

theorem slice_eq {ds : DS} {lon lat : String} (v : Var) (ix : String → ℕ) :
    slice ds lon lat v ix = fun i j => if i < ds.size lon ∧ j < ds.size lat then v.val (Spec.at2 lon lat ix i j) else none := by
  funext i j
  unfold slice
  congr 2
  funext d
  unfold Spec.at2 Function.update
  by_cases h1 : d = lat
  · simp [h1]
  · by_cases h2 : d = lon <;> simp [h1, h2]

theorem rad_rad2deg (x : ℝ) : Spec.rad (rad2deg x) = x := by
  unfold Spec.rad rad2deg
  have := Real.pi_ne_zero
  field_simp

theorem deg2rad_eq (x : ℝ) : deg2rad x = Spec.rad x := by unfold deg2rad Spec.rad; ring

theorem rad_lt {x y : ℝ} : Spec.rad x < Spec.rad y ↔ x < y := by
  unfold Spec.rad
  have := Real.pi_pos
  constructor
  · intro h; by_contra g; push Not at g; nlinarith [mul_le_mul_of_nonneg_right g this.le]
  · intro h; nlinarith [mul_lt_mul_of_pos_right h this]

/-- C323: a successful call (names found by convention, increasing latitudes) gives a dataset with the target's sizes and
coordinates (in degrees) along the horizontal dimensions and everything else as before; the data variables keep name, dtype and
dimension order; every horizontal slice of a floating-point variable is `regrid_array` of the same slice of the input. -/
theorem C323_values {tbl : Grid ℝ → Grid ℝ → Except RErr (ℕ → ℤ)} {junk : ℝ} {ds R : DS} {target : Grid ℝ} {m : String} {K : Kernel}
    (hK : selectK tbl m = .ok K) {lon lat : String} (hn : Spec.Names ds.dims lon lat) (hi : Spec.StrictInc (ds.size lat) (ds.axis lat))
    (h : regridDatasetFn tbl junk ds target m none none = .ok R) :
    R.dims = ds.dims ∧ R.size lon = target.nlon ∧ R.size lat = target.nlat ∧
    (∀ i, Spec.rad (R.axis lon i) = target.lon i) ∧ (∀ j, Spec.rad (R.axis lat j) = target.lat j) ∧
    (∀ d, d ≠ lon → d ≠ lat → R.size d = ds.size d ∧ R.axis d = ds.axis d) ∧
    List.Forall₂ (fun v w : Var => w.name = v.name ∧ w.dims = v.dims ∧ w.int = v.int ∧
      (Spec.Horizontal lon lat v → v.int = false → ∀ ix, (∀ d ∈ v.dims, ix d < R.size d) →
        ∃ (g : Grid ℝ) (r : ℕ → ℕ → Option ℝ), g.nlon = ds.size lon ∧ g.nlat = ds.size lat ∧
          (∀ i, i < ds.size lon → g.lon i = Spec.rad (ds.axis lon i)) ∧ (∀ j, j < ds.size lat → g.lat j = Spec.rad (ds.axis lat j)) ∧
          K g target (fun i j => if i < ds.size lon ∧ j < ds.size lat then v.val (Spec.at2 lon lat ix i j) else none) = .ok r ∧
          w.val ix = r (ix lon) (ix lat))) ds.vars R.vars := by
  obtain ⟨-, -, hne⟩ := names_facts hn
  rw [fn_asc hK hn hi] at h
  obtain ⟨-, vars, rfl, hf⟩ := finish_ok h
  refine ⟨rfl, by simp [assemble], by simp [assemble, hne.symm], fun i => by simp [assemble, rad_rad2deg],
    fun i => by simp [assemble, rad_rad2deg, hne.symm], fun d h1 h2 => ⟨by simp [assemble, h1, h2], by funext i; simp [assemble, h1, h2]⟩, ?_⟩
  refine hf.imp ?_
  intro v w hw
  by_cases hv : Spec.Horizontal lon lat v
  · obtain ⟨a, b, c, -, e⟩ := regridVar_ok hv hw
    refine ⟨a, b, c, ?_⟩
    intro _ hint ix hix
    obtain ⟨r, hr, hval⟩ := e ix (by
      intro d hd h1 h2
      have := hix d hd
      simpa [assemble, h1, h2] using this)
    refine ⟨dsGrid ds lon lat, r, rfl, rfl, fun i hi => ?_, fun j hj => ?_, ?_, ?_⟩
    · unfold dsGrid; simp only [hi, if_true]; exact deg2rad_eq _
    · unfold dsGrid; simp only [hj, if_true]; exact deg2rad_eq _
    · rw [← slice_eq]; exact hr
    · rw [hval, hint]; rfl
  · rw [regridVar_free hv] at hw
    injection hw with hw
    subst hw
    exact ⟨rfl, rfl, rfl, fun g => absurd g hv⟩

/-- The forms `K g target slice` of C323 with the bilinear kernel, in terms of bilinear interpolation. -/
theorem bilinearK_spec {src tgt : Grid ℝ} (p1 : 0 < src.nlon) (p2 : 0 < src.nlat) (i1 : Spec.StrictInc src.nlon src.lon)
    (i2 : Spec.StrictInc src.nlat src.lat) {F : ℕ → ℕ → Option ℝ} {r : ℕ → ℕ → Option ℝ} (h : bilinearK src tgt F = .ok r)
    {f : ℕ → ℕ → ℝ} (hf : ∀ c d, c < src.nlon → d < src.nlat → F c d = some (f c d)) {i j : ℕ} (hi : i < tgt.nlon) (hj : j < tgt.nlat) :
    ∃ v, r i j = some v ∧ Spec.Bilinear src.nlon src.nlat src.lon src.lat f (tgt.lon i) (tgt.lat j) v := by
  obtain ⟨R, e, -, hR⟩ := C36_bilinear (tgt := tgt) p1 p2 i1 i2 (field := arr2 src.nlon src.nlat F) (s := []) rfl
  unfold bilinearK at h
  rw [e] at h
  simp only [bind, Except.bind, pure, Except.pure] at h
  injection h with h
  subst h
  exact hR [] trivial f (fun c d hc hd => by show F _ _ = _; exact hf c d hc hd) i j hi hj

theorem bilinear_congr {n m : ℕ} {x y x' y' : ℕ → ℝ} (hx : ∀ i, i < n → x i = x' i) (hy : ∀ j, j < m → y j = y' j)
    {f : ℕ → ℕ → ℝ} {s t v : ℝ} (h : Spec.Bilinear n m x y f s t v) : Spec.Bilinear n m x' y' f s t v := by
  obtain ⟨l, r, a, p, q, b, ⟨h1, h2, h3, h4, h5⟩, ⟨g1, g2, g3, g4, g5⟩, e⟩ := h
  refine ⟨l, r, a, p, q, b, ⟨h1, h2, h3, h4, ?_⟩, ⟨g1, g2, g3, g4, ?_⟩, e⟩
  · rw [← hx l (by omega), ← hx r h1, ← hx 0 (by omega), ← hx (n - 1) (by omega)]; exact h5
  · rw [← hy p (by omega), ← hy q g1, ← hy 0 (by omega), ← hy (m - 1) (by omega)]; exact g5

/-- C323, bilinear method: on increasing axes every value of a complete horizontal slice of a floating-point variable becomes the
bilinear interpolation, at the target point, of that slice on the dataset's own axes (in radians). -/
theorem C323_bilinear {tbl : Grid ℝ → Grid ℝ → Except RErr (ℕ → ℤ)} {junk : ℝ} {ds R : DS} {target : Grid ℝ}
    {lon lat : String} (hn : Spec.Names ds.dims lon lat) (hi : Spec.StrictInc (ds.size lat) (ds.axis lat))
    (hx : Spec.StrictInc (ds.size lon) (ds.axis lon)) (p1 : 0 < ds.size lon) (p2 : 0 < ds.size lat)
    (h : regridDatasetFn tbl junk ds target "bilinear" none none = .ok R) :
    List.Forall₂ (fun v w : Var => Spec.Horizontal lon lat v → v.int = false → ∀ ix, (∀ d ∈ v.dims, ix d < R.size d) →
      ∀ f : ℕ → ℕ → ℝ, (∀ i j, i < ds.size lon → j < ds.size lat → v.val (Spec.at2 lon lat ix i j) = some (f i j)) →
        ∃ z, w.val ix = some z ∧ Spec.Bilinear (ds.size lon) (ds.size lat) (fun i => Spec.rad (ds.axis lon i))
          (fun j => Spec.rad (ds.axis lat j)) f (target.lon (ix lon)) (target.lat (ix lat)) z) ds.vars R.vars := by
  have hK : selectK tbl "bilinear" = .ok bilinearK := by unfold selectK; simp
  obtain ⟨-, s1, s2, -, -, -, hf⟩ := C323_values hK hn hi h
  refine hf.imp ?_
  rintro v w ⟨-, -, -, hw⟩ hv hint ix hix f hval
  obtain ⟨g, r, g1, g2, g3, g4, hr, hz⟩ := hw hv hint ix hix
  have k1 : ix lon < target.nlon := by rw [← s1]; exact hix lon hv.1
  have k2 : ix lat < target.nlat := by rw [← s2]; exact hix lat hv.2
  obtain ⟨z, e, hB⟩ := bilinearK_spec (by omega) (by omega)
    (by rw [g1]; intro i j hij hj; rw [g3 i (by omega), g3 j hj, rad_lt]; exact hx i j hij hj)
    (by rw [g2]; intro i j hij hj; rw [g4 i (by omega), g4 j hj, rad_lt]; exact hi i j hij hj) hr
    (f := f) (by intro c d hc hd; rw [g1] at hc; rw [g2] at hd; rw [if_pos ⟨hc, hd⟩]; exact hval c d hc hd) k1 k2
  refine ⟨z, by rw [hz]; exact e, ?_⟩
  rw [g1, g2] at hB
  exact bilinear_congr g3 g4 hB

/-- C323, conservative method: with latitudes between the poles and increasing axes on both sides, every value written lies between any
bounds of the present values of its slice. -/
theorem C323_conservative {tbl : Grid ℝ → Grid ℝ → Except RErr (ℕ → ℤ)} {junk : ℝ} {ds R : DS} {target : Grid ℝ}
    {lon lat : String} (hn : Spec.Names ds.dims lon lat) (hi : Spec.StrictInc (ds.size lat) (ds.axis lat))
    (hx : Spec.StrictInc (ds.size lon) (ds.axis lon)) (p1 : 0 < ds.size lon) (p2 : 0 < ds.size lat)
    (h90 : ∀ i, i < ds.size lat → |ds.axis lat i| ≤ 90) (ht : GridOK target)
    (h : regridDatasetFn tbl junk ds target "conservative" none none = .ok R) :
    List.Forall₂ (fun v w : Var => Spec.Horizontal lon lat v → v.int = false → ∀ ix, (∀ d ∈ v.dims, ix d < R.size d) →
      ∀ lo hi : ℝ, (∀ i j, i < ds.size lon → j < ds.size lat → ∀ z, v.val (Spec.at2 lon lat ix i j) = some z → lo ≤ z ∧ z ≤ hi) →
        ∀ z, w.val ix = some z → lo ≤ z ∧ z ≤ hi) ds.vars R.vars := by
  have hK : selectK tbl "conservative" = .ok conservativeK := by unfold selectK; simp
  obtain ⟨-, s1, s2, -, -, -, hf⟩ := C323_values hK hn hi h
  refine hf.imp ?_
  rintro v w ⟨-, -, -, hw⟩ hv hint ix hix lo hi' hval z hz'
  obtain ⟨g, r, g1, g2, g3, g4, hr, hz⟩ := hw hv hint ix hix
  have k1 : ix lon < target.nlon := by rw [← s1]; exact hix lon hv.1
  have k2 : ix lat < target.nlat := by rw [← s2]; exact hix lat hv.2
  have hg : GridOK g := by
    refine ⟨by omega, by omega, ?_, ?_, ?_⟩
    · rw [g1]; intro i j hij hj; rw [g3 i (by omega), g3 j hj, rad_lt]; exact hx i j hij hj
    · rw [g2]; intro i j hij hj; rw [g4 i (by omega), g4 j hj, rad_lt]; exact hi i j hij hj
    · intro i hi
      rw [g2] at hi
      rw [g4 i hi]
      have := abs_le.mp (h90 i hi)
      have hp := Real.pi_pos
      unfold Spec.rad
      constructor <;> nlinarith
  unfold conservativeK at hr
  cases hc : conservativeRegrid g target (arr2 g.nlon g.nlat fun i j =>
      if i < ds.size lon ∧ j < ds.size lat then v.val (Spec.at2 lon lat ix i j) else none) with
  | error e => rw [hc] at hr; simp [bind, Except.bind] at hr
  | ok Q =>
    rw [hc] at hr
    simp only [bind, Except.bind, pure, Except.pure] at hr
    injection hr with hr
    subst hr
    refine C37_range hg ht (s := []) rfl hc (l := []) trivial k1 k2 (lo := lo) (hi' := hi') ?_ (r := z) (by rw [← hz']; exact hz.symm)
    intro c d hc' hd' y hy
    rw [g1] at hc'
    rw [g2] at hd'
    refine hval c d hc' hd' y ?_
    have e : (arr2 g.nlon g.nlat fun i j => if i < ds.size lon ∧ j < ds.size lat then v.val (Spec.at2 lon lat ix i j) else none).get
        ([] ++ [c, d]) = if c < ds.size lon ∧ d < ds.size lat then v.val (Spec.at2 lon lat ix c d) else none := rfl
    rw [e, if_pos ⟨hc', hd'⟩] at hy
    exact hy

/-- C323, nearest method (with the compiled search): every value is copied - missing or not - from a source point nearest to the target
point on the sphere. -/
theorem C323_nearest {junk : ℝ} {ds R : DS} {target : Grid ℝ}
    {lon lat : String} (hn : Spec.Names ds.dims lon lat) (hi : Spec.StrictInc (ds.size lat) (ds.axis lat))
    (p1 : 0 < ds.size lon) (p2 : 0 < ds.size lat)
    (h : regridDatasetFn (fun src tgt => (nearestIndices src.nlon src.nlat src.lon src.lat tgt.nlon tgt.nlat tgt.lon tgt.lat).map
      fun ind t => (ind t : ℤ)) junk ds target "nearest" none none = .ok R) :
    List.Forall₂ (fun v w : Var => Spec.Horizontal lon lat v → v.int = false → ∀ ix, (∀ d ∈ v.dims, ix d < R.size d) →
      ∃ i j, i < ds.size lon ∧ j < ds.size lat ∧ w.val ix = v.val (Spec.at2 lon lat ix i j) ∧
        ∀ i' j', i' < ds.size lon → j' < ds.size lat →
          Spec.angle (target.lon (ix lon)) (target.lat (ix lat)) (Spec.rad (ds.axis lon i)) (Spec.rad (ds.axis lat j)) ≤
          Spec.angle (target.lon (ix lon)) (target.lat (ix lat)) (Spec.rad (ds.axis lon i')) (Spec.rad (ds.axis lat j'))) ds.vars R.vars := by
  obtain ⟨-, s1, s2, -, -, -, hf⟩ := C323_values (K := nearestK _) (by unfold selectK; rw [if_pos rfl]) hn hi h
  refine hf.imp ?_
  rintro v w ⟨-, -, -, hw⟩ hv hint ix hix
  obtain ⟨g, r, g1, g2, g3, g4, hr, hz⟩ := hw hv hint ix hix
  have k1 : ix lon < target.nlon := by rw [← s1]; exact hix lon hv.1
  have k2 : ix lat < target.nlat := by rw [← s2]; exact hix lat hv.2
  obtain ⟨ind, Q, e1, e2, -, hQ⟩ := C41_nearest_value (src := g) (tgt := target) (by omega) (by omega) (by omega) (by omega)
    (field := arr2 g.nlon g.nlat fun i j => if i < ds.size lon ∧ j < ds.size lat then v.val (Spec.at2 lon lat ix i j) else none)
    (s := []) rfl
  unfold nearestK at hr
  beta_reduce at hr
  rw [e1] at hr
  simp only [Except.map, bind, Except.bind, pure, Except.pure] at hr
  rw [e2] at hr
  simp only at hr
  injection hr with hr
  subst hr
  obtain ⟨c, d, hc, hd, hv', hmin⟩ := hQ [] (ix lon) (ix lat) trivial k1 k2
  rw [g1] at hc
  rw [g2] at hd
  refine ⟨c, d, hc, hd, ?_, ?_⟩
  · rw [hz]
    have : Q.get [ix lon, ix lat] = _ := hv'
    beta_reduce
    rw [this]
    show (if c < ds.size lon ∧ d < ds.size lat then v.val (Spec.at2 lon lat ix c d) else none) = _
    rw [if_pos ⟨hc, hd⟩]
  · intro i' j' h1 h2
    have := hmin i' j' (by omega) (by omega)
    rw [g3 c hc, g4 d hd, g3 i' h1, g4 j' h2] at this
    exact this

/-- C324: the result does not depend on the order in which the latitudes of the dataset are stored: a dataset with decreasing
latitudes (within the poles, spanning more than 0.001 degrees) gives exactly what the reversed one gives - for every method, and
also when an error is raised. -/
theorem C324_latitude_order {tbl : Grid ℝ → Grid ℝ → Except RErr (ℕ → ℤ)} {junk : ℝ} {ds ds' : DS} {target : Grid ℝ} {m : String}
    {lon lat : String} (hn : Spec.Names ds.dims lon lat) (hi : Spec.StrictInc (ds.size lat) (ds.axis lat))
    (h90 : ∀ i, i < ds.size lat → |ds.axis lat i| ≤ 90) (hspan : ds.axis lat (ds.size lat - 1) - ds.axis lat 0 > 1 / 1000)
    (hr : Spec.Reversed lat ds ds') : regridDatasetFn tbl junk ds' target m none none = regridDatasetFn tbl junk ds target m none none := by
  rw [reversed_eq hr]
  cases hK : selectK tbl m with
  | ok K => rw [fn_asc hK hn hi, fn_desc hK hn hi h90 hspan]
  | error e =>
    unfold regridDatasetFn
    rw [hK]
    rfl

/-- C325, the full statement: every data variable, of whatever dtype, holds the values of `regrid_array`. -/
def C325_statement : Prop :=
  ∀ (tbl : Grid ℝ → Grid ℝ → Except RErr (ℕ → ℤ)) (junk : ℝ) (ds R : DS) (target : Grid ℝ) (lon lat : String),
    Spec.Names ds.dims lon lat → Spec.StrictInc (ds.size lat) (ds.axis lat) → Spec.StrictInc (ds.size lon) (ds.axis lon) →
    0 < ds.size lon → 0 < ds.size lat → regridDatasetFn tbl junk ds target "bilinear" none none = .ok R →
    List.Forall₂ (fun v w : Var => Spec.Horizontal lon lat v → ∀ ix, (∀ d ∈ v.dims, ix d < R.size d) →
      ∀ f : ℕ → ℕ → ℝ, (∀ i j, i < ds.size lon → j < ds.size lat → v.val (Spec.at2 lon lat ix i j) = some (f i j)) →
        ∃ z, w.val ix = some z ∧ Spec.Bilinear (ds.size lon) (ds.size lat) (fun i => Spec.rad (ds.axis lon i))
          (fun j => Spec.rad (ds.axis lat j)) f (target.lon (ix lon)) (target.lat (ix lat)) z) ds.vars R.vars

/-- C325, what holds: an integer variable gets the values of `regrid_array` rounded towards zero. -/
theorem C325_partial {tbl : Grid ℝ → Grid ℝ → Except RErr (ℕ → ℤ)} {junk : ℝ} {ds R : DS} {target : Grid ℝ}
    {lon lat : String} (hn : Spec.Names ds.dims lon lat) (hi : Spec.StrictInc (ds.size lat) (ds.axis lat))
    (hx : Spec.StrictInc (ds.size lon) (ds.axis lon)) (p1 : 0 < ds.size lon) (p2 : 0 < ds.size lat)
    (h : regridDatasetFn tbl junk ds target "bilinear" none none = .ok R) :
    List.Forall₂ (fun v w : Var => Spec.Horizontal lon lat v → v.int = true → ∀ ix, (∀ d ∈ v.dims, ix d < R.size d) →
      ∀ f : ℕ → ℕ → ℝ, (∀ i j, i < ds.size lon → j < ds.size lat → v.val (Spec.at2 lon lat ix i j) = some (f i j)) →
        ∃ (z : ℝ) (q : ℤ), w.val ix = some (q : ℝ) ∧ |(q : ℝ)| ≤ |z| ∧ |z| < |(q : ℝ)| + 1 ∧ 0 ≤ (q : ℝ) * z ∧
          Spec.Bilinear (ds.size lon) (ds.size lat) (fun i => Spec.rad (ds.axis lon i))
            (fun j => Spec.rad (ds.axis lat j)) f (target.lon (ix lon)) (target.lat (ix lat)) z) ds.vars R.vars := by
  have hK : selectK tbl "bilinear" = .ok bilinearK := by unfold selectK; simp
  obtain ⟨-, s1, s2, -, -, s5, -⟩ := C323_values hK hn hi h
  rw [fn_asc hK hn hi] at h
  obtain ⟨-, vars, rfl, hf⟩ := finish_ok h
  refine hf.imp ?_
  intro v w hw hv hint ix hix f hval
  obtain ⟨a, b, c, -, e⟩ := regridVar_ok hv hw
  obtain ⟨r, hr, hz⟩ := e ix (by
    intro d hd h1 h2
    have := hix d hd
    rwa [(s5 d h1 h2).1] at this)
  have k1 : ix lon < target.nlon := by rw [← s1]; exact hix lon hv.1
  have k2 : ix lat < target.nlat := by rw [← s2]; exact hix lat hv.2
  have g3 : ∀ i, i < ds.size lon → (dsGrid ds lon lat).lon i = Spec.rad (ds.axis lon i) := fun i hi => by
    unfold dsGrid; simp only [hi, if_true]; exact deg2rad_eq _
  have g4 : ∀ i, i < ds.size lat → (dsGrid ds lon lat).lat i = Spec.rad (ds.axis lat i) := fun i hi => by
    unfold dsGrid; simp only [hi, if_true]; exact deg2rad_eq _
  rw [slice_eq] at hr
  obtain ⟨z, ez, hB⟩ := bilinearK_spec (src := dsGrid ds lon lat) p1 p2
    (by intro i j hij hj; rw [g3 i (lt_trans hij hj), g3 j hj, rad_lt]; exact hx i j hij hj)
    (by intro i j hij hj; rw [g4 i (lt_trans hij hj), g4 j hj, rad_lt]; exact hi i j hij hj) hr
    (f := f) (by intro c d hc hd; rw [if_pos ⟨hc, hd⟩]; exact hval c d hc hd) k1 k2
  have hB' := bilinear_congr g3 g4 hB
  rw [hint, ez] at hz
  by_cases hz0 : 0 ≤ z
  · refine ⟨z, ⌊z⌋, by rw [hz]; simp [toInt, hz0], ?_, ?_, ?_, hB'⟩
    · have : (0 : ℝ) ≤ (⌊z⌋ : ℝ) := by exact_mod_cast Int.floor_nonneg.mpr hz0
      rw [abs_of_nonneg hz0, abs_of_nonneg this]; exact Int.floor_le z
    · have : (0 : ℝ) ≤ (⌊z⌋ : ℝ) := by exact_mod_cast Int.floor_nonneg.mpr hz0
      rw [abs_of_nonneg hz0, abs_of_nonneg this]; exact Int.lt_floor_add_one z
    · have : (0 : ℝ) ≤ (⌊z⌋ : ℝ) := by exact_mod_cast Int.floor_nonneg.mpr hz0
      positivity
  · push Not at hz0
    have hc : (⌈z⌉ : ℝ) ≤ 0 := by exact_mod_cast Int.ceil_le.mpr (by simpa using hz0.le)
    refine ⟨z, ⌈z⌉, by rw [hz]; simp [toInt, not_le.mpr hz0], ?_, ?_, ?_, hB'⟩
    · rw [abs_of_neg hz0, abs_of_nonpos hc]; have := Int.le_ceil z; linarith
    · rw [abs_of_neg hz0, abs_of_nonpos hc]; have := Int.ceil_lt_add_one z; linarith
    · nlinarith

/-- C326: with the bilinear method, on a dataset whose horizontal dimensions are not empty, the call succeeds exactly when the names
can be found, the latitudes are strictly monotonic, every data variable and coordinate has both horizontal dimensions or none, and no
variable to be regridded has an empty further dimension. -/
theorem C326_bilinear_accepts {tbl : Grid ℝ → Grid ℝ → Except RErr (ℕ → ℤ)} {junk : ℝ} {ds : DS} {target : Grid ℝ}
    (hpos : ∀ d ∈ ["longitude", "lon", "long", "x", "latitude", "lat", "y"], d ∈ ds.dims → 0 < ds.size d) :
    (∃ R, regridDatasetFn tbl junk ds target "bilinear" none none = .ok R) ↔
      ∃ lon lat, Spec.Names ds.dims lon lat ∧
        (Spec.StrictInc (ds.size lat) (ds.axis lat) ∨ Spec.StrictDec (ds.size lat) (ds.axis lat)) ∧
        (∀ v ∈ ds.vars, Spec.Horizontal lon lat v ∨ Spec.Free lon lat v) ∧
        (∀ v ∈ ds.coords, Spec.Horizontal lon lat v ∨ Spec.Free lon lat v) ∧
        ∀ v ∈ ds.vars, Spec.Horizontal lon lat v → ∀ d ∈ v.dims, d ≠ lon → d ≠ lat → 0 < ds.size d := by
  have hK : selectK tbl "bilinear" = .ok bilinearK := by unfold selectK; simp
  have main : ∀ lon lat, Spec.Names ds.dims lon lat → ∀ ds1, orient ds lat = .ok ds1 →
      ((∃ R, regridDatasetFn tbl junk ds target "bilinear" none none = .ok R) ↔
        (∀ v ∈ ds.vars, Spec.Horizontal lon lat v ∨ Spec.Free lon lat v) ∧
        (∀ v ∈ ds.coords, Spec.Horizontal lon lat v ∨ Spec.Free lon lat v) ∧
        ∀ v ∈ ds.vars, Spec.Horizontal lon lat v → ∀ d ∈ v.dims, d ≠ lon → d ≠ lat → 0 < ds.size d) := by
    intro lon lat hn ds1 ho
    obtain ⟨a, b, hne⟩ := names_facts hn
    have q1 : 0 < ds.size lon := hpos lon (by
      obtain ⟨h1, -⟩ := hn
      rcases h1 with ⟨-, rfl⟩ | ⟨-, -, rfl⟩ | ⟨-, -, -, rfl⟩ | ⟨-, -, -, -, rfl⟩ <;> simp) a
    have q2 : 0 < ds.size lat := hpos lat (by
      obtain ⟨-, h1⟩ := hn
      rcases h1 with ⟨-, rfl⟩ | ⟨-, -, rfl⟩ | ⟨-, -, -, rfl⟩ <;> simp) b
    obtain ⟨-, ho'⟩ := orient_ok ho
    obtain ⟨src, e1, e2, ek⟩ := active_ok (K := bilinearK) (target := target) hne ho'
    rw [fn_eq hK hn, method_eq (names_auto hn) a b ho ek, finish_exists, anyPartial_iff]
    have hk : ∀ f, ∃ r, bilinearK src target f = .ok r := bilinear_some (by omega) (by omega)
    simp only [regridVar_exists hk]
    rcases ho' with rfl | rfl
    · tauto
    · have hz : (flipDS ds lat).size = ds.size := rfl
      have hv : (flipDS ds lat).vars = ds.vars.map (flipVar (ds.size lat) lat) := rfl
      have hc : (flipDS ds lat).coords = ds.coords.map (flipVar (ds.size lat) lat) := rfl
      simp only [hz, hv, hc, List.forall_mem_map, Spec.Horizontal, Spec.Free, flipVar_dims]
      tauto
  constructor
  · rintro ⟨R, h⟩
    cases hd : detect ds.dims with
    | error e => unfold regridDatasetFn at h; rw [hd] at h; simp [bind, Except.bind] at h
    | ok p =>
      obtain ⟨lon, lat⟩ := p
      have hn := detect_iff.mp hd
      obtain ⟨a, b, hne⟩ := names_facts hn
      cases ho : orient ds lat with
      | error e =>
        rw [fn_eq hK hn] at h
        unfold regridDataset at h
        rw [names_auto hn] at h
        simp only [bind, Except.bind] at h
        rw [if_neg (by tauto), ho] at h
        cases h
      | ok ds1 =>
        obtain ⟨r1, r2, r3⟩ := (main lon lat hn ds1 ho).mp ⟨R, h⟩
        exact ⟨lon, lat, hn, (orient_ok ho).1, r1, r2, r3⟩
  · rintro ⟨lon, lat, hn, hm, r⟩
    by_cases hi : Spec.StrictInc (ds.size lat) (ds.axis lat)
    · exact (main lon lat hn _ (orient_asc hi)).mpr r
    · exact (main lon lat hn _ (orient_desc hi (hm.resolve_left hi))).mpr r

/-- C326: an unknown method is always refused. -/
theorem C326_method {tbl : Grid ℝ → Grid ℝ → Except RErr (ℕ → ℤ)} {junk : ℝ} {ds : DS} {target : Grid ℝ} {m : String}
    (h1 : m ≠ "nearest") (h2 : m ≠ "bilinear") (h3 : m ≠ "conservative") (lon? lat? : Option String) :
    regridDatasetFn tbl junk ds target m lon? lat? = .error .valueError := by
  unfold regridDatasetFn selectK
  rw [if_neg h1, if_neg h2, if_neg h3]
  unfold detect
  split <;> rfl

/-- C327, the full statement: a caller may name the horizontal dimensions: if the named dimensions are dimensions of the dataset,
not empty, with increasing latitudes, and every variable has both or neither, the call succeeds. -/
def C327_statement : Prop :=
  ∀ (tbl : Grid ℝ → Grid ℝ → Except RErr (ℕ → ℤ)) (junk : ℝ) (ds : DS) (target : Grid ℝ) (lon lat : String), lon ≠ lat →
    lon ∈ ds.dims → lat ∈ ds.dims → 0 < ds.size lon → 0 < ds.size lat → Spec.StrictInc (ds.size lat) (ds.axis lat) →
    (∀ v ∈ ds.vars, (Spec.Horizontal lon lat v ∨ Spec.Free lon lat v) ∧ ∀ d ∈ v.dims, 0 < ds.size d) →
    (∀ v ∈ ds.coords, Spec.Horizontal lon lat v ∨ Spec.Free lon lat v) →
    ∃ R, regridDatasetFn tbl junk ds target "bilinear" (some lon) (some lat) = .ok R

/-- C327, what happens: without a conventional name for each of the two dimensions the call is refused, whatever names are given; if
the names given are the conventional ones, the call is the same as without names. -/
theorem C327_partial {tbl : Grid ℝ → Grid ℝ → Except RErr (ℕ → ℤ)} {junk : ℝ} {ds : DS} {target : Grid ℝ} {m : String} :
    ((¬ ∃ lon lat, Spec.Names ds.dims lon lat) → ∀ lon? lat?, regridDatasetFn tbl junk ds target m lon? lat? = .error .valueError) ∧
    ∀ lon lat, Spec.Names ds.dims lon lat →
      regridDatasetFn tbl junk ds target m (some lon) (some lat) = regridDatasetFn tbl junk ds target m none none := by
  constructor
  · intro h lon? lat?
    have : detect ds.dims = .error .valueError := by
      cases hd : detect ds.dims with
      | ok p => exact absurd ⟨p.1, p.2, detect_iff.mp hd⟩ h
      | error e =>
        unfold detect at hd
        split at hd
        · cases hd
        · injection hd with hd; rw [hd]
    unfold regridDatasetFn
    rw [this]; rfl
  · intro lon lat hn
    have e : names ds (some lon) (some lat) = names ds none none := by rw [names_auto hn]; rfl
    unfold regridDatasetFn regridDataset
    rw [e]

/-- C328: data variables and coordinates without horizontal dimensions come out unchanged, whatever the orientation of the
latitudes, the method and the names given. -/
theorem C328_untouched {tbl : Grid ℝ → Grid ℝ → Except RErr (ℕ → ℤ)} {junk : ℝ} {ds R : DS} {target : Grid ℝ} {m : String}
    {lon lat : String} (hn : Spec.Names ds.dims lon lat) (h : regridDatasetFn tbl junk ds target m none none = .ok R) :
    List.Forall₂ (fun v w : Var => w.name = v.name ∧ w.dims = v.dims ∧ w.int = v.int ∧ (Spec.Free lon lat v → w = v)) ds.vars R.vars ∧
    ∀ c ∈ ds.coords, Spec.Free lon lat c → c ∈ R.coords := by
  obtain ⟨a, b, hne⟩ := names_facts hn
  cases hK : selectK tbl m with
  | error e => unfold regridDatasetFn at h; rw [detect_iff.mpr hn, hK] at h; cases h
  | ok K =>
    rw [fn_eq hK hn] at h
    cases ho : orient ds lat with
    | error e =>
      unfold regridDataset at h
      rw [names_auto hn] at h
      simp only [bind, Except.bind] at h
      rw [if_neg (by tauto), ho] at h
      cases h
    | ok ds1 =>
      obtain ⟨-, ho'⟩ := orient_ok ho
      obtain ⟨src, e1, e2, ek⟩ := active_ok (K := K) (target := target) hne ho'
      rw [method_eq (names_auto hn) a b ho ek] at h
      obtain ⟨-, vars, rfl, hf⟩ := finish_ok h
      have key : ∀ v w : Var, regridVar (K src target) junk ds1 lon lat v = .ok w → w.name = v.name ∧ w.dims = v.dims ∧
          w.int = v.int ∧ (Spec.Free lon lat v → w = v) := by
        intro v w hw
        by_cases hv : Spec.Horizontal lon lat v
        · obtain ⟨k1, k2, k3, -⟩ := regridVar_ok hv hw
          exact ⟨k1, k2, k3, fun g => absurd hv.1 g.1⟩
        · rw [regridVar_free hv] at hw
          injection hw with hw
          subst hw
          exact ⟨rfl, rfl, rfl, fun _ => rfl⟩
      rcases ho' with rfl | rfl
      · exact ⟨hf.imp key, fun c hc hfree => List.mem_filter.mpr ⟨hc, by simpa [Spec.Free] using hfree⟩⟩
      · refine ⟨?_, fun c hc hfree => List.mem_filter.mpr ⟨?_, by simpa [Spec.Free] using hfree⟩⟩
        · have hv : (flipDS ds lat).vars = ds.vars.map (flipVar (ds.size lat) lat) := rfl
          rw [hv, List.forall₂_map_left_iff] at hf
          refine hf.imp ?_
          intro v w hw
          obtain ⟨k1, k2, k3, k4⟩ := key _ w hw
          by_cases hl : lat ∈ v.dims
          · rw [flipVar_dims] at k2
            refine ⟨by rw [k1]; unfold flipVar; split <;> rfl, k2, by rw [k3]; unfold flipVar; split <;> rfl, fun g => absurd hl g.2⟩
          · have : flipVar (ds.size lat) lat v = v := by unfold flipVar; rw [if_neg hl]
            rw [this] at k1 k2 k3 k4
            exact ⟨k1, k2, k3, k4⟩
        · show c ∈ ds.coords.map (flipVar (ds.size lat) lat)
          refine List.mem_map.mpr ⟨c, hc, ?_⟩
          unfold flipVar; rw [if_neg hfree.2]

/-- C329: a regridder refuses a dataset whose horizontal grid is not its source grid: if the numbers of points differ, or a longitude
or (in the better of the two orders) a latitude differs by more than the tolerance `1e-8 + 1e-5 |value|` (radians). -/
theorem C329_wrong_grid {K : Kernel} {junk : ℝ} {source target : Grid ℝ} {ds : DS} {lon lat : String} (hn : Spec.Names ds.dims lon lat)
    (hi : Spec.StrictInc (ds.size lat) (ds.axis lat))
    (h : source.nlon ≠ ds.size lon ∨ source.nlat ≠ ds.size lat ∨
      (∃ i, i < ds.size lon ∧ |source.lon i - Spec.rad (ds.axis lon i)| > 1 / 10 ^ 8 + 1 / 10 ^ 5 * |Spec.rad (ds.axis lon i)|) ∨
      ((∃ j, j < ds.size lat ∧ |source.lat j - Spec.rad (ds.axis lat j)| > 1 / 10 ^ 8 + 1 / 10 ^ 5 * |Spec.rad (ds.axis lat j)|) ∧
       (∃ j, j < ds.size lat ∧ |source.lat (ds.size lat - 1 - j) - Spec.rad (ds.axis lat j)| >
          1 / 10 ^ 8 + 1 / 10 ^ 5 * |Spec.rad (ds.axis lat j)|))) :
    regridDataset K junk source target ds none none = .error .valueError := by
  obtain ⟨a, b, hne⟩ := names_facts hn
  have g3 : ∀ i, i < ds.size lon → (dsGrid ds lon lat).lon i = Spec.rad (ds.axis lon i) := fun i hi => by
    unfold dsGrid; simp only [hi, if_true]; exact deg2rad_eq _
  have g4 : ∀ i, i < ds.size lat → (dsGrid ds lon lat).lat i = Spec.rad (ds.axis lat i) := fun i hi => by
    unfold dsGrid; simp only [hi, if_true]; exact deg2rad_eq _
  have n1 : ¬ gridAllclose source (dsGrid ds lon lat) := by
    rintro ⟨c1, c2, c3, c4⟩
    have d1 : source.nlon = ds.size lon := c1
    have d2 : source.nlat = ds.size lat := c2
    rcases h with h | h | ⟨i, h, h'⟩ | ⟨⟨j, h, h'⟩, -⟩
    · exact h d1
    · exact h d2
    · have := c3 i (by omega); rw [g3 i h] at this; linarith
    · have := c4 j (by omega); rw [g4 j h] at this; linarith
  have n2 : ¬ gridAllclose (flipGrid source) (dsGrid ds lon lat) := by
    rintro ⟨c1, c2, c3, c4⟩
    have d1 : source.nlon = ds.size lon := c1
    have d2 : source.nlat = ds.size lat := c2
    rcases h with h | h | ⟨i, h, h'⟩ | ⟨-, j, h, h'⟩
    · exact h d1
    · exact h d2
    · have := c3 i (by show i < source.nlon; omega)
      rw [g3 i h] at this
      have e : (flipGrid source).lon i = source.lon i := rfl
      rw [e] at this; linarith
    · have := c4 j (by show j < source.nlat; omega)
      rw [g4 j h] at this
      have e : (flipGrid source).lat j = source.lat (source.nlat - 1 - j) := by
        unfold flipGrid; simp only; rw [if_pos (by omega)]
      rw [e, d2] at this; linarith
  unfold regridDataset
  rw [names_auto hn]
  simp only [bind, Except.bind]
  rw [if_neg (by tauto), orient_asc hi]
  simp only
  split
  · rfl
  · unfold activeKernel
    rw [if_neg n1, if_neg n2]

/-! ### Concrete cases -/

/-- A dataset with two latitudes, two longitudes and a time dimension; a floating-point variable, an integer variable and one
without horizontal dimensions. -/
noncomputable def exDS : DS where
  dims := ["time", "lat", "lon"]
  size := fun d => if d = "time" then 3 else 2
  axis := fun d i => if d = "lat" then 10 * i - 5 else i
  vars := [⟨"t", ["time", "lat", "lon"], false, fun ix => some (ix "time" + ix "lon")⟩,
           ⟨"n", ["lon", "lat"], true, fun ix => some (ix "lon")⟩,
           ⟨"p", ["time"], false, fun ix => some (ix "time")⟩]
  coords := []

/-- One target point half-way between the longitudes, on the lower latitude. -/
noncomputable def exTarget : Grid ℝ := ⟨1, fun _ => Spec.rad (1 / 2), 1, fun _ => Spec.rad (-5)⟩

theorem exDS_names : Spec.Names exDS.dims "lon" "lat" := by
  unfold Spec.Names exDS; simp

theorem exDS_lat : Spec.StrictInc (exDS.size "lat") (exDS.axis "lat") := by
  intro i j hij hj
  have h2 : j < 2 := by simpa [exDS] using hj
  obtain rfl : i = 0 := by omega
  obtain rfl : j = 1 := by omega
  simp [exDS]

theorem exDS_lon : Spec.StrictInc (exDS.size "lon") (exDS.axis "lon") := by
  intro i j hij hj
  have h2 : j < 2 := by simpa [exDS] using hj
  obtain rfl : i = 0 := by omega
  obtain rfl : j = 1 := by omega
  simp [exDS]

/-- The dataset is regridded. -/
theorem exDS_ok (tbl : Grid ℝ → Grid ℝ → Except RErr (ℕ → ℤ)) (junk : ℝ) (target : Grid ℝ) :
    ∃ R, regridDatasetFn tbl junk exDS target "bilinear" none none = .ok R := by
  refine (C326_bilinear_accepts ?_).mpr ⟨"lon", "lat", exDS_names, .inl exDS_lat, ?_, ?_, ?_⟩
  · intro d _ _; unfold exDS; simp only; split <;> omega
  · intro v hv
    simp only [exDS, List.mem_cons, List.not_mem_nil, or_false] at hv
    rcases hv with rfl | rfl | rfl <;> simp [Spec.Horizontal, Spec.Free]
  · intro v hv; simp [exDS] at hv
  · intro v hv _ d hd _ _; unfold exDS; simp only; split <;> omega

/-- Hypotheses of C324 for the example. -/
example : Spec.Reversed "lat" exDS (flipDS exDS "lat") ∧ (∀ i, i < exDS.size "lat" → |exDS.axis "lat" i| ≤ 90) ∧
    exDS.axis "lat" (exDS.size "lat" - 1) - exDS.axis "lat" 0 > 1 / 1000 := by
  refine ⟨⟨rfl, rfl, ?_, ?_, ?_, ?_, ?_⟩, ?_, ?_⟩
  · intro d i hd; unfold flipDS; simp [hd]
  · intro i j h
    rw [flipDS_axis (by omega)]
    congr 1; omega
  · intro i h; unfold flipDS; simp [Nat.not_lt.mpr h]
  · simp only [flipDS, exDS, List.map_cons, List.map_nil]
    refine .cons ?_ (.cons ?_ (.cons ?_ .nil))
    · refine ⟨by simp [flipVar], by simp [flipVar], by simp [flipVar], by simp, ?_⟩
      intro _ ix jx h _
      simp [flipVar, h]
    · refine ⟨by simp [flipVar], by simp [flipVar], by simp [flipVar], by simp, ?_⟩
      intro _ ix jx h _
      simp [flipVar, h]
    · refine ⟨by simp [flipVar], by simp [flipVar], by simp [flipVar], by simp [flipVar], by simp⟩
  · exact .nil
  · intro i hi
    have h2 : i < 2 := by simpa [exDS] using hi
    have : i = 0 ∨ i = 1 := by omega
    rcases this with rfl | rfl <;> simp [exDS] <;> norm_num
  · simp [exDS]; norm_num

/-- C325 fails: half-way between the integers 0 and 1 an integer variable gets 0 instead of 1/2. -/
theorem C325_false : ¬ C325_statement := by
  intro H
  obtain ⟨R, hR⟩ := exDS_ok (fun _ _ => .error .valueError) 0 exTarget
  have q1 : 0 < exDS.size "lon" := by simp [exDS]
  have q2 : 0 < exDS.size "lat" := by simp [exDS]
  have h1 := H _ _ _ _ _ _ _ exDS_names exDS_lat exDS_lon q1 q2 hR
  have h2 := C325_partial exDS_names exDS_lat exDS_lon q1 q2 hR
  have h3 := C323_values (K := bilinearK) (by unfold selectK; simp) exDS_names exDS_lat hR
  obtain ⟨-, s1, s2, -, -, -, -⟩ := h3
  have e : exDS.vars = [⟨"t", ["time", "lat", "lon"], false, fun ix => some (ix "time" + ix "lon")⟩,
           ⟨"n", ["lon", "lat"], true, fun ix => some (ix "lon")⟩, ⟨"p", ["time"], false, fun ix => some (ix "time")⟩] := rfl
  rw [e] at h1 h2
  generalize R.vars = L at h1 h2
  cases h1 with
  | cons _ h1 =>
    cases h1 with
    | cons h1 _ =>
      cases h2 with
      | cons _ h2 =>
        cases h2 with
        | cons h2 _ =>
          have hv : Spec.Horizontal "lon" "lat" ⟨"n", ["lon", "lat"], true, fun ix => some (ix "lon")⟩ := by simp [Spec.Horizontal]
          have hix : ∀ d ∈ ["lon", "lat"], (0 : ℕ) < R.size d := by
            intro d hd
            simp only [List.mem_cons, List.not_mem_nil, or_false] at hd
            rcases hd with rfl | rfl
            · rw [s1]; exact Nat.one_pos
            · rw [s2]; exact Nat.one_pos
          have hf : ∀ i j : ℕ, i < exDS.size "lon" → j < exDS.size "lat" →
              (fun ix : String → ℕ => some ((ix "lon" : ℕ) : ℝ)) (Spec.at2 "lon" "lat" (fun _ => 0) i j) = some ((fun i _ => (i : ℝ)) i j) := by
            intro i j _ _; simp [Spec.at2]
          obtain ⟨z, ez, hz⟩ := h1 hv (fun _ => 0) hix (fun i _ => (i : ℝ)) hf
          obtain ⟨z', q, ez', -, -, -, -⟩ := h2 hv rfl (fun _ => 0) hix (fun i _ => (i : ℝ)) hf
          rw [ez] at ez'
          have hq : z = q := by simpa using ez'
          obtain ⟨l, r, a, p, s, b, ⟨b1, b2, b3, b4, b5⟩, -, rfl⟩ := hz
          have n2 : exDS.size "lon" = 2 := by simp [exDS]
          rw [n2] at b1 b2 b5
          obtain rfl : r = 1 := by omega
          obtain rfl : l = 0 := by omega
          have a0 : exDS.axis "lon" 0 = 0 := by simp [exDS]
          have a1 : exDS.axis "lon" 1 = 1 := by simp [exDS]
          have t0 : exTarget.lon 0 = Spec.rad (1 / 2) := rfl
          simp only [a0, a1, t0, Nat.add_one_sub_one, show (2 : ℕ) - 1 = 1 from rfl] at b5
          rw [min_eq_right (le_of_lt (rad_lt.mpr (by norm_num))), max_eq_right (le_of_lt (rad_lt.mpr (by norm_num)))] at b5
          unfold Spec.rad at b5
          have ha : a = 1 / 2 := by
            have := Real.pi_pos
            have hp : (a - 1 / 2) * Real.pi = 0 := by linarith
            rcases mul_eq_zero.mp hp with g | g
            · linarith
            · exact absurd g this.ne'
          subst ha
          have h5 : (q : ℝ) * 2 = 1 := by rw [← hq]; push_cast; ring
          have h6 : q * 2 = 1 := by exact_mod_cast h5
          omega

/-- C327 fails: dimensions called `xc` and `yc` cannot be named. -/
theorem C327_false : ¬ C327_statement := by
  intro H
  have := H (fun _ _ => .error .valueError) 0 ⟨["xc", "yc"], fun _ => 2, fun _ i => i, [], []⟩ exTarget "xc" "yc" (by decide) (by simp) (by simp)
    (by simp) (by simp) (by intro i j h _; simpa using h) (by simp) (by simp)
  obtain ⟨R, h⟩ := this
  rw [C327_partial.1 _ _ _] at h
  · cases h
  · rintro ⟨lon, lat, hn⟩
    revert hn
    unfold Spec.Names
    simp

/-- Hypotheses of C329 met: a regridder made for three longitudes. -/
example : (⟨3, fun i => i, 2, fun j => j⟩ : Grid ℝ).nlon ≠ exDS.size "lon" := by simp [exDS]

end Skyborn.Regrid
