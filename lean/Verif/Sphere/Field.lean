/-
The expansions SPHEREPACK documents, as functions of latitude and longitude, and their analytic divergence,
vorticity and gradient.

Modelled: `/repo/src/skyborn/spharm/src/fortran/vhsec.f` lines 289-321 (vector expansion),
`/repo/src/skyborn/spharm/src/fortran/shsec.f` (scalar expansion), and the change to geographic components
`u = w`, `v = -v` (`spherical_harmonics.py` lines 770-771, 1269-1274).
-/
import Verif.Sphere.Legendre
import Mathlib.Analysis.Calculus.Deriv.Add
import Mathlib.Analysis.SpecialFunctions.Trigonometric.Basic

namespace Skyborn.Sphere

/-! ### Specification: differential operators on the sphere of radius `a`

`φ` is latitude, `l` longitude, both in radians; `u` is the eastward, `v` the northward component. -/

/-- `d` is the horizontal divergence of `(u, v)` at `(φ, l)`. -/
def Spec.HasDivergence (a : ℝ) (u v : ℝ → ℝ → ℝ) (φ l d : ℝ) : Prop :=
  ∃ du dv, HasDerivAt (fun x => u φ x) du l ∧ HasDerivAt (fun y => v y l * Real.cos y) dv φ ∧
    d = (du + dv) / (a * Real.cos φ)

/-- `z` is the vertical component of the curl of `(u, v)` at `(φ, l)`. -/
def Spec.HasVorticity (a : ℝ) (u v : ℝ → ℝ → ℝ) (φ l z : ℝ) : Prop :=
  ∃ dv du, HasDerivAt (fun x => v φ x) dv l ∧ HasDerivAt (fun y => u y l * Real.cos y) du φ ∧
    z = (dv - du) / (a * Real.cos φ)

/-- `(gx, gy)` is the gradient of `f` at `(φ, l)`. -/
def Spec.HasGradient (a : ℝ) (f : ℝ → ℝ → ℝ) (φ l gx gy : ℝ) : Prop :=
  ∃ dl dφ, HasDerivAt (fun x => f φ x) dl l ∧ HasDerivAt (fun y => f y l) dφ φ ∧
    gx = dl / (a * Real.cos φ) ∧ gy = dφ / a

/-! ### The documented expansions -/

/-- Zonal means enter with half weight (vhsec.f:293, 310; shsec.f). -/
noncomputable def half (m : ℕ) : ℝ := if m = 0 then 1 / 2 else 1

/-- The scalar expansion over the modes `(m, n) ∈ M` with coefficients `a(m+1,n+1)`, `b(m+1,n+1)`. -/
noncomputable def scalarField (M : Finset (ℕ × ℕ)) (a b : ℕ → ℕ → ℝ) (φ l : ℝ) : ℝ :=
  ∑ p ∈ M, half p.1 * (pbar p.1 p.2 (Real.pi / 2 - φ) *
    (a p.1 p.2 * Real.cos (p.1 * l) - b p.1 p.2 * Real.sin (p.1 * l)))

/-- Colatitudinal component of the vector expansion (vhsec.f:289-303). -/
noncomputable def colatField (M : Finset (ℕ × ℕ)) (br bi cr ci : ℕ → ℕ → ℝ) (θ l : ℝ) : ℝ :=
  ∑ p ∈ M, half p.1 *
    ((br p.1 p.2 * vbar p.1 p.2 θ - ci p.1 p.2 * wbar p.1 p.2 θ) * Real.cos (p.1 * l)
      - (bi p.1 p.2 * vbar p.1 p.2 θ + cr p.1 p.2 * wbar p.1 p.2 θ) * Real.sin (p.1 * l))

/-- East longitudinal component of the vector expansion (vhsec.f:305-318). -/
noncomputable def eastField (M : Finset (ℕ × ℕ)) (br bi cr ci : ℕ → ℕ → ℝ) (θ l : ℝ) : ℝ :=
  ∑ p ∈ M, half p.1 *
    (-(cr p.1 p.2 * vbar p.1 p.2 θ + bi p.1 p.2 * wbar p.1 p.2 θ) * Real.cos (p.1 * l)
      + (ci p.1 p.2 * vbar p.1 p.2 θ - br p.1 p.2 * wbar p.1 p.2 θ) * Real.sin (p.1 * l))

/-- The eastward wind at latitude `φ` (spherical_harmonics.py:1272: `u = w`). -/
noncomputable def uField (M : Finset (ℕ × ℕ)) (br bi cr ci : ℕ → ℕ → ℝ) (φ l : ℝ) : ℝ :=
  eastField M br bi cr ci (Real.pi / 2 - φ) l

/-- The northward wind at latitude `φ` (spherical_harmonics.py:1274: `v = -v`). -/
noncomputable def vField (M : Finset (ℕ × ℕ)) (br bi cr ci : ℕ → ℕ → ℝ) (φ l : ℝ) : ℝ :=
  - colatField M br bi cr ci (Real.pi / 2 - φ) l

/-! ### One mode -/

section mode
variable (m n : ℕ) (φ l : ℝ)

/-- `sqrt(n(n+1))`. -/
noncomputable def rootL (n : ℕ) : ℝ := Real.sqrt (n * (n + 1))

theorem rootL_pos {n : ℕ} (h : 1 ≤ n) : 0 < rootL n := by
  unfold rootL
  have : (1 : ℝ) ≤ n := by exact_mod_cast h
  positivity

theorem rootL_sq (n : ℕ) : rootL n ^ 2 = n * (n + 1) := by
  unfold rootL; exact Real.sq_sqrt (by positivity)

theorem hasDerivAt_colat (φ : ℝ) : HasDerivAt (fun y : ℝ => Real.pi / 2 - y) (-1) φ :=
  (hasDerivAt_id φ).const_sub (Real.pi / 2)

theorem hasDerivAt_pbar_lat : HasDerivAt (fun y => pbar m n (Real.pi / 2 - y)) (-dpbar m n (Real.pi / 2 - φ)) φ := by
  have := (hasDerivAt_pbar m n (Real.pi / 2 - φ)).comp φ (hasDerivAt_colat φ)
  refine this.congr_deriv ?_
  ring

theorem hasDerivAt_dpbar_lat :
    HasDerivAt (fun y => dpbar m n (Real.pi / 2 - y)) (-ddpbar m n (Real.pi / 2 - φ)) φ := by
  have := (hasDerivAt_dpbar m n (Real.pi / 2 - φ)).comp φ (hasDerivAt_colat φ)
  refine this.congr_deriv ?_
  ring

theorem hasDerivAt_cosm : HasDerivAt (fun x : ℝ => Real.cos (m * x)) (-(m * Real.sin (m * l))) l := by
  have := (Real.hasDerivAt_cos (m * l)).comp l ((hasDerivAt_id l).const_mul (m : ℝ))
  refine this.congr_deriv ?_
  ring

theorem hasDerivAt_sinm : HasDerivAt (fun x : ℝ => Real.sin (m * x)) (m * Real.cos (m * l)) l := by
  have := (Real.hasDerivAt_sin (m * l)).comp l ((hasDerivAt_id l).const_mul (m : ℝ))
  refine this.congr_deriv ?_
  ring

theorem hasDerivAt_wave (A B : ℝ) :
    HasDerivAt (fun x : ℝ => A * Real.cos (m * x) + B * Real.sin (m * x))
      (m * (B * Real.cos (m * l) - A * Real.sin (m * l))) l := by
  have := ((hasDerivAt_cosm m l).const_mul A).add ((hasDerivAt_sinm m l).const_mul B)
  refine this.congr_deriv ?_
  ring

/-- `vbar cos φ` as a function of latitude. -/
theorem hasDerivAt_vcos (h : Real.cos φ ≠ 0) (hn : 1 ≤ n) :
    HasDerivAt (fun y => vbar m n (Real.pi / 2 - y) * Real.cos y)
      (-(m ^ 2 / Real.cos φ * pbar m n (Real.pi / 2 - φ)
        - n * (n + 1) * Real.cos φ * pbar m n (Real.pi / 2 - φ)) / rootL n) φ := by
  have h1 := ((hasDerivAt_dpbar_lat m n φ).mul (Real.hasDerivAt_cos φ)).div_const (rootL n)
  have ode := pbar_ode m n (Real.pi / 2 - φ) (by rw [Real.sin_pi_div_two_sub]; exact h)
  rw [Real.sin_pi_div_two_sub, Real.cos_pi_div_two_sub] at ode
  have e : (fun y => vbar m n (Real.pi / 2 - y) * Real.cos y)
      = fun y => (fun y => dpbar m n (Real.pi / 2 - y)) y * Real.cos y / rootL n := by
    funext y
    show deriv (pbar m n) (Real.pi / 2 - y) / rootL n * Real.cos y = _
    rw [deriv_pbar]; ring
  rw [e]
  refine h1.congr_deriv ?_
  congr 1
  linear_combination -ode

/-- `wbar cos φ` as a function of latitude, off the poles. -/
theorem hasDerivAt_wcos (h : Real.cos φ ≠ 0) :
    HasDerivAt (fun y => wbar m n (Real.pi / 2 - y) * Real.cos y)
      (-(m * dpbar m n (Real.pi / 2 - φ)) / rootL n) φ := by
  have h1 := ((hasDerivAt_pbar_lat m n φ).const_mul (m : ℝ)).div_const (rootL n)
  refine (h1.congr_deriv (by ring)).congr_of_eventuallyEq ?_
  have : ∀ᶠ y in nhds φ, Real.cos y ≠ 0 := Real.continuous_cos.continuousAt.eventually_ne h
  filter_upwards [this] with y hy
  have hy' : Real.sin (Real.pi / 2 - y) ≠ 0 := by rw [Real.sin_pi_div_two_sub]; exact hy
  rw [wbar_off _ _ _ hy', Real.sin_pi_div_two_sub]
  unfold rootL
  field_simp

end mode

/-! ### The theorems -/

variable (M : Finset (ℕ × ℕ)) (br bi cr ci : ℕ → ℕ → ℝ) (a φ l : ℝ)

theorem vbar_eq (m n : ℕ) (θ : ℝ) : vbar m n θ = dpbar m n θ / rootL n := by
  unfold vbar rootL; rw [deriv_pbar]

theorem wbar_eq (h : Real.cos φ ≠ 0) (m n : ℕ) : wbar m n (Real.pi / 2 - φ) = m / Real.cos φ * pbar m n (Real.pi / 2 - φ) / rootL n := by
  rw [wbar_off _ _ _ (by rw [Real.sin_pi_div_two_sub]; exact h), Real.sin_pi_div_two_sub]; rfl

/-- Along a parallel. -/
theorem uField_lon : HasDerivAt (fun x => uField M br bi cr ci φ x)
    (∑ p ∈ M, half p.1 * (p.1 *
      ((ci p.1 p.2 * vbar p.1 p.2 (Real.pi / 2 - φ) - br p.1 p.2 * wbar p.1 p.2 (Real.pi / 2 - φ)) * Real.cos (p.1 * l)
      + (cr p.1 p.2 * vbar p.1 p.2 (Real.pi / 2 - φ) + bi p.1 p.2 * wbar p.1 p.2 (Real.pi / 2 - φ)) * Real.sin (p.1 * l)))) l := by
  unfold uField eastField
  refine HasDerivAt.fun_sum fun p _ => ?_
  refine (HasDerivAt.const_mul (half p.1) (hasDerivAt_wave p.1 l _ _)).congr_deriv ?_
  ring

theorem vField_lon : HasDerivAt (fun x => vField M br bi cr ci φ x)
    (∑ p ∈ M, half p.1 * (p.1 *
      ((bi p.1 p.2 * vbar p.1 p.2 (Real.pi / 2 - φ) + cr p.1 p.2 * wbar p.1 p.2 (Real.pi / 2 - φ)) * Real.cos (p.1 * l)
      + (br p.1 p.2 * vbar p.1 p.2 (Real.pi / 2 - φ) - ci p.1 p.2 * wbar p.1 p.2 (Real.pi / 2 - φ)) * Real.sin (p.1 * l)))) l := by
  unfold vField colatField
  simp only [← Finset.sum_neg_distrib]
  refine HasDerivAt.fun_sum fun p _ => ?_
  have := (HasDerivAt.const_mul (half p.1) (hasDerivAt_wave p.1 l
    (-(br p.1 p.2 * vbar p.1 p.2 (Real.pi / 2 - φ) - ci p.1 p.2 * wbar p.1 p.2 (Real.pi / 2 - φ)))
    (bi p.1 p.2 * vbar p.1 p.2 (Real.pi / 2 - φ) + cr p.1 p.2 * wbar p.1 p.2 (Real.pi / 2 - φ))))
  refine (this.congr_deriv ?_).congr_of_eventuallyEq (Filter.Eventually.of_forall fun x => ?_)
  · ring
  · dsimp only; ring

/-- Along a meridian, weighted with the cosine of latitude. -/
theorem vField_lat (hM : ∀ p ∈ M, 1 ≤ p.2) (h : Real.cos φ ≠ 0) :
    HasDerivAt (fun y => vField M br bi cr ci y l * Real.cos y)
    (∑ p ∈ M, half p.1 * (
      ((br p.1 p.2 * (p.1 ^ 2 / Real.cos φ - p.2 * (p.2 + 1) * Real.cos φ) * pbar p.1 p.2 (Real.pi / 2 - φ)
        - ci p.1 p.2 * (p.1 * dpbar p.1 p.2 (Real.pi / 2 - φ))) * Real.cos (p.1 * l)
      - (bi p.1 p.2 * (p.1 ^ 2 / Real.cos φ - p.2 * (p.2 + 1) * Real.cos φ) * pbar p.1 p.2 (Real.pi / 2 - φ)
        + cr p.1 p.2 * (p.1 * dpbar p.1 p.2 (Real.pi / 2 - φ))) * Real.sin (p.1 * l)) / rootL p.2)) φ := by
  unfold vField colatField
  simp only [← Finset.sum_neg_distrib, Finset.sum_mul]
  refine HasDerivAt.fun_sum fun p hp => ?_
  have h1 := hasDerivAt_vcos p.1 p.2 φ h (hM p hp)
  have h2 := hasDerivAt_wcos p.1 p.2 φ h
  have h3 := (h1.const_mul (half p.1 * (bi p.1 p.2 * Real.sin (p.1 * l) - br p.1 p.2 * Real.cos (p.1 * l)))).add
    (h2.const_mul (half p.1 * (ci p.1 p.2 * Real.cos (p.1 * l) + cr p.1 p.2 * Real.sin (p.1 * l))))
  refine (h3.congr_deriv ?_).congr_of_eventuallyEq (Filter.Eventually.of_forall fun x => ?_)
  · ring
  · simp only [Pi.add_apply]; ring

theorem uField_lat (hM : ∀ p ∈ M, 1 ≤ p.2) (h : Real.cos φ ≠ 0) :
    HasDerivAt (fun y => uField M br bi cr ci y l * Real.cos y)
    (∑ p ∈ M, half p.1 * (
      ((cr p.1 p.2 * (p.1 ^ 2 / Real.cos φ - p.2 * (p.2 + 1) * Real.cos φ) * pbar p.1 p.2 (Real.pi / 2 - φ)
        + bi p.1 p.2 * (p.1 * dpbar p.1 p.2 (Real.pi / 2 - φ))) * Real.cos (p.1 * l)
      - (ci p.1 p.2 * (p.1 ^ 2 / Real.cos φ - p.2 * (p.2 + 1) * Real.cos φ) * pbar p.1 p.2 (Real.pi / 2 - φ)
        - br p.1 p.2 * (p.1 * dpbar p.1 p.2 (Real.pi / 2 - φ))) * Real.sin (p.1 * l)) / rootL p.2)) φ := by
  unfold uField eastField
  simp only [Finset.sum_mul]
  refine HasDerivAt.fun_sum fun p hp => ?_
  have h1 := hasDerivAt_vcos p.1 p.2 φ h (hM p hp)
  have h2 := hasDerivAt_wcos p.1 p.2 φ h
  have h3 := (h1.const_mul (half p.1 * (ci p.1 p.2 * Real.sin (p.1 * l) - cr p.1 p.2 * Real.cos (p.1 * l)))).add
    (h2.const_mul (half p.1 * (-bi p.1 p.2 * Real.cos (p.1 * l) - br p.1 p.2 * Real.sin (p.1 * l))))
  refine (h3.congr_deriv ?_).congr_of_eventuallyEq (Filter.Eventually.of_forall fun x => ?_)
  · ring
  · simp only [Pi.add_apply]; ring

/-- The divergence of the vector expansion is the scalar expansion with coefficients
`-sqrt(n(n+1))/a (br, bi)`. -/
theorem field_divergence (hM : ∀ p ∈ M, 1 ≤ p.2) (h : Real.cos φ ≠ 0) (ha : a ≠ 0) :
    Spec.HasDivergence a (uField M br bi cr ci) (vField M br bi cr ci) φ l
      (scalarField M (fun m n => -(rootL n / a) * br m n) (fun m n => -(rootL n / a) * bi m n) φ l) := by
  refine ⟨_, _, uField_lon M br bi cr ci φ l, vField_lat M br bi cr ci φ l hM h, ?_⟩
  rw [eq_div_iff (mul_ne_zero ha h), ← Finset.sum_add_distrib, scalarField, Finset.sum_mul]
  refine Finset.sum_congr rfl fun p hp => ?_
  rw [vbar_eq, wbar_eq φ h]
  have hr := (rootL_pos (hM p hp)).ne'
  have hs := rootL_sq p.2
  field_simp
  rw [hs]
  ring

/-- The vorticity of the vector expansion is the scalar expansion with coefficients
`sqrt(n(n+1))/a (cr, ci)`. -/
theorem field_vorticity (hM : ∀ p ∈ M, 1 ≤ p.2) (h : Real.cos φ ≠ 0) (ha : a ≠ 0) :
    Spec.HasVorticity a (uField M br bi cr ci) (vField M br bi cr ci) φ l
      (scalarField M (fun m n => rootL n / a * cr m n) (fun m n => rootL n / a * ci m n) φ l) := by
  refine ⟨_, _, vField_lon M br bi cr ci φ l, uField_lat M br bi cr ci φ l hM h, ?_⟩
  rw [eq_div_iff (mul_ne_zero ha h), ← Finset.sum_sub_distrib, scalarField, Finset.sum_mul]
  refine Finset.sum_congr rfl fun p hp => ?_
  rw [vbar_eq, wbar_eq φ h]
  have hr := (rootL_pos (hM p hp)).ne'
  have hs := rootL_sq p.2
  field_simp
  rw [hs]
  ring

/-- The vector expansion of `br = sqrt(n(n+1))/a A`, `bi = sqrt(n(n+1))/a B`, `cr = ci = 0` is the gradient of the
scalar expansion of `A`, `B`. -/
theorem field_gradient (A B : ℕ → ℕ → ℝ) (hM : ∀ p ∈ M, 1 ≤ p.2) (h : Real.cos φ ≠ 0) (ha : a ≠ 0) :
    Spec.HasGradient a (scalarField M A B) φ l
      (uField M (fun m n => rootL n / a * A m n) (fun m n => rootL n / a * B m n) (fun _ _ => 0) (fun _ _ => 0) φ l)
      (vField M (fun m n => rootL n / a * A m n) (fun m n => rootL n / a * B m n) (fun _ _ => 0) (fun _ _ => 0) φ l) := by
  refine ⟨∑ p ∈ M, half p.1 * (pbar p.1 p.2 (Real.pi / 2 - φ) * (p.1 * (-B p.1 p.2 * Real.cos (p.1 * l)
      - A p.1 p.2 * Real.sin (p.1 * l)))),
    ∑ p ∈ M, half p.1 * (-dpbar p.1 p.2 (Real.pi / 2 - φ) *
      (A p.1 p.2 * Real.cos (p.1 * l) - B p.1 p.2 * Real.sin (p.1 * l))), ?_, ?_, ?_, ?_⟩
  · refine HasDerivAt.fun_sum fun p _ => ?_
    have := ((hasDerivAt_wave p.1 l (A p.1 p.2) (-B p.1 p.2)).const_mul (pbar p.1 p.2 (Real.pi / 2 - φ))).const_mul (half p.1)
    refine this.congr_of_eventuallyEq (Filter.Eventually.of_forall fun x => ?_)
    dsimp only; ring
  · refine HasDerivAt.fun_sum fun p _ => ?_
    exact ((hasDerivAt_pbar_lat p.1 p.2 φ).mul_const _).const_mul (half p.1)
  · rw [eq_div_iff (mul_ne_zero ha h), uField, eastField, Finset.sum_mul]
    refine Finset.sum_congr rfl fun p hp => ?_
    rw [vbar_eq, wbar_eq φ h]
    have hr := (rootL_pos (hM p hp)).ne'
    field_simp
    ring
  · rw [eq_div_iff ha, vField, colatField, ← Finset.sum_neg_distrib, Finset.sum_mul]
    refine Finset.sum_congr rfl fun p hp => ?_
    rw [vbar_eq, wbar_eq φ h]
    have hr := (rootL_pos (hM p hp)).ne'
    field_simp
    ring

end Skyborn.Sphere
