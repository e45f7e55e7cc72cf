/-
Theorems about `Spharmt.getuv`, `Spharmt.getgrad` and the `VectorWind` diagnostics that hold for every wind, whatever
the analyses return.
-/
import Verif.Sphere.Exact

namespace Skyborn.Sphere

open Skyborn Skyborn.Spectral

variable {I : Inst} {extra : List ℕ}

/-! ### Series -/

/-- The modes `m ≤ n ≤ T` without the mean. -/
def Spec.modes (T : ℕ) : Finset (ℕ × ℕ) := (Spec.triangle T).filter fun p => 1 ≤ p.2

theorem mem_triangle {T m n : ℕ} : (m, n) ∈ Spec.triangle T ↔ m ≤ n ∧ n ≤ T := by
  simp only [Spec.triangle, Finset.mem_filter, Finset.mem_product, Finset.mem_range]; omega

theorem mem_modes {T m n : ℕ} : (m, n) ∈ Spec.modes T ↔ m ≤ n ∧ n ≤ T ∧ 1 ≤ n := by
  simp only [Spec.modes, Finset.mem_filter, mem_triangle]; tauto

/-- With room to spare the vector synthesis uses every mode except the mean. -/
theorem usedV_eq {T : ℕ} (h1 : T + 2 ≤ I.nlat) (h2 : 2 * T < I.nlon) : usedV I T = Spec.modes T := by
  ext ⟨m, n⟩
  rw [mem_usedV, mem_modes]
  omega

theorem usedS_eq {T : ℕ} (h1 : T < I.nlat) (h2 : T ≤ I.nlon / 2) : usedS I T = Spec.triangle T := by
  ext ⟨m, n⟩
  rw [mem_usedS, mem_triangle]
  omega

theorem series_modes {T : ℕ} {x : ℕ → ℕ → ℂ} (h : x 0 0 = 0) (φ l : ℝ) :
    Spec.seriesOn (Spec.modes T) x φ l = Spec.series T x φ l := by
  unfold Spec.series Spec.seriesOn Spec.modes
  refine Finset.sum_filter_of_ne ?_
  rintro ⟨m, n⟩ hp hne
  rw [mem_triangle] at hp
  by_contra hc
  simp only at hc
  have hn : n = 0 := by omega
  have hm : m = 0 := by omega
  subst hn; subst hm
  exact hne (by simp [h])

/-! ### C151: `getuv` -/

/-- The wind `getuv` returns has the vorticity and the divergence it was given: at truncations that leave room for the
grid, with coefficients without mean. -/
theorem C151_getuv_partial (hG : Good I extra) {T : ℕ} {z d : NDArr ℂ} {x y : List ℕ → ℕ → ℕ → ℂ}
    (hz : Spec.IsSpectrum T extra z x) (hd : Spec.IsSpectrum T extra d y)
    (h1 : T + 2 ≤ I.nlat) (h2 : 2 * T < I.nlon) (hx : ∀ e, x e 0 0 = 0) (hy : ∀ e, y e 0 0 = 0) :
    ∃ u v, ∃ U V : List ℕ → ℝ → ℝ → ℝ, getuv I z d = .ok (u, v) ∧ Spec.Samples I extra u U ∧ Spec.Samples I extra v V ∧
      ∀ e φ l, Real.cos φ ≠ 0 →
        Spec.HasVorticity I.rsphere (U e) (V e) φ l (Spec.series T (x e) φ l) ∧
        Spec.HasDivergence I.rsphere (U e) (V e) φ l (Spec.series T (y e) φ l) := by
  obtain ⟨u, v, e1, hu, hv⟩ := getuv_ok hG hz hd (by omega)
  rw [usedV_eq h1 h2] at hu hv
  refine ⟨u, v, fun e => uOn I.rsphere (Spec.modes T) (x e) (y e), fun e => vOn I.rsphere (Spec.modes T) (x e) (y e),
    e1, hu, hv, fun e φ l hc => ?_⟩
  have hM : ∀ p ∈ Spec.modes T, 1 ≤ p.2 := by rintro ⟨m, n⟩ hp; exact (mem_modes.mp hp).2.2
  rw [← series_modes (hx e), ← series_modes (hy e)]
  exact ⟨on_vorticity _ hG.pos.ne' _ hM _ _ φ l hc, on_divergence _ hG.pos.ne' _ hM _ _ φ l hc⟩

/-- A single coefficient. -/
noncomputable def Spec.single (m n : ℕ) (c : ℂ) : ℕ → ℕ → ℂ := fun m' n' => if m' = m ∧ n' = n then c else 0

open Classical in
/-- The wavenumbers at a place of a spectrum. -/
noncomputable def Spec.wave (T k : ℕ) : ℕ × ℕ :=
  if h : ∃ mn : ℕ × ℕ, mn.1 ≤ mn.2 ∧ mn.2 ≤ T ∧ Spectral.Spec.index T mn.1 mn.2 = k then h.choose else (0, 0)

theorem wave_index {T m n : ℕ} (h1 : m ≤ n) (h2 : n ≤ T) : Spec.wave T (Spectral.Spec.index T m n) = (m, n) := by
  have hex : ∃ mn : ℕ × ℕ, mn.1 ≤ mn.2 ∧ mn.2 ≤ T ∧ Spectral.Spec.index T mn.1 mn.2 = Spectral.Spec.index T m n :=
    ⟨(m, n), h1, h2, rfl⟩
  unfold Spec.wave
  rw [dif_pos hex]
  obtain ⟨a, b, c⟩ := hex.choose_spec
  exact (C43_bijection T).2.1 (show hex.choose ∈ {p : ℕ × ℕ | p.1 ≤ p.2 ∧ p.2 ≤ T} from ⟨a, b⟩)
    (show (m, n) ∈ {p : ℕ × ℕ | p.1 ≤ p.2 ∧ p.2 ≤ T} from ⟨h1, h2⟩) c

/-- A spectrum with given coefficients. -/
noncomputable def Spec.spectrum (T : ℕ) (extra : List ℕ) (x : List ℕ → ℕ → ℕ → ℂ) : NDArr ℂ :=
  ⟨(T + 1) * (T + 2) / 2 :: extra, fun idx => x idx.tail (Spec.wave T (idx.headD 0)).1 (Spec.wave T (idx.headD 0)).2⟩

theorem isSpectrum_spectrum (T : ℕ) (extra : List ℕ) (x : List ℕ → ℕ → ℕ → ℂ) :
    Spec.IsSpectrum T extra (Spec.spectrum T extra x) x := by
  refine ⟨rfl, fun e _ m n h1 h2 => ?_⟩
  unfold Spec.spectrum
  simp only [List.headD_cons, List.tail_cons, wave_index h1 h2]

/-- A Legendre function does not vanish identically off the poles. -/
theorem pbar_ne {m n : ℕ} (h : m ≤ n) : ∃ φ, Real.cos φ ≠ 0 ∧ pbar m n (Real.pi / 2 - φ) ≠ 0 := by
  by_contra hc
  push Not at hc
  have hz : rod n (n + m) = 0 := by
    refine Polynomial.eq_zero_of_infinite_isRoot _ ((Set.Ioo_infinite (show (-1 : ℝ) < 1 by norm_num)).mono ?_)
    intro x hx
    have hs : Real.sin (Real.arcsin x) = x := Real.sin_arcsin hx.1.le hx.2.le
    have hcos : Real.cos (Real.arcsin x) ≠ 0 := by
      rw [cos_ne_iff, hs]
      exact ⟨hx.2.ne, hx.1.ne'⟩
    have e := hc _ hcos
    unfold pbar at e
    rw [Real.sin_pi_div_two_sub, Real.cos_pi_div_two_sub, hs] at e
    have := (mul_eq_zero.mp ((mul_eq_zero.mp e).resolve_left (norm_ne m n))).resolve_left (pow_ne_zero _ hcos)
    exact this
  exact rod_coeff h (by rw [hz, Polynomial.coeff_zero])

theorem series_single {T m n : ℕ} (h1 : m ≤ n) (h2 : n ≤ T) (c : ℂ) (φ l : ℝ) :
    Spec.series T (Spec.single m n c) φ l
      = (if m = 0 then 1 else 2) * pbar m n (Real.pi / 2 - φ) * (c * Complex.exp (m * l * Complex.I)).re := by
  unfold Spec.series Spec.seriesOn
  rw [Finset.sum_eq_single (m, n)]
  · simp only [Spec.single, and_self, if_true]
  · rintro ⟨m', n'⟩ _ hne
    have : Spec.single m n c m' n' = 0 := by
      unfold Spec.single
      rw [if_neg]
      rintro ⟨rfl, rfl⟩
      exact hne rfl
    simp only [this, zero_mul, Complex.zero_re, mul_zero]
  · intro hn
    exact absurd (mem_triangle.mpr ⟨h1, h2⟩) hn

theorem on_zero (a : ℝ) {M : Finset (ℕ × ℕ)} {z d : ℕ → ℕ → ℂ} (hz : ∀ p ∈ M, z p.1 p.2 = 0) (hd : ∀ p ∈ M, d p.1 p.2 = 0) (φ l : ℝ) :
    uOn a M z d φ l = 0 ∧ vOn a M z d φ l = 0 := by
  have := on_congr a M φ l (z' := fun _ _ => 0) (d' := fun _ _ => 0) hz hd
  rw [this.1, this.2]
  unfold uOn vOn uField vField eastField colatField
  simp

/-- At the largest truncation, `nlat - 1`, which every method uses when none is given, `getuv` leaves out coefficients:
for every grid there is a vorticity spectrum without mean, of a field that is not zero, for which it returns the
wind zero. -/
theorem C151_getuv_false (hG : Good I []) :
    ∃ z d : NDArr ℂ, ∃ x : ℕ → ℕ → ℂ, Spec.IsSpectrum (I.nlat - 1) [] z (fun _ => x) ∧
      Spec.IsSpectrum (I.nlat - 1) [] d (fun _ _ _ => 0) ∧ x 0 0 = 0 ∧
      (∃ φ l, Real.cos φ ≠ 0 ∧ Spec.series (I.nlat - 1) x φ l ≠ 0) ∧
      ∃ u v, getuv I z d = .ok (u, v) ∧ ∀ i < I.nlat, ∀ j < I.nlon, u.get [i, j] = 0 ∧ v.get [i, j] = 0 := by
  have hlat := hG.lat
  set T := I.nlat - 1 with hT
  set x := Spec.single 0 T 1 with hx
  have hz := isSpectrum_spectrum T [] fun _ => x
  have hd := isSpectrum_spectrum T [] fun _ _ _ => (0 : ℂ)
  obtain ⟨u, v, e1, hu, hv⟩ := getuv_ok hG hz hd (by omega)
  refine ⟨_, _, x, hz, hd, by rw [hx]; unfold Spec.single; rw [if_neg (by omega)], ?_, u, v, e1, fun i hi j hj => ?_⟩
  · obtain ⟨φ, h1, h2⟩ := pbar_ne (Nat.zero_le T)
    refine ⟨φ, 0, h1, ?_⟩
    rw [hx, series_single (Nat.zero_le T) (le_refl T)]
    simpa using h2
  · have key := fun φ l => on_zero I.rsphere (M := usedV I T) (z := x) (d := fun _ _ => 0) (by
      rintro ⟨m, n⟩ hp
      rw [mem_usedV] at hp
      rw [hx]; unfold Spec.single
      rw [if_neg]
      rintro ⟨rfl, rfl⟩
      omega) (fun _ _ => rfl) φ l
    have h1 := hu.2 [] (by simp [InB]) i j hi hj
    have h2 := hv.2 [] (by simp [InB]) i j hi hj
    rw [h1, h2]
    exact key _ _

/-- Non-vacuity: the 5 by 8 grid on the unit sphere at truncation 3. -/
example : ∃ I : Inst, Good I [] ∧ 3 + 2 ≤ I.nlat ∧ 2 * 3 < I.nlon :=
  ⟨⟨5, 8, 1, .regular, .stored, fun i => Real.pi / 2 - i * (Real.pi / 4), fun _ _ _ => 0, fun _ _ _ _ => 0, fun _ _ _ _ => 0,
    fun _ _ _ _ => 0⟩, ⟨by norm_num, by norm_num, by norm_num, by norm_num, by norm_num⟩, by norm_num, by norm_num⟩

/-! ### C152: `getgrad` -/

/-- `getgrad` returns the gradient of the field of its spectrum. -/
theorem C152_getgrad_partial (hG : Good I extra) {T : ℕ} {s : NDArr ℂ} {x : List ℕ → ℕ → ℕ → ℂ}
    (hs : Spec.IsSpectrum T extra s x) (h1 : T + 2 ≤ I.nlat) (h2 : 2 * T < I.nlon) :
    ∃ u v, ∃ U V : List ℕ → ℝ → ℝ → ℝ, getgrad I s = .ok (u, v) ∧ Spec.Samples I extra u U ∧ Spec.Samples I extra v V ∧
      ∀ e φ l, Real.cos φ ≠ 0 → Spec.HasGradient I.rsphere (Spec.series T (x e)) φ l (U e φ l) (V e φ l) := by
  obtain ⟨u, v, e1, hu, hv⟩ := getgrad_ok hG hs (by omega)
  rw [usedV_eq h1 h2] at hu hv
  refine ⟨u, v, _, _, e1, hu, hv, fun e φ l hc => ?_⟩
  have hM : ∀ p ∈ Spec.modes T, 1 ≤ p.2 := by rintro ⟨m, n⟩ hp; exact (mem_modes.mp hp).2.2
  have g := on_gradient I.rsphere hG.pos.ne' (Spec.modes T) hM (x e) φ l hc
  -- the mean adds a constant
  have e : Spec.series T (x e) = fun φ l => Spec.seriesOn (Spec.modes T) (x e) φ l + Spec.seriesOn {(0, 0)} (x e) 0 0 := by
    funext φ l
    unfold Spec.series Spec.seriesOn Spec.modes
    rw [← Finset.sum_filter_add_sum_filter_not (Spec.triangle T) (fun p => 1 ≤ p.2)]
    congr 1
    have : (Spec.triangle T).filter (fun p => ¬ 1 ≤ p.2) = {(0, 0)} := by
      ext ⟨m, n⟩
      simp only [Finset.mem_filter, mem_triangle, Finset.mem_singleton, Prod.mk.injEq]
      omega
    rw [this, Finset.sum_singleton, Finset.sum_singleton]
    have hp : ∀ θ, pbar 0 0 θ = norm 0 0 := by intro θ; unfold pbar rod; simp
    simp [hp]
  obtain ⟨dl, dφ, g1, g2, g3, g4⟩ := g
  rw [e]
  exact ⟨dl, dφ, g1.add_const _, g2.add_const _, g3, g4⟩

/-- At truncation `nlat - 1` it does not: for every grid there is a field of that truncation whose gradient is not
zero, at a point off the poles, and `getgrad` returns zero. -/
theorem C152_getgrad_false (hG : Good I []) :
    ∃ s : NDArr ℂ, ∃ x : ℕ → ℕ → ℂ, Spec.IsSpectrum (I.nlat - 1) [] s (fun _ => x) ∧
      (∃ φ l gx gy, Real.cos φ ≠ 0 ∧ Spec.HasGradient I.rsphere (Spec.series (I.nlat - 1) x) φ l gx gy ∧ (gx, gy) ≠ (0, 0)) ∧
      ∃ u v, getgrad I s = .ok (u, v) ∧ ∀ i < I.nlat, ∀ j < I.nlon, u.get [i, j] = 0 ∧ v.get [i, j] = 0 := by
  have hlat := hG.lat
  set T := I.nlat - 1 with hT
  set x := Spec.single 0 T 1 with hx
  have hz := isSpectrum_spectrum T [] fun _ => x
  obtain ⟨u, v, e1, hu, hv⟩ := getgrad_ok hG hz (by omega)
  refine ⟨_, x, hz, ?_, u, v, e1, fun i hi j hj => ?_⟩
  · by_contra hc
    push Not at hc
    -- the gradient of the field vanishes everywhere, hence so does its divergence, a multiple of the field
    obtain ⟨φ, h1, h2⟩ := pbar_ne (Nat.zero_le T)
    have hM : ∀ p ∈ Spec.modes T, 1 ≤ p.2 := by rintro ⟨m, n⟩ hp; exact (mem_modes.mp hp).2.2
    have h00 : x 0 0 = 0 := by rw [hx]; unfold Spec.single; rw [if_neg (by omega)]
    have eS : Spec.seriesOn (Spec.modes T) x = Spec.series T x := by funext φ l; exact series_modes h00 φ l
    set lx : ℕ → ℕ → ℂ := fun m n => ((-(n * (n + 1)) / I.rsphere ^ 2 : ℝ) : ℂ) * x m n with hlx
    have gz : ∀ φ l, Real.cos φ ≠ 0 → uOn I.rsphere (Spec.modes T) (fun _ _ => 0) lx φ l = 0 ∧
        vOn I.rsphere (Spec.modes T) (fun _ _ => 0) lx φ l = 0 := by
      intro φ l hφ
      have g := on_gradient I.rsphere hG.pos.ne' (Spec.modes T) hM x φ l hφ
      rw [eS] at g
      have := hc φ l _ _ hφ g
      exact ⟨(Prod.mk.inj this).1, (Prod.mk.inj this).2⟩
    obtain ⟨du, dv, d1, d2, d3⟩ := on_divergence I.rsphere hG.pos.ne' (Spec.modes T) hM (fun _ _ => 0) lx φ 0 h1
    have hnb : ∀ᶠ y in nhds φ, Real.cos y ≠ 0 := Real.continuous_cos.continuousAt.eventually_ne h1
    have z1 : du = 0 := d1.unique ((hasDerivAt_const (0 : ℝ) (0 : ℝ)).congr_of_eventuallyEq
      (Filter.Eventually.of_forall fun y => (gz φ y h1).1))
    have z2 : dv = 0 := d2.unique ((hasDerivAt_const φ (0 : ℝ)).congr_of_eventuallyEq
      (hnb.mono fun y hy => by simp only [(gz y 0 hy).2, zero_mul]))
    rw [z1, z2, add_zero, zero_div] at d3
    have hl0 : lx 0 0 = 0 := by rw [hlx]; simp [h00]
    rw [series_modes hl0] at d3
    have es : lx = Spec.single 0 T ((-(T * (T + 1)) / I.rsphere ^ 2 : ℝ) : ℂ) := by
      funext m n
      simp only [hlx, hx, Spec.single]
      split_ifs with h
      · rw [h.2, mul_one]
      · rw [mul_zero]
    rw [es, series_single (Nat.zero_le T) (le_refl T)] at d3
    have hTpos : (0 : ℝ) < T := by exact_mod_cast (by omega : 0 < T)
    have hr := hG.pos
    have : (-(T * (T + 1)) / I.rsphere ^ 2 : ℝ) ≠ 0 := by
      refine div_ne_zero (neg_ne_zero.mpr ?_) ?_ <;> positivity
    rw [if_pos rfl, one_mul, Nat.cast_zero, zero_mul, zero_mul, Complex.exp_zero, mul_one, Complex.ofReal_re] at d3
    rcases mul_eq_zero.mp d3 with h | h
    · exact h2 h
    · exact this h
  · have key := fun φ l => on_zero I.rsphere (M := usedV I T) (z := fun _ _ => 0)
      (d := fun m n => ((-(n * (n + 1)) / I.rsphere ^ 2 : ℝ) : ℂ) * x m n) (fun _ _ => rfl) (by
      rintro ⟨m, n⟩ hp
      rw [mem_usedV] at hp
      have : x m n = 0 := by
        rw [hx]; unfold Spec.single
        rw [if_neg]
        rintro ⟨rfl, rfl⟩
        omega
      simp only [this, mul_zero]) φ l
    have h1 := hu.2 [] (by simp [InB]) i j hi hj
    have h2 := hv.2 [] (by simp [InB]) i j hi hj
    rw [h1, h2]
    exact key _ _

end Skyborn.Sphere
