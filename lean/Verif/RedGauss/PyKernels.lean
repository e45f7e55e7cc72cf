/-
`ReducedGaussianSpharmt`: the calls of the compiled kernels, from any state the methods can be in.
-/
import Verif.RedGauss.PyShapes

namespace Skyborn.RedGauss

open Skyborn Sphere

variable {lib : Lib} {c : Cfg} {T nt : ℕ} {E : Env}

theorem withFft_tri {α : Type} {n : ℕ} {f : Option FftCache → Except ℕ (α × FftCache)} {φ : α → Prop} {ε : Fail → Prop}
    (h : ∀ e, CacheGood e → (∃ a e', f e = .ok (a, e') ∧ CacheGood (some e') ∧ φ a) ∨ ∃ k, f e = .error k ∧ ε (.spherepack k)) :
    Tri (Good lib n) (withFft f) φ ε := by
  intro s hs
  unfold withFft
  rw [exec_bind_ok (exec_get s)]
  rcases h s.1.fft hs.1.fft with ⟨a, e', h1, h2, h3⟩ | ⟨k, h1, h2⟩
  · rw [h1, exec_bind_ok (exec_raise_ok _ s)]
    exact ⟨⟨⟨h2, hs.1.b, hs.1.d, hs.1.bT, hs.1.dT, hs.1.geom⟩, hs.2⟩, h3⟩
  · rw [h1, exec_bind_error (exec_raise_error _ s)]
    exact ⟨hs, h2⟩

theorem ntrunc_some (hT : T ≤ c.nlat - 1) (h3 : 3 ≤ c.nlat) : validateNtrunc c (some (T : ℤ)) = .ok T := by
  unfold validateNtrunc
  dsimp only
  rw [if_neg (by omega)]
  rfl

theorem ntrunc_neg : validateNtrunc c (some (-1)) = .error .validation := by
  unfold validateNtrunc
  dsimp only
  rw [if_pos (by omega)]

/-! ### What holds of the arguments of every call -/

theorem valid_pl (hc : c.Valid lib) : ∀ j, 1 ≤ j → j ≤ c.nlat → 1 ≤ c.row j := fun _ h1 h2 => by have := row_ge hc h1 h2; omega

theorem valid_sin (hl : lib.Sound) (hc : c.Valid lib) : ∀ j, 1 ≤ j → j ≤ c.nlat → 0 < c.sinTheta j := fun j h1 h2 => by
  rw [hc.hs]
  have := (hl.rows _ hc.h3).inside j h1 h2
  exact Real.sin_pos_of_pos_of_lt_pi this.1 this.2

theorem valid_ss (hl : lib.Sound) (hc : c.Valid lib) : ∀ j, 1 ≤ j → j ≤ c.nlat → c.sinTheta (c.nlat - j + 1) = c.sinTheta j := fun j h1 h2 => by
  rw [hc.hs, hc.hs, (hl.rows _ hc.h3).mirror j h1 h2, Real.sin_pi_sub]

theorem valid_hw (hl : lib.Sound) (hc : c.Valid lib) : ∀ j, 1 ≤ j → j ≤ c.nlat → c.weights (c.nlat - j + 1) = c.weights j := fun j h1 h2 => by
  rw [hc.hw, (hl.rows _ hc.h3).weight j h1 h2]

theorem half_le {n j : ℕ} (h : j ≤ n / 2) : j ≤ n := by omega

theorem vecArgs (hl : lib.Sound) (hc : c.Valid lib) (hT : T ≤ c.nlat - 1) {b d : Table} (hb : Spec.IsBasis c.nlat T (lib.theta c.nlat) b)
    (hd : Spec.IsDeriv c.nlat T (lib.theta c.nlat) d) : VecArgs c.row c.weights b d c.sinTheta c.nlat T :=
  ⟨hc.h3, hT, valid_pl hc, valid_sin hl hc, valid_ss hl hc, valid_hw hl hc,
    fun _ h1 h2 => basis_mirror (hl.rows _ hc.h3) hb h1 (half_le h2), fun _ h1 h2 => deriv_mirror (hl.rows _ hc.h3) hd h1 (half_le h2)⟩

/-! ### Kernels -/

/-- Values of a slice, by row and point. -/
def rowsOf (c : Cfg) (x : ℕ → ℕ → ℝ) (k : ℕ) : ℕ → ℕ → ℝ := fun j i => x (Spec.rowStart c.row j + i) k

/-- Coefficients of a slice, by order and degree. -/
def coefsOf (T : ℕ) (s : ℕ → ℕ → ℂ) (k : ℕ) : ℕ → ℕ → ℂ := fun m n => s (Spec.pos T m n) k

theorem analyzeScalar_tri (hE : E.ok) (hl : lib.Sound) (hc : c.Valid lib) (hT : T ≤ c.nlat - 1) (x : ℕ → ℕ → ℝ) :
    Tri (Good lib c.nlat) (analyzeScalar E lib c nt x (some (T : ℤ)))
      (fun out => 1 ≤ nt ∧ ∀ k, 1 ≤ k → k ≤ nt → ∀ m n, m ≤ n → n ≤ T →
        coefsOf T out k m n = Spec.analysis c.nlat c.row (lib.theta c.nlat) (lib.weight c.nlat) (rowsOf c x k) m n)
      (fun e => nt = 0 ∧ e = .spherepack 3) := by
  refine (Tri.lift_ok (φ := fun a => T = a) (ntrunc_some hT hc.h3) rfl).bind ?_
  rintro _ rfl
  refine ((basisM_tri hl hc.h3 hT).mono (fun _ h => h) fun _ h => h.elim).bind fun b hb => ?_
  refine withFft_tri fun e he => ?_
  by_cases hnt : 1 ≤ nt
  · obtain ⟨out, e', h1, h2, h3⟩ := grdtospec_eq hE he x c.weights b hc.h3 hT hnt (valid_pl hc) (rowStart_total c)
    refine .inl ⟨out, e', h1, h2, hnt, fun k k1 k2 m n hmn hn => ?_⟩
    refine (h3 k k1 k2 m n hmn hn).trans ?_
    unfold Spec.analysis
    refine Finset.sum_congr rfl fun j hj => ?_
    simp only [Finset.mem_filter, Finset.mem_Icc] at hj
    rw [hb j m n hj.1.1 hj.1.2 hmn hn, hc.hw]
    rfl
  · refine .inr ⟨3, ?_, by omega, rfl⟩
    unfold grdtospec
    rw [if_neg (by have := hc.h3; omega), if_neg (by omega), if_pos (by omega)]

theorem synthesizeScalar_tri (hE : E.ok) (hl : lib.Sound) (hc : c.Valid lib) (hT : T ≤ c.nlat - 1) (s : ℕ → ℕ → ℂ) :
    Tri (Good lib c.nlat) (synthesizeScalar E lib c (nmDim T) nt s (some (T : ℤ)))
      (fun out => 1 ≤ nt ∧ ∀ k, 1 ≤ k → k ≤ nt → ∀ j i, 1 ≤ j → j ≤ c.nlat → 1 ≤ i → i ≤ c.row j →
        rowsOf c out k j i = Spec.rowField (c.row j) T (Spec.order T (coefsOf T s k) (lib.theta c.nlat j)) (Spec.lon (c.row j) i))
      (fun e => nt = 0 ∧ e = .spherepack 4) := by
  refine (Tri.lift_ok (φ := fun a => T = a) (ntrunc_some hT hc.h3) rfl).bind ?_
  rintro _ rfl
  refine ((basisTM_tri hl hc.h3 hT).mono (fun _ h => h) fun _ h => h.elim).bind fun b hb => ?_
  refine withFft_tri fun e he => ?_
  by_cases hnt : 1 ≤ nt
  · obtain ⟨out, e', h1, h2, h3⟩ := spectogrd_eq hE he s (basis := fun j nm => b nm j) hc.h3 hT hnt (valid_pl hc) (rowStart_total c)
      fun j a1 a2 => basis_mirror (hl.rows _ hc.h3) hb a1 (half_le a2)
    refine .inl ⟨out, e', h1, h2, hnt, fun k k1 k2 j i j1 j2 i1 i2 => ?_⟩
    refine (h3 j i k j1 j2 i1 i2 k1 k2).trans ?_
    exact synth_row (valid_pl hc j j1 j2) i1 fun m n hmn hn => hb j m n j1 j2 hmn hn
  · refine .inr ⟨4, ?_, by omega, rfl⟩
    unfold spectogrd
    rw [if_neg (by have := hc.h3; omega), if_neg (by omega), if_neg (by simp [nmDim]), if_pos (by omega)]

/-- What the synthesis of one field gives on slice `k`. -/
def IsSynth (lib : Lib) (c : Cfg) (T nt : ℕ) (s : ℕ → ℕ → ℂ) (out : ℕ → ℕ → ℝ) : Prop :=
  ∀ k, 1 ≤ k → k ≤ nt → ∀ j i, 1 ≤ j → j ≤ c.nlat → 1 ≤ i → i ≤ c.row j →
    rowsOf c out k j i = Spec.rowField (c.row j) T (Spec.order T (coefsOf T s k) (lib.theta c.nlat j)) (Spec.lon (c.row j) i)

theorem synthesizePair_tri {E' : Env} (hE : E.ok) (hE' : E'.ok) (hl : lib.Sound) (hc : c.Valid lib) (hT : T ≤ c.nlat - 1) (s t : ℕ → ℕ → ℂ) :
    Tri (Good lib c.nlat) (synthesizePair E E' lib c (nmDim T) nt s t (some (T : ℤ)))
      (fun out => 1 ≤ nt ∧ IsSynth lib c T nt s out.1 ∧ IsSynth lib c T nt t out.2) (fun e => nt = 0 ∧ e = .spherepack 4) := by
  refine (Tri.lift_ok (φ := fun a => T = a) (ntrunc_some hT hc.h3) rfl).bind ?_
  rintro _ rfl
  split_ifs with h1
  · refine (synthesizeScalar_tri hE hl hc hT s).bind fun a ha => ?_
    refine (synthesizeScalar_tri hE' hl hc hT t).bind fun b hb => ?_
    exact Tri.pure ⟨ha.1, ha.2, hb.2⟩
  · refine ((basisTM_tri hl hc.h3 hT).mono (fun _ h => h) fun _ h => h.elim).bind fun b hb => ?_
    refine (withFft_tri (φ := fun g => 1 ≤ nt ∧ IsSynth lib c T nt s (g 1) ∧ IsSynth lib c T nt t (g 2)) fun e he => ?_).bind fun g hg => Tri.pure hg
    by_cases hnt : 1 ≤ nt
    · obtain ⟨out, e', h1, h2, h3⟩ := spectogrdPair_eq hE he s t (basis := fun j nm => b nm j) hc.h3 hT hnt (valid_pl hc) (rowStart_total c)
        fun j a1 a2 => basis_mirror (hl.rows _ hc.h3) hb a1 (half_le a2)
      refine .inl ⟨out, e', h1, h2, hnt, fun k k1 k2 j i j1 j2 i1 i2 => ?_, fun k k1 k2 j i j1 j2 i1 i2 => ?_⟩
      · refine (h3 j i k 1 j1 j2 i1 i2 k1 k2 (by omega) (by omega)).trans ?_
        exact synth_row (valid_pl hc j j1 j2) i1 fun m n hmn hn => hb j m n j1 j2 hmn hn
      · refine (h3 j i k 2 j1 j2 i1 i2 k1 k2 (by omega) (by omega)).trans ?_
        exact synth_row (valid_pl hc j j1 j2) i1 fun m n hmn hn => hb j m n j1 j2 hmn hn
    · refine .inr ⟨4, ?_, by omega, rfl⟩
      unfold spectogrdPair
      rw [if_neg (by have := hc.h3; omega), if_neg (by omega), if_neg (by simp [nmDim]), if_pos (by omega)]

/-- What gradient synthesis gives: eastward array, northward array. -/
def IsGrad (lib : Lib) (c : Cfg) (T nt : ℕ) (s : ℕ → ℕ → ℂ) (u v : ℕ → ℕ → ℝ) : Prop :=
  ∀ k, 1 ≤ k → k ≤ nt → ∀ j i, 1 ≤ j → j ≤ c.nlat → 1 ≤ i → i ≤ c.row j →
    rowsOf c u k j i = Spec.east (c.row j) T c.rsphere (coefsOf T s k) (lib.theta c.nlat j) (Spec.lon (c.row j) i) ∧
    rowsOf c v k j i = Spec.north (c.row j) T c.rsphere (coefsOf T s k) (lib.theta c.nlat j) (Spec.lon (c.row j) i)

theorem synthesizeGrad_tri (hE : E.ok) (hl : lib.Sound) (hc : c.Valid lib) (hT : T ≤ c.nlat - 1) (s : ℕ → ℕ → ℂ) :
    Tri (Good lib c.nlat) (synthesizeGrad E lib c (nmDim T) nt s (some (T : ℤ)))
      (fun g => 1 ≤ nt ∧ IsGrad lib c T nt s (g 1) (g 2)) (fun e => nt = 0 ∧ e = .spherepack 4) := by
  refine (Tri.lift_ok (φ := fun a => T = a) (ntrunc_some hT hc.h3) rfl).bind ?_
  rintro _ rfl
  refine ((basisTM_tri hl hc.h3 hT).mono (fun _ h => h) fun _ h => h.elim).bind fun b hb => ?_
  refine ((dbasisTM_tri hE hl hc.h3 hT).mono (fun _ h => h) fun _ h => h.elim).bind fun d hd => ?_
  refine withFft_tri fun e he => ?_
  by_cases hnt : 1 ≤ nt
  · obtain ⟨out, e', h1, h2, h3⟩ := getgrad_eq hE he s (basis := fun j nm => b nm j) (dbasis := fun j nm => d nm j) (sinTheta := c.sinTheta) hc.h3 hT hnt hc.hr
      (valid_pl hc) (valid_sin hl hc) (rowStart_total c) (valid_ss hl hc)
      (fun j a1 a2 => basis_mirror (hl.rows _ hc.h3) hb a1 (half_le a2)) (fun j a1 a2 => deriv_mirror (hl.rows _ hc.h3) hd a1 (half_le a2))
    refine .inl ⟨out, e', h1, h2, hnt, fun k k1 k2 j i j1 j2 i1 i2 => ⟨?_, ?_⟩⟩
    · refine (h3 j i k 1 j1 j2 i1 i2 k1 k2 (by omega) (by omega)).trans ?_
      rw [hc.hs]
      exact gradU_row (valid_pl hc j j1 j2) i1 fun m n hmn hn => hb j m n j1 j2 hmn hn
    · refine (h3 j i k 2 j1 j2 i1 i2 k1 k2 (by omega) (by omega)).trans ?_
      exact gradV_row (valid_pl hc j j1 j2) i1 fun m n hmn hn => deriv_val hd j1 j2 hmn hn
  · refine .inr ⟨4, ?_, by omega, rfl⟩
    unfold getgrad
    rw [if_neg (by have := hc.h3; omega), if_neg (by omega), if_neg (by simp [nmDim]), if_pos (by omega)]

theorem synthesizeGradPair_tri (hE : E.ok) (hl : lib.Sound) (hc : c.Valid lib) (hT : T ≤ c.nlat - 1) (s t : ℕ → ℕ → ℂ) :
    Tri (Good lib c.nlat) (synthesizeGradPair E lib c (nmDim T) nt s t (some (T : ℤ)))
      (fun g => 1 ≤ nt ∧ IsGrad lib c T nt s (g 1) (g 2) ∧ IsGrad lib c T nt t (g 3) (g 4)) (fun e => nt = 0 ∧ e = .spherepack 4) := by
  refine (Tri.lift_ok (φ := fun a => T = a) (ntrunc_some hT hc.h3) rfl).bind ?_
  rintro _ rfl
  refine ((basisTM_tri hl hc.h3 hT).mono (fun _ h => h) fun _ h => h.elim).bind fun b hb => ?_
  refine ((dbasisTM_tri hE hl hc.h3 hT).mono (fun _ h => h) fun _ h => h.elim).bind fun d hd => ?_
  refine withFft_tri fun e he => ?_
  by_cases hnt : 1 ≤ nt
  · obtain ⟨out, e', h1, h2, h3⟩ := getgradPair_eq hE he s t (basis := fun j nm => b nm j) (dbasis := fun j nm => d nm j) (sinTheta := c.sinTheta) hc.h3 hT hnt hc.hr
      (valid_pl hc) (valid_sin hl hc) (rowStart_total c) (valid_ss hl hc)
      (fun j a1 a2 => basis_mirror (hl.rows _ hc.h3) hb a1 (half_le a2)) (fun j a1 a2 => deriv_mirror (hl.rows _ hc.h3) hd a1 (half_le a2))
    refine .inl ⟨out, e', h1, h2, hnt, fun k k1 k2 j i j1 j2 i1 i2 => ⟨?_, ?_⟩, fun k k1 k2 j i j1 j2 i1 i2 => ⟨?_, ?_⟩⟩
    · refine (h3 j i k 1 j1 j2 i1 i2 k1 k2 (by omega) (by omega)).trans ?_
      rw [hc.hs]
      exact gradU_row (valid_pl hc j j1 j2) i1 fun m n hmn hn => hb j m n j1 j2 hmn hn
    · refine (h3 j i k 2 j1 j2 i1 i2 k1 k2 (by omega) (by omega)).trans ?_
      exact gradV_row (valid_pl hc j j1 j2) i1 fun m n hmn hn => deriv_val hd j1 j2 hmn hn
    · refine (h3 j i k 3 j1 j2 i1 i2 k1 k2 (by omega) (by omega)).trans ?_
      rw [hc.hs]
      exact gradU_row (valid_pl hc j j1 j2) i1 fun m n hmn hn => hb j m n j1 j2 hmn hn
    · refine (h3 j i k 4 j1 j2 i1 i2 k1 k2 (by omega) (by omega)).trans ?_
      exact gradV_row (valid_pl hc j j1 j2) i1 fun m n hmn hn => deriv_val hd j1 j2 hmn hn
  · refine .inr ⟨4, ?_, by omega, rfl⟩
    unfold getgradPair
    rw [if_neg (by have := hc.h3; omega), if_neg (by omega), if_neg (by simp [nmDim]), if_pos (by omega)]

/-! ### Winds -/

/-- The rows of a grid symmetric about the equator do not get shorter towards it. -/
def Spec.Regular (pl : List ℕ) : Prop :=
  (∀ j, 1 ≤ j → j ≤ pl.length → Spec.row pl (pl.length - j + 1) = Spec.row pl j) →
    ∀ i j, 1 ≤ i → i ≤ j → j ≤ (pl.length + 1) / 2 → Spec.row pl i ≤ Spec.row pl j

theorem regular_wide (h : Spec.Regular c.pl) : symmetricPl c.nlat c.row = true → widening c.nlat c.row := by
  intro hs
  rw [symmetricPl_iff] at hs
  refine h fun j h1 h2 => ?_
  show c.row (c.nlat - j + 1) = c.row j
  have h2' : j ≤ c.nlat := h2
  rcases Nat.lt_or_ge (c.nlat / 2) j with h3 | h3
  · rcases Nat.lt_or_ge (c.nlat / 2) (c.nlat - j + 1) with h4 | h4
    · rw [show c.nlat - j + 1 = j by omega]
    · have := hs (c.nlat - j + 1) (by omega) h4
      rw [this, show c.nlat - (c.nlat - j + 1) + 1 = j by omega]
  · exact (hs j h1 h3).symm

theorem rowDV_sum {J : Finset ℕ} {m n : ℕ} {w θ st : ℕ → ℝ} {r : ℝ} {P D : ℕ → ℝ} {U V : ℕ → ℂ} (hst : ∀ j ∈ J, st j = Real.sin (θ j))
    (hP : ∀ j ∈ J, P j = pbar m n (θ j)) (hD : ∀ j ∈ J, D j = dpbar m n (θ j)) :
    ∑ j ∈ J, rowDV m (w j * (1 / r) / st j * P j) (w j * (1 / r) * D j) (U j) (V j) =
      (∑ j ∈ J, ((w j / r : ℝ) : ℂ) * (Complex.I * ((m / Real.sin (θ j) * pbar m n (θ j) : ℝ) : ℂ) * U j + (dpbar m n (θ j) : ℂ) * V j),
       ∑ j ∈ J, ((w j / r : ℝ) : ℂ) * (Complex.I * ((m / Real.sin (θ j) * pbar m n (θ j) : ℝ) : ℂ) * V j - (dpbar m n (θ j) : ℂ) * U j)) := by
  refine Prod.ext ?_ ?_
  · rw [Prod.fst_sum]
    refine Finset.sum_congr rfl fun j hj => ?_
    rw [hst j hj, hP j hj, hD j hj]
    unfold rowDV
    push_cast
    ring
  · rw [Prod.snd_sum]
    refine Finset.sum_congr rfl fun j hj => ?_
    rw [hst j hj, hP j hj, hD j hj]
    unfold rowDV
    push_cast
    ring

theorem analyzeWind_tri (hE : E.ok) (hl : lib.Sound) (hc : c.Valid lib) (hT : T ≤ c.nlat - 1) (u v : ℕ → ℕ → ℝ) :
    Tri (Good lib c.nlat) (analyzeWind E lib c nt u v (some (T : ℤ)))
      (fun out => 1 ≤ nt ∧ (Spec.Regular c.pl → ∀ k, 1 ≤ k → k ≤ nt → ∀ m n, m ≤ n → n ≤ T →
        out (Spec.pos T m n) k =
          (Spec.divergence c.nlat c.row (lib.theta c.nlat) (lib.weight c.nlat) c.rsphere (rowsOf c u k) (rowsOf c v k) m n,
           Spec.vorticity c.nlat c.row (lib.theta c.nlat) (lib.weight c.nlat) c.rsphere (rowsOf c u k) (rowsOf c v k) m n)))
      (fun e => nt = 0 ∧ e = .spherepack 3) := by
  refine (Tri.lift_ok (φ := fun a => T = a) (ntrunc_some hT hc.h3) rfl).bind ?_
  rintro _ rfl
  refine ((basisTM_tri hl hc.h3 hT).mono (fun _ h => h) fun _ h => h.elim).bind fun b hb => ?_
  refine ((dbasisTM_tri hE hl hc.h3 hT).mono (fun _ h => h) fun _ h => h.elim).bind fun d hd => ?_
  intro s hs
  rw [exec_bind_ok (exec_get s)]
  by_cases hnt : 1 ≤ nt
  · obtain ⟨out, e', v', h1, h2, h3⟩ := getvrtdivspec_eq hE hs.1.fft s.1.vec u v (vecArgs hl hc hT hb hd) hnt hc.hr (rowStart_total c)
    have h1' : RedGauss.getvrtdivspec E s.1.fft s.1.vec u v c.row c.weights (fun j nm => b nm j) (fun j nm => d nm j) c.sinTheta c.npoints c.nlat T nt c.rsphere = .ok (out, e', v') := h1
    rw [h1', exec_bind_ok (exec_raise_ok _ s)]
    refine ⟨⟨⟨h2, hs.1.b, hs.1.d, hs.1.bT, hs.1.dT, hs.1.geom⟩, hs.2⟩, hnt, fun hreg k k1 k2 m n hmn hn => ?_⟩
    refine (h3 (regular_wide hreg) k k1 k2 m n hmn hn).trans ?_
    refine (rowDV_sum (θ := lib.theta c.nlat) (n := n) (fun j _ => hc.hs j) (fun j hj => ?_) (fun j hj => ?_)).trans ?_
    · simp only [Finset.mem_filter, Finset.mem_Icc] at hj
      exact hb j m n hj.1.1 hj.1.2 hmn hn
    · simp only [Finset.mem_filter, Finset.mem_Icc] at hj
      exact deriv_val hd hj.1.1 hj.1.2 hmn hn
    · rw [hc.hw]; rfl
  · have : RedGauss.getvrtdivspec E s.1.fft s.1.vec u v c.row c.weights (fun j nm => b nm j) (fun j nm => d nm j) c.sinTheta c.npoints c.nlat T nt c.rsphere = .error 3 := by
      unfold getvrtdivspec
      rw [if_neg (by have := hc.h3; omega), if_neg (by omega), if_pos (by omega)]
    rw [this, exec_bind_error (exec_raise_error _ s)]
    exact ⟨hs, by omega, rfl⟩

theorem analyzeComponent_tri {component : ℕ} (hcomp : component = 1 ∨ component = 2) (hE : E.ok) (hl : lib.Sound) (hc : c.Valid lib) (hT : T ≤ c.nlat - 1) (u v : ℕ → ℕ → ℝ) :
    Tri (Good lib c.nlat) (analyzeComponent E lib c nt u v (some (T : ℤ)) component)
      (fun out => 1 ≤ nt ∧ (Spec.Regular c.pl → ∀ k, 1 ≤ k → k ≤ nt → ∀ m n, m ≤ n → n ≤ T →
        out (Spec.pos T m n) k = if component = 1
          then Spec.vorticity c.nlat c.row (lib.theta c.nlat) (lib.weight c.nlat) c.rsphere (rowsOf c u k) (rowsOf c v k) m n
          else Spec.divergence c.nlat c.row (lib.theta c.nlat) (lib.weight c.nlat) c.rsphere (rowsOf c u k) (rowsOf c v k) m n))
      (fun e => nt = 0 ∧ e = .spherepack 3) := by
  refine (Tri.lift_ok (φ := fun a => T = a) (ntrunc_some hT hc.h3) rfl).bind ?_
  rintro _ rfl
  refine ((basisTM_tri hl hc.h3 hT).mono (fun _ h => h) fun _ h => h.elim).bind fun b hb => ?_
  refine ((dbasisTM_tri hE hl hc.h3 hT).mono (fun _ h => h) fun _ h => h.elim).bind fun d hd => ?_
  refine withFft_tri fun e he => ?_
  by_cases hnt : 1 ≤ nt
  · obtain ⟨out, e', h1, h2, h3⟩ := getvecspecComponent_eq hE he u v (vecArgs hl hc hT hb hd) hnt hc.hr hcomp (rowStart_total c)
    refine .inl ⟨out, e', h1, h2, hnt, fun hreg k k1 k2 m n hmn hn => ?_⟩
    refine (h3 (regular_wide hreg) k k1 k2 m n hmn hn).trans ?_
    rw [← map_sum]
    refine (congrArg (selHom component) ((rowDV_sum (θ := lib.theta c.nlat) (n := n) (fun j _ => hc.hs j) (fun j hj => ?_) (fun j hj => ?_)))).trans ?_
    · simp only [Finset.mem_filter, Finset.mem_Icc] at hj
      exact hb j m n hj.1.1 hj.1.2 hmn hn
    · simp only [Finset.mem_filter, Finset.mem_Icc] at hj
      exact deriv_val hd hj.1.1 hj.1.2 hmn hn
    · rw [← selHom_eq, hc.hw]; rfl
  · refine .inr ⟨3, ?_, by omega, rfl⟩
    unfold getvecspecComponent
    rw [if_neg (by have := hc.h3; omega), if_neg (by omega), if_pos (by omega)]

end Skyborn.RedGauss
