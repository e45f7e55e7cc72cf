/-
Cases that meet the hypotheses of the theorems about `ReducedGaussianSpharmt`; C208 on rows too short for the truncation.
-/
import Verif.RedGauss.Sample

namespace Skyborn.RedGauss

open Skyborn Sphere

/-- There is a spectrum with any given coefficients. -/
theorem exists_spectrum (T : ℕ) (extra : List ℕ) (a : List ℕ → ℕ → ℕ → ℂ) : ∃ s, Sphere.Spec.IsSpectrum T extra s a := by
  classical
  have hb := Spectral.C43_bijection T
  refine ⟨⟨(T + 1) * (T + 2) / 2 :: extra, fun idx => match idx with
    | p :: e => if h : ∃ q : ℕ × ℕ, (q.1 ≤ q.2 ∧ q.2 ≤ T) ∧ Spectral.Spec.index T q.1 q.2 = p then a e h.choose.1 h.choose.2 else 0
    | [] => 0⟩, rfl, fun e _ m n h1 h2 => ?_⟩
  have hex : ∃ q : ℕ × ℕ, (q.1 ≤ q.2 ∧ q.2 ≤ T) ∧ Spectral.Spec.index T q.1 q.2 = Spectral.Spec.index T m n := ⟨(m, n), ⟨h1, h2⟩, rfl⟩
  show (if h : _ then _ else _) = _
  rw [dif_pos hex]
  have := hb.2.1 hex.choose_spec.1 (show (m, n) ∈ {p : ℕ × ℕ | p.1 ≤ p.2 ∧ p.2 ≤ T} from ⟨h1, h2⟩) hex.choose_spec.2
  rw [this]

/-- The point of a packed position is determined. -/
theorem packed_inj {pl : List ℕ} {j i j' i' : ℕ} (h1 : 1 ≤ j) (h2 : j ≤ pl.length) (h3 : 1 ≤ i) (h4 : i ≤ Spec.row pl j) (g1 : 1 ≤ j') (g2 : j' ≤ pl.length) (g3 : 1 ≤ i')
    (g4 : i' ≤ Spec.row pl j') (h : (pl.take (j - 1)).sum + (i - 1) = (pl.take (j' - 1)).sum + (i' - 1)) : j = j' ∧ i = i' := by
  have hmono : ∀ a b, a < b → b ≤ pl.length → (pl.take a).sum + pl.getD a 0 ≤ (pl.take b).sum := by
    intro a b hab hb
    have e1 : (pl.take a).sum + pl.getD a 0 = (pl.take (a + 1)).sum := by
      have ha : a < pl.length := by omega
      rw [List.take_add_one, List.sum_append, List.getElem?_eq_getElem ha, List.getD_eq_getElem?_getD, List.getElem?_eq_getElem ha]; simp
    rw [e1]
    obtain ⟨k, rfl⟩ : ∃ k, b = a + 1 + k := ⟨b - (a + 1), by omega⟩
    have e2 : (pl.take (a + 1 + k)).sum = (pl.take (a + 1)).sum + ((pl.drop (a + 1)).take k).sum := by rw [List.take_add (i := a + 1) (j := k), List.sum_append]
    omega
  unfold Spec.row at h4 g4
  rcases Nat.lt_trichotomy j j' with hlt | rfl | hlt
  · have := hmono (j - 1) (j' - 1) (by omega) (by omega); omega
  · exact ⟨rfl, by omega⟩
  · have := hmono (j' - 1) (j - 1) (by omega) (by omega); omega

/-- There is a packed field with any given values. -/
theorem exists_packed (pl extra : List ℕ) (f : List ℕ → ℕ → ℕ → ℝ) : ∃ x, Spec.IsPacked pl extra x f := by
  classical
  refine ⟨⟨pl.sum :: extra, fun idx => match idx with
    | p :: e => if h : ∃ q : ℕ × ℕ, (1 ≤ q.1 ∧ q.1 ≤ pl.length ∧ 1 ≤ q.2 ∧ q.2 ≤ Spec.row pl q.1) ∧ p = (pl.take (q.1 - 1)).sum + (q.2 - 1) then f e h.choose.1 h.choose.2 else 0
    | [] => 0⟩, rfl, fun e _ j i h1 h2 h3 h4 => ?_⟩
  have hex : ∃ q : ℕ × ℕ, (1 ≤ q.1 ∧ q.1 ≤ pl.length ∧ 1 ≤ q.2 ∧ q.2 ≤ Spec.row pl q.1) ∧ (pl.take (j - 1)).sum + (i - 1) = (pl.take (q.1 - 1)).sum + (q.2 - 1) :=
    ⟨(j, i), ⟨h1, h2, h3, h4⟩, rfl⟩
  show (if h : _ then _ else _) = _
  rw [dif_pos hex]
  obtain ⟨⟨a1, a2, a3, a4⟩, a5⟩ := hex.choose_spec
  obtain ⟨e1, e2⟩ := packed_inj h1 h2 h3 h4 a1 a2 a3 a4 a5
  rw [← e1, ← e2]

/-- C208 is not true of all rows: on rows of four points the wave of order two comes back halved. -/
theorem C208_synthesis_false {lib : Lib} (hl : lib.Sound) :
    ∃ c st, Live lib c st ∧ c.pl = [4, 4, 4] ∧ ∃ E : Env, E.ok ∧ ∃ (s : NDArr ℂ) (a : ℕ → ℕ → ℂ), Sphere.Spec.IsSpectrum 2 [] s (fun _ => a) ∧
      ∃ r st', exec (spectogrdM E lib c s) st = (.ok r, st') ∧ Spec.value c.pl r [] 1 1 ≠ Spec.series 2 a (lib.theta c.nlat 1) (Spec.lon (Spec.row c.pl 1) 1) := by
  obtain ⟨c, st, hst, hpl, hr⟩ := exists_live lib (pl := [4, 4, 4]) (by simp) (by simp) (r := 1) one_pos
  have hn : c.nlat = 3 := by unfold Cfg.nlat; rw [hpl]; rfl
  let a : ℕ → ℕ → ℂ := fun m n => if m = 2 ∧ n = 2 then 1 else 0
  obtain ⟨s, hs⟩ := exists_spectrum 2 [] fun _ => a
  obtain ⟨r, st', h1, h2⟩ := C208_rows hl hst (plainEnv_ok 0) hs (by omega) (by simp)
  refine ⟨c, st, hst, hpl, plainEnv 0, plainEnv_ok 0, s, a, hs, r, st', h1, ?_⟩
  have hrow : Spec.row c.pl 1 = 4 := by rw [hpl]; rfl
  have hv : Spec.value c.pl r [] 1 1 = _ := h2.2 [] trivial 1 1 le_rfl (by rw [hpl]; simp) le_rfl (by rw [hrow]; omega)
  beta_reduce at hv
  rw [hv, hrow, hn]
  have hin := (hl.rows 3 le_rfl).inside 1 le_rfl (by omega)
  have hp := pbar_top_ne (m := 2) (Real.sin_pos_of_pos_of_lt_pi hin.1 hin.2).ne'
  have hf : (Finset.range (2 + 1)).filter (fun m => 2 * m ≤ 4) = {0, 1, 2} := by decide
  have hz : ∀ m, m ≠ 2 → ∀ θ, Spec.order 2 a θ m = 0 := fun m hm θ => by
    unfold Spec.order; refine Finset.sum_eq_zero fun n _ => ?_; simp [a, hm]
  have h2 : ∀ θ, Spec.order 2 a θ 2 = (pbar 2 2 θ : ℂ) := fun θ => by
    unfold Spec.order; rw [Finset.Icc_self, Finset.sum_singleton]; simp [a]
  have hl0 : Spec.lon 4 1 = 0 := by simp [Spec.lon]
  have es : Spec.series 2 a (lib.theta 3 1) (Spec.lon 4 1) = 2 * pbar 2 2 (lib.theta 3 1) := by
    unfold Spec.series
    have : ∀ m, (∑ n ∈ Finset.Icc m 2, a m n * (pbar m n (lib.theta 3 1) : ℂ)) = Spec.order 2 a (lib.theta 3 1) m := fun m => rfl
    simp only [this, hl0]
    rw [Finset.sum_range_succ, Finset.sum_range_succ, Finset.sum_range_one, hz 0 (by omega), hz 1 (by omega), h2]
    simp
  have er : Spec.rowField 4 2 (Spec.order 2 a (lib.theta 3 1)) (Spec.lon 4 1) = pbar 2 2 (lib.theta 3 1) := by
    unfold Spec.rowField
    rw [hf, hl0]
    rw [Finset.sum_insert (by decide), Finset.sum_insert (by decide), Finset.sum_singleton, hz 0 (by omega), hz 1 (by omega), h2]
    simp
  rw [er, es]
  intro h
  apply hp
  linarith

/-! ### The hypotheses can be met -/

/-- A library, an object on three Gaussian rows of 8, 12 and 8 points and a state. -/
theorem sample3 : ∃ c st, Live lib3 c st ∧ c.pl = [8, 12, 8] ∧ c.rsphere = 6371 := exists_live lib3 (by simp) (by simp) (by norm_num)

theorem regular3 : Spec.Regular [8, 12, 8] := by
  intro _ i j h1 h2 h3
  have : (i = 1 ∧ j = 1) ∨ (i = 1 ∧ j = 2) ∨ (i = 2 ∧ j = 2) := by simp at h3; omega
  rcases this with ⟨rfl, rfl⟩ | ⟨rfl, rfl⟩ | ⟨rfl, rfl⟩ <;> simp [Spec.row]

/-- C207: a field of two slices, the default truncation. -/
example : ∃ c st, Live lib3 c st ∧ ∃ E : Env, E.ok ∧ ∃ x, Spec.IsPacked c.pl [2] x (fun e j i => e.sum + j * i) ∧ 1 ≤ [2].prod ∧ Sphere.Spec.Truncation c.nlat none 2 := by
  obtain ⟨c, st, h, hpl, _⟩ := sample3
  obtain ⟨x, hx⟩ := exists_packed c.pl [2] fun e j i => (e.sum + j * i : ℝ)
  exact ⟨c, st, h, plainEnv 1, plainEnv_ok 1, x, hx, by simp, .inl ⟨rfl, by unfold Cfg.nlat; rw [hpl]; rfl⟩⟩

/-- C208, C210, C212, C213: spectra, and every order is carried by all rows. -/
example : ∃ c st, Live lib3 c st ∧ Sphere.Spec.Gauss c.nlat (lib3.theta c.nlat) (lib3.weight c.nlat) ∧ Spec.Regular c.pl ∧ (∀ j, 1 ≤ j → j ≤ c.nlat → 0 < lib3.weight c.nlat j) ∧
    ∃ s, Sphere.Spec.IsSpectrum 2 [2] s (fun e m n => (e.sum + m * n : ℝ)) ∧ Spec.RealField (fun m n => (([1].sum + m * n : ℝ) : ℂ)) ∧ 2 < c.nlat ∧ 1 ≤ [2].prod ∧
      ∀ m ≤ 2, Spec.Carries c.pl m := by
  obtain ⟨c, st, h, hpl, _⟩ := sample3
  have hn : c.nlat = 3 := by unfold Cfg.nlat; rw [hpl]; rfl
  obtain ⟨s, hs⟩ := exists_spectrum 2 [2] fun e m n => ((e.sum + m * n : ℝ) : ℂ)
  refine ⟨c, st, h, by rw [hn]; exact lib3_gauss, by rw [hpl]; exact regular3, ?_, s, hs, fun k => Complex.ofReal_im _, by omega, by simp, fun m hm j h1 h2 => ?_⟩
  · rw [hn]
    intro j h1 h2
    have : j = 1 ∨ j = 2 ∨ j = 3 := by omega
    rcases this with rfl | rfl | rfl <;> simp [lib3, weight3]
  · rw [hpl] at h2 ⊢
    simp at h2
    have : j = 1 ∨ j = 2 ∨ j = 3 := by omega
    rcases this with rfl | rfl | rfl <;> simp [Spec.row] <;> omega

/-- `C213_false`: rows of four points, order two. -/
example : ∃ c st, Live lib3 c st ∧ ∃ s, Sphere.Spec.IsSpectrum 2 [] s (fun _ m' n' => if m' = 2 ∧ n' = 2 then Complex.I else 0) ∧ 2 < c.nlat ∧
    ∀ j, 1 ≤ j → j ≤ c.nlat → Spec.row c.pl j = 2 * 2 := by
  obtain ⟨c, st, h, hpl, _⟩ := exists_live lib3 (pl := [4, 4, 4]) (by simp) (by simp) one_pos
  have hn : c.nlat = 3 := by unfold Cfg.nlat; rw [hpl]; rfl
  obtain ⟨s, hs⟩ := exists_spectrum 2 [] fun _ m' n' => if m' = 2 ∧ n' = 2 then Complex.I else 0
  refine ⟨c, st, h, s, hs, by omega, fun j h1 h2 => ?_⟩
  have : j = 1 ∨ j = 2 ∨ j = 3 := by omega
  rw [hpl]
  rcases this with rfl | rfl | rfl <;> simp [Spec.row]

/-- C214: two objects that differ in their modes, made one after the other, the first one used. -/
example : ∃ c c' st st', Live lib3 c st ∧ Live lib3 c' st' ∧ c.pl = c'.pl ∧ c.rsphere = c'.rsphere ∧ (plainEnv 1).ok ∧ (plainEnv 2).ok := by
  obtain ⟨c, st, h, hpl, hr⟩ := sample3
  exact ⟨c, c, st, st, h, h, rfl, rfl, plainEnv_ok 1, plainEnv_ok 2⟩

end Skyborn.RedGauss
