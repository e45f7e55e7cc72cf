/-
`ReducedVectorWind`: objects that meet the hypotheses, and C219 on grids whose rows shrink towards the equator.
-/
import Verif.RedWind.Refuse
import Verif.RedWind.Rossby
import Verif.RedWind.Dtype
import Verif.RedGauss.Cases

namespace Skyborn.RedWind

open Skyborn RedGauss

/-- Every wind on every grid makes an object whose methods can then be called. -/
theorem exists_liveW {lib : Lib} (hl : lib.Sound) {pl : List ℕ} (h3 : 3 ≤ pl.length) (h4 : ∀ p ∈ pl, 4 ≤ p) {r : ℝ} (hr : 0 < r) (extra : List ℕ) (f g : List ℕ → ℕ → ℕ → ℝ) :
    ∃ w st, LiveW lib w st ∧ st.2 = WCaches.fresh ∧ w.cfg.pl = pl ∧ w.cfg.rsphere = r ∧ w.extra = extra ∧ RedGauss.Spec.IsPacked pl extra w.u f ∧ RedGauss.Spec.IsPacked pl extra w.v g := by
  obtain ⟨u, hu⟩ := exists_packed pl extra f
  obtain ⟨v, hv⟩ := exists_packed pl extra g
  let a : NDArr ℤ := ⟨[pl.length], fun idx => match idx with | [j] => (pl.getD j 0 : ℤ) | _ => 0⟩
  have hpl : (List.range pl.length).map (fun j => (a.get [j]).toNat) = pl := by
    refine List.ext_getElem (by simp) fun j h1 h2 => ?_
    simp [a, List.getD_eq_getElem?_getD]
    simp at h1
    simp [h1]
  obtain ⟨k1, k2, _⟩ := C226_construct hl ReachW.start ⟨u.shape, fun i => some (u.get i)⟩ ⟨v.shape, fun i => some (v.get i)⟩ .float64 .float64 a r "stored" "auto"
  obtain ⟨w, W', hcon⟩ := k1.mp ⟨pl.length, .auto, extra, rfl, h3, fun j hj => by
      have := h4 pl[j] (List.getElem_mem hj)
      simp [a, List.getD_eq_getElem?_getD, hj]; omega, .inl rfl, (validatePrecision_iff "auto" .auto).mp (by decide +kernel), hr, by rw [hpl]; exact hu.1, hv.1.trans hu.1.symm,
    fun _ _ => by simp, fun _ _ => by simp⟩
  obtain ⟨g1, g2, g3, _, _, g6, g7, g8, g9, g10⟩ := k2 _ _ hcon
  have hcp : w.cfg.pl = pl := by rw [npoints_of_construct rfl (construct_parts hcon).1, hpl]
  have hex : w.extra = extra := by
    have : u.shape = w.cfg.pl.sum :: w.extra := g6
    rw [hu.1] at this
    exact (List.cons.inj this).2.symm
  refine ⟨w, ((W', Caches.fresh), WCaches.fresh), ⟨_, _, .create .start hcon, by simp⟩, rfl, hcp, g3, hex, ?_, ?_⟩
  · have e : w.u = u := by
      have := (construct_parts hcon).2.2.2.2.2.2.1
      rw [this]; rfl
    rw [e]; exact hu
  · have e : w.v = v := by
      have := (construct_parts hcon).2.2.2.2.2.2.2.1
      rw [this]; rfl
    rw [e]; exact hv

/-- C219 is not true of all grids: on rows of 8, 4, 4 and 8 points, the vorticity of a calm is not zero everywhere when the
memory the routine allocates is not. -/
theorem C219_fields_false {lib : Lib} (hl : lib.Sound) (hwt : lib.weight 4 2 ≠ 0) :
    ∃ w st, LiveW lib w st ∧ w.cfg.pl = [8, 4, 4, 8] ∧ (RedGauss.Spec.IsPacked w.cfg.pl [] w.u fun _ _ _ => 0) ∧ (RedGauss.Spec.IsPacked w.cfg.pl [] w.v fun _ _ _ => 0) ∧
      ∃ Es : ℕ → Env, (∀ i, (Es i).ok) ∧ ∃ r st', run (vorticity Es lib w (some 3)) st = (.ok r, st') ∧ ∃ i, 1 ≤ i ∧ i ≤ 8 ∧ RedGauss.Spec.value w.cfg.pl r [] 1 i ≠ 0 := by
  obtain ⟨w, st, hst, hfresh, hpl, hr, hex, hu, hv⟩ := exists_liveW hl (pl := [8, 4, 4, 8]) (by simp) (by simp) (r := 1) one_pos [] (fun _ _ _ => 0) fun _ _ _ => 0
  obtain ⟨hw, hs⟩ := hst.good hl
  have hEs : ∀ i : ℕ, ((fun _ => plainEnv 1 : ℕ → Env) i).ok := fun _ => plainEnv_ok 1
  refine ⟨w, st, hst, hpl, hpl ▸ hu, hpl ▸ hv, fun _ => plainEnv 1, hEs, ?_⟩
  have hn : w.cfg.nlat = 4 := by unfold Cfg.nlat; rw [hpl]; rfl
  have hnt : w.nt = 1 := by unfold WCfg.nt; rw [hex]; rfl
  have ht : validateNtrunc w.cfg (some 3) = .ok 3 := ntrunc_some (T := 3) (by omega) hw.hc.h3
  have hin : InB w.extra [] := by rw [hex]; trivial
  have hz : ∀ {a b : NDArr ℝ}, RedGauss.Spec.IsPacked [8, 4, 4, 8] [] b (fun _ _ _ => 0) →
      (∀ e, InB w.extra e → ∀ p, p < w.cfg.npoints → toF a (p + 1) (ravel w.extra e + 1) = b.get (p :: e)) →
      ∀ j i, 1 ≤ j → j ≤ 4 → 1 ≤ i → i ≤ w.cfg.row j → toF a (RedGauss.Spec.rowStart w.cfg.row j + i) 1 = 0 := by
    intro a b hb ha j i j1 j2 i1 i2
    rw [rowStart_row j1 (by omega) i1]
    have h := ha [] hin _ (packed_lt j1 (show j ≤ w.cfg.pl.length by rw [hpl]; exact j2) i1 i2)
    have h0 : ravel w.extra [] + 1 = 1 := by rw [hex]; rfl
    rw [h0] at h
    refine h.trans ?_
    rw [hpl]
    exact hb.2 [] trivial j i j1 (by simpa using j2) i1 (by rw [← hpl]; exact i2)
  have hmem := analyzeComponent_memory (plainEnv_ok 1) hl hw.hc hpl (hz hu hw.hub) (hz hv hw.hvb)
  obtain ⟨out, s', o1, _, d, o2⟩ := Tri.ok hmem hs.1
  -- the spectrum
  have hspec : run (vrtSpectrum lib w (plainEnv 1) (some 3)) st = (.ok ⟨specLen 3, out⟩, (s', { st.2 with vrt := (3, ⟨specLen 3, out⟩) :: st.2.vrt })) := by
    unfold vrtSpectrum
    rw [ht, run_bind_ok (run_lift_ok 3 st), run_bind_ok (run_get st)]
    have e1 : st.2.vrt.lookup 3 = none := by rw [hfresh]; rfl
    have e2 : st.2.vrtdiv.lookup 3 = none := by rw [hfresh]; rfl
    rw [e1]
    dsimp only
    rw [run_bind_ok (run_get st), e2]
    dsimp only
    have e3 : run (inner (analyzeComponent (plainEnv 1) lib w.cfg w.nt (toF w.ub) (toF w.vb) (some ((3 : ℕ) : ℤ)) 1)) st = (.ok out, (s', st.2)) := by
      rw [run_inner, hnt, o1]
    rw [run_bind_ok e3]
    rfl
  have hgood := (vrtSpectrum_tri (plainEnv_ok 1) hl hw (some 3)).keeps hs
  rw [hspec] at hgood
  have hsl : Slices lib w True 3 ⟨specLen 3, out⟩ (fun e => coefsOf 3 out (ravel w.extra e + 1)) := ⟨rfl, by omega, fun _ _ _ _ _ _ _ => rfl⟩
  obtain ⟨r, st', h1, _, h2⟩ := TriW.ok (synth_tri (ε := fun _ => False) hl hw (plainEnv_ok 1) ht (by omega) hsl) hgood
  refine ⟨r, st', ?_, ?_⟩
  · unfold vorticity
    rw [run_bind_ok hspec]
    exact h1
  by_contra hcon
  push Not at hcon
  have hrow : RedGauss.Spec.row w.cfg.pl 1 = 8 := by rw [hpl]; rfl
  have hval := fun i (i1 : 1 ≤ i) (i2 : i ≤ 8) => (h2.2 trivial).2 [] hin 1 i le_rfl (by rw [hpl]; simp) i1 (by rw [hrow]; exact i2)
  have h0 : ravel w.extra [] + 1 = 1 := by rw [hex]; rfl
  beta_reduce at hval
  rw [h0] at hval
  -- the wave of order 3 on the first row
  have hc := circleCoef_rowField (N := 8) (T := 3) (m := 3) (by omega) le_rfl (by omega) (RedGauss.Spec.order 3 (coefsOf 3 out 1) (lib.theta w.cfg.nlat 1))
  rw [if_neg (by omega)] at hc
  have hz0 : RedGauss.Spec.circleCoef 8 (fun i => RedGauss.Spec.rowField 8 3 (RedGauss.Spec.order 3 (coefsOf 3 out 1) (lib.theta w.cfg.nlat 1)) (RedGauss.Spec.lon 8 i)) 3 = 0 := by
    unfold RedGauss.Spec.circleCoef
    rw [Finset.sum_eq_zero, mul_zero]
    intro i hi
    rw [Finset.mem_Icc] at hi
    have e : RedGauss.Spec.value w.cfg.pl r [] 1 i = RedGauss.Spec.rowField (RedGauss.Spec.row w.cfg.pl 1) 3 (RedGauss.Spec.order 3 (coefsOf 3 out 1) (lib.theta w.cfg.nlat 1))
      (RedGauss.Spec.lon (RedGauss.Spec.row w.cfg.pl 1) i) := hval i hi.1 hi.2
    rw [hrow, hcon i hi.1 hi.2] at e
    beta_reduce; rw [← e]; simp
  rw [hz0] at hc
  have hin1 := (hl.rows 4 (by omega)).inside 1 (by omega) (by omega)
  have hp1 := pbar_top_ne (m := 3) (Real.sin_pos_of_pos_of_lt_pi hin1.1 hin1.2).ne'
  have hout : out (RedGauss.Spec.pos 3 3 3) 1 = 0 := by
    unfold RedGauss.Spec.order at hc
    rw [Finset.Icc_self, Finset.sum_singleton, hn] at hc
    rcases mul_eq_zero.mp hc.symm with h | h
    · exact h
    · exact absurd (by exact_mod_cast h) hp1
  have h1 := congrArg Complex.re (o2.symm.trans hout)
  have hsin := (Real.sin_pos_of_pos_of_lt_pi ((hl.rows 4 (by omega)).inside 2 (by omega) (by omega)).1 ((hl.rows 4 (by omega)).inside 2 (by omega) (by omega)).2).ne'
  have hp := pbar_top_ne (m := 3) hsin
  simp [vecTerm, Four.add, Four.sub, Env.vecC, VecC.at, plainEnv, hr] at h1
  rcases h1 with (h1 | h1) | h1
  · exact hwt h1
  · exact hsin h1
  · exact hp h1

/-! ### The hypotheses can be met -/

/-- C219-C223: two slices of the wind of a streamfunction and a velocity potential on three Gaussian rows of 8, 12 and 8
points, the default truncation. -/
example : ∃ w st, LiveW lib3 w st ∧ Sphere.Spec.Gauss w.cfg.nlat (lib3.theta w.cfg.nlat) (lib3.weight w.cfg.nlat) ∧ RedGauss.Spec.Regular w.cfg.pl ∧
    Sphere.Spec.Truncation w.cfg.nlat none 2 ∧ RedGauss.Spec.Carries w.cfg.pl 2 ∧ 1 ≤ w.extra.prod ∧
    Spec.WindOf lib3 w 2 (fun e m n => ((e.sum + m * n : ℝ) : ℂ)) (fun _ m n => ((m + n : ℝ) : ℂ)) ∧
    ∀ e, InB w.extra e → RedGauss.Spec.RealField (fun m n => ((e.sum + m * n : ℝ) : ℂ)) ∧ RedGauss.Spec.RealField (fun m n => ((m + n : ℝ) : ℂ)) := by
  let ψ : List ℕ → ℕ → ℕ → ℂ := fun e m n => ((e.sum + m * n : ℝ) : ℂ)
  let χ : List ℕ → ℕ → ℕ → ℂ := fun _ m n => ((m + n : ℝ) : ℂ)
  obtain ⟨w, st, h, _, hpl, hr, hex, hu, hv⟩ := exists_liveW lib3_sound (pl := [8, 12, 8]) (by simp) (by simp) (r := 6371) (by norm_num) [2]
    (fun e j i => RedGauss.Spec.windU (RedGauss.Spec.row [8, 12, 8] j) 2 6371 (ψ e) (χ e) (lib3.theta 3 j) (RedGauss.Spec.lon (RedGauss.Spec.row [8, 12, 8] j) i))
    (fun e j i => RedGauss.Spec.windV (RedGauss.Spec.row [8, 12, 8] j) 2 6371 (ψ e) (χ e) (lib3.theta 3 j) (RedGauss.Spec.lon (RedGauss.Spec.row [8, 12, 8] j) i))
  have hn : w.cfg.nlat = 3 := by unfold Cfg.nlat; rw [hpl]; rfl
  refine ⟨w, st, h, by rw [hn]; exact lib3_gauss, by rw [hpl]; exact regular3, .inl ⟨rfl, by rw [hn]⟩, ?_, by rw [hex]; simp, ?_, ?_⟩
  · intro j h1 h2
    rw [hpl] at h2 ⊢
    simp at h2
    have : j = 1 ∨ j = 2 ∨ j = 3 := by omega
    rcases this with rfl | rfl | rfl <;> simp [RedGauss.Spec.row]
  · intro e he j i j1 j2 i1 i2
    rw [hex] at he
    have a := hu.2 e he j i j1 (by rw [hn] at j2; exact j2) i1 (by rw [← hpl]; exact i2)
    have b := hv.2 e he j i j1 (by rw [hn] at j2; exact j2) i1 (by rw [← hpl]; exact i2)
    unfold Spec.east Spec.north
    rw [hn, hr, hpl]
    exact ⟨a, b⟩
  · exact fun e _ => ⟨fun k => Complex.ofReal_im _, fun k => Complex.ofReal_im _⟩

/-- C224, C225: a field of the shape of the wind without missing values, and truncations that are and are not there. -/
example : ∃ w st, LiveW lib3 w st ∧ (∃ x : NDArr (Option ℝ), x.shape = w.u.shape ∧ ∀ idx, InB x.shape idx → x.get idx ≠ none) ∧
    Sphere.Spec.Truncation w.cfg.nlat (some 1) 1 ∧ ¬ RedGauss.Spec.GoodTrunc w.cfg.nlat (some 3) := by
  obtain ⟨w, st, h, _, hpl, _⟩ := exists_liveW lib3_sound (pl := [8, 12, 8]) (by simp) (by simp) (r := 6371) (by norm_num) [2] (fun _ j i => j * i) fun e j i => e.sum + j + i
  have hn : w.cfg.nlat = 3 := by unfold Cfg.nlat; rw [hpl]; rfl
  exact ⟨w, st, h, ⟨⟨w.u.shape, fun _ => some 1⟩, rfl, fun _ _ => by simp⟩, .inr ⟨rfl, by omega⟩, fun hg => by have := hg 3 rfl; omega⟩

/-- C226, C227: a reachable module state in which an object can be made. -/
example : ∃ W' w, construct lib3 World.fresh ⟨[28], fun _ => some 1⟩ ⟨[28], fun _ => some 2⟩ .float32 .integer ⟨[3], fun idx => if idx = [1] then 12 else 8⟩ 6371 "stored" "auto" = .ok (w, W') := by
  obtain ⟨k1, _⟩ := C226_construct lib3_sound ReachW.start ⟨[28], fun _ => some 1⟩ ⟨[28], fun _ => some 2⟩ .float32 .integer ⟨[3], fun idx => if idx = [1] then 12 else 8⟩ 6371 "stored" "auto"
  obtain ⟨w, W', h⟩ := k1.mp ⟨3, .auto, [], rfl, le_rfl, fun j hj => by simp only; split_ifs <;> norm_num, .inl rfl,
    (validatePrecision_iff "auto" .auto).mp (by decide +kernel), by norm_num, by simp [List.range_succ], rfl, fun _ _ => by simp, fun _ _ => by simp⟩
  exact ⟨W', w, h⟩

end Skyborn.RedWind
