/-
`barot_growth_rate`: what the number means, stability, order of the latitudes, hemispheres.
-/
import Verif.Growth.Barot
import Verif.Growth.Api

namespace Skyborn.Growth

/-- The NumPy array `[v 1, .., v n]`. -/
def Spec.array (n : ℕ) (v : ℕ → ℝ) : NDArr (Option ℝ) := ⟨[n], fun idx => some (v (idx.getD 0 0 + 1))⟩

/-- The NumPy array `a[::-1]` of a one-dimensional array of length `n`. -/
def Spec.backwards (n : ℕ) (a : NDArr (Option ℝ)) : NDArr (Option ℝ) := ⟨[n], fun idx => flip n (fun i => a.get [i]) (idx.getD 0 0)⟩

theorem flip_flip {α : Type} (n : ℕ) (v : ℕ → α) : flip n (flip n v) = v := by
  funext i
  unfold flip
  by_cases h : i < n
  · rw [if_pos h, if_pos (by omega)]; congr 1; omega
  · rw [if_neg h, if_neg h]

theorem monotone_flip {n : ℕ} {v : ℕ → Option ℝ} (h : Monotone1 n v) : Monotone1 n (flip n v) := by
  have e : ∀ i, i + 1 < n → flip n v i = v (n - 1 - i) ∧ flip n v (i + 1) = v (n - 1 - i - 1) := fun i hi => by
    unfold flip
    rw [if_pos (by omega), if_pos hi, show n - 1 - (i + 1) = n - 1 - i - 1 by omega]
    exact ⟨rfl, rfl⟩
  rcases h with h | h
  · right
    intro i hi
    obtain ⟨a, b, ha, hb, hab⟩ := h (n - 1 - i - 1) (by omega)
    rw [show n - 1 - i - 1 + 1 = n - 1 - i by omega] at hb
    exact ⟨b, a, by rw [(e i hi).1, hb], by rw [(e i hi).2, ha], by linarith⟩
  · left
    intro i hi
    obtain ⟨a, b, ha, hb, hab⟩ := h (n - 1 - i - 1) (by omega)
    rw [show n - 1 - i - 1 + 1 = n - 1 - i by omega] at hb
    exact ⟨b, a, by rw [(e i hi).1, hb], by rw [(e i hi).2, ha], by linarith⟩

theorem monotone_flip_iff {n : ℕ} {v : ℕ → Option ℝ} : Monotone1 n (flip n v) ↔ Monotone1 n v :=
  ⟨fun h => by have := monotone_flip h; rwa [flip_flip] at this, monotone_flip⟩

theorem none_flip {n : ℕ} {v : ℕ → Option ℝ} : (∃ i, i < n ∧ flip n v i = none) ↔ ∃ i, i < n ∧ v i = none := by
  constructor
  · rintro ⟨i, hi, h⟩
    unfold flip at h
    rw [if_pos hi] at h
    exact ⟨_, by omega, h⟩
  · rintro ⟨i, hi, h⟩
    refine ⟨n - 1 - i, by omega, ?_⟩
    unfold flip
    rw [if_pos (by omega), show n - 1 - (n - 1 - i) = i by omega, h]

/-- Both ends of a strictly monotone array of at least two numbers differ. -/
theorem monotone_ends {n : ℕ} {v : ℕ → Option ℝ} (h : Monotone1 n v) (hn : 2 ≤ n) : (v 0).getD 0 ≠ (v (n - 1)).getD 0 := by
  have up : ∀ (s : ℝ), s ≠ 0 → (∀ i, i + 1 < n → ∃ a b, v i = some a ∧ v (i + 1) = some b ∧ 0 < s * (b - a)) →
      ∀ k, 1 ≤ k → k < n → 0 < s * ((v k).getD 0 - (v 0).getD 0) := by
    intro s _ hs k h1
    induction k with
    | zero => omega
    | succ m ih =>
      intro h2
      obtain ⟨a, b, ha, hb, hab⟩ := hs m h2
      by_cases hm : m = 0
      · subst hm
        simp only [ha, hb, Option.getD_some]
        exact hab
      · have := ih (by omega) (by omega)
        simp only [ha, hb, Option.getD_some] at this ⊢
        nlinarith
  rcases h with h | h
  · have := up 1 one_ne_zero (fun i hi => by
      obtain ⟨a, b, x, y, z⟩ := h i hi
      exact ⟨a, b, x, y, by linarith⟩) (n - 1) (by omega) (by omega)
    intro he
    rw [he] at this
    simp at this
  · have := up (-1) (by norm_num) (fun i hi => by
      obtain ⟨a, b, x, y, z⟩ := h i hi
      exact ⟨a, b, x, y, by linarith⟩) (n - 1) (by omega) (by omega)
    intro he
    rw [he] at this
    simp at this

/-! ### What is returned -/

/-- The call on numbers. -/
theorem barot_call (qz : Solver) {n : ℕ} (hn : 3 ≤ n) (u lat : ℕ → ℝ) (hm : Monotone1 n (fun i => some (lat (i + 1)))) :
    barotGrowth qz (Spec.array n u) (Spec.array n lat) 6371000 7.292e-5 =
      (if lat 1 > lat n then dbarot qz n (arg (flip n fun i => some (lat (i + 1)))) (arg (flip n fun i => some (u (i + 1))))
        else dbarot qz n (arg fun i => some (lat (i + 1))) (arg fun i => some (u (i + 1)))).raise := by
  unfold barotGrowth
  rw [if_neg (by norm_num)]
  simp only [as1d, Spec.array, List.getD_cons_zero, Except.bind, bind]
  rw [if_neg (by simp), barotSolve, if_neg (by simp), if_neg (not_not.mpr hm), if_neg (by omega)]
  simp only [Option.getD_some, show n - 1 + 1 = n by omega, zero_add]
  by_cases h : lat 1 > lat n
  · simp only [if_pos h]
  · simp only [if_neg h]

theorem arg_some (n : ℕ) (v : ℕ → ℝ) {i : ℕ} (h : 1 ≤ i) : arg (fun i => some (v (i + 1))) i = v i := by
  simp only [arg, Option.getD_some]
  rw [show i - 1 + 1 = i by omega]

theorem northward_congr {n : ℕ} (hn : 1 ≤ n) {lat lat' : ℕ → ℝ} (h : Spec.Northward n lat) (e : ∀ i, 1 ≤ i → i ≤ n → lat' i = lat i) :
    Spec.Northward n lat' :=
  ⟨fun i h1 h2 => by rw [e i h1 (by omega), e (i + 1) (by omega) h2]; exact h.inc i h1 h2, by rw [e 1 le_rfl hn]; exact h.south,
    by rw [e n hn le_rfl]; exact h.north⟩

theorem monotone_of_northward {n : ℕ} {lat : ℕ → ℝ} (h : Spec.Northward n lat) : Monotone1 n (fun i => some (lat (i + 1))) :=
  Or.inl fun i hi => ⟨_, _, rfl, rfl, sub_pos.mpr (h.inc (i + 1) (by omega) (by omega))⟩

theorem NormalMode.congr {n : ℕ} {k : ℝ} {g w U Q g' w' U' Q' : ℕ → ℝ} {lam : ℂ} (hg : ∀ i, i ≤ n → g' i = g i) (hw : ∀ i, 1 ≤ i → i ≤ n → w' i = w i)
    (hU : ∀ i, 1 ≤ i → i ≤ n → U' i = U i) (hQ : ∀ i, 1 ≤ i → i ≤ n → Q' i = Q i) (h : Spec.NormalMode n k g w U Q lam) :
    Spec.NormalMode n k g' w' U' Q' lam := by
  obtain ⟨psi, hb, hne, h⟩ := h
  refine ⟨psi, hb, hne, fun i h1 h2 => ?_⟩
  have : Spec.lap g' w' psi i = Spec.lap g w psi i := by
    rw [Spec.lap, Spec.lap, hg i h2, hg (i - 1) (by omega), hw i h1 h2]
  rw [this, hU i h1 h2, hQ i h1 h2]
  exact h i h1 h2

theorem step_congr {n : ℕ} {lat lat' : ℕ → ℝ} (e : ∀ i, 1 ≤ i → i ≤ n → lat' i = lat i) {i : ℕ} (h1 : 1 ≤ i) (h2 : i + 1 ≤ n) :
    Spec.step lat' i = Spec.step lat i := by
  simp only [Spec.step, Spec.metres]
  rw [e i h1 (by omega), e (i + 1) (by omega) h2]

theorem barotG_congr {n : ℕ} (hn : 3 ≤ n) {lat lat' : ℕ → ℝ} (e : ∀ i, 1 ≤ i → i ≤ n → lat' i = lat i) (i : ℕ) :
    Spec.barotG n lat' i = Spec.barotG n lat i := by
  rw [Spec.barotG, Spec.barotG, step_congr e (by omega) (by omega)]

theorem barotW_congr {n : ℕ} (hn : 3 ≤ n) {lat lat' : ℕ → ℝ} (e : ∀ i, 1 ≤ i → i ≤ n → lat' i = lat i) {i : ℕ} (h1 : 1 ≤ i) (h2 : i ≤ n) :
    Spec.barotW n lat' i = Spec.barotW n lat i := by
  unfold Spec.barotW
  split
  · exact step_congr e le_rfl (by omega)
  · split
    · exact step_congr e (by omega) (by omega)
    · simp only [Spec.metres]
      rw [e (i + 1) (by omega) (by omega), e (i - 1) (by omega) (by omega)]

theorem barotRates_congr {n : ℕ} (hn : 3 ≤ n) {lat lat' u u' : ℕ → ℝ} (e : ∀ i, 1 ≤ i → i ≤ n → lat' i = lat i) (eu : ∀ i, 1 ≤ i → i ≤ n → u' i = u i) :
    Spec.BarotRates n lat' u' ⊆ Spec.BarotRates n lat u := by
  rintro x ⟨k, hk, lam, h, rfl⟩
  refine ⟨k, hk, lam, NormalMode.congr (fun i _ => (barotG_congr hn e i).symm) (fun i h1 h2 => (barotW_congr hn e h1 h2).symm)
    (fun i h1 h2 => (eu i h1 h2).symm) (fun i h1 h2 => ?_) h, rfl⟩
  have hin : Spec.inside n u = Spec.inside n u' := by
    funext j
    unfold Spec.inside
    split
    · rename_i hj; exact (eu j hj.1 hj.2).symm
    · rfl
  rw [Spec.barotQ, Spec.barotQ, e i h1 h2, hin]
  congr 1
  rw [Spec.lap, Spec.lap, barotG_congr hn e, barotG_congr hn e, barotW_congr hn e h1 h2]

/-- **C178** `barot_growth_rate(u, lat)` for at least three latitudes, listed from south to north within the poles, is the greatest growth rate
`Im lam` of the discrete normal modes over the 200 wavenumbers `0, 1e-7, .., 199e-7` per metre. -/
theorem C178_greatest {qz : Solver} (hq : Spec.Exact qz) {n : ℕ} (hn : 3 ≤ n) {lat : ℕ → ℝ} (h : Spec.Northward n lat) (u : ℕ → ℝ) :
    ∃ v, barotGrowth qz (Spec.array n u) (Spec.array n lat) 6371000 7.292e-5 = .ok (some v) ∧ IsGreatest (Spec.BarotRates n lat u) v := by
  rw [barot_call qz hn u lat (monotone_of_northward h), if_neg (not_lt.mpr (h.mono le_rfl (by omega) le_rfl))]
  have e := fun i (h1 : 1 ≤ i) (_ : i ≤ n) => arg_some n lat h1
  have eu := fun i (h1 : 1 ≤ i) (_ : i ≤ n) => arg_some n u h1
  obtain ⟨v, ev, hv⟩ := dbarot_value hq hn (northward_congr (by omega) h e) (arg fun i => some (u (i + 1)))
  refine ⟨v, by rw [ev]; rfl, barotRates_congr hn e eu hv.1, fun x hx => hv.2 (barotRates_congr hn (fun i h1 h2 => (e i h1 h2).symm)
    (fun i h1 h2 => (eu i h1 h2).symm) hx)⟩

theorem conj_mode {n : ℕ} {k : ℝ} {g w U Q : ℕ → ℝ} {lam : ℂ} (h : Spec.NormalMode n k g w U Q lam) :
    Spec.NormalMode n k g w U Q ((starRingEnd ℂ) lam) := by
  obtain ⟨psi, ⟨h0, hn⟩, ⟨j, j1, j2, hj⟩, h⟩ := h
  refine ⟨fun i => (starRingEnd ℂ) (psi i), ⟨by simp [h0], by simp [hn]⟩, ⟨j, j1, j2, by simpa using hj⟩, fun i h1 h2 => ?_⟩
  have e : Spec.lap g w (fun i => (starRingEnd ℂ) (psi i)) i = (starRingEnd ℂ) (Spec.lap g w psi i) := by
    simp only [Spec.lap, Complex.real_smul, map_mul, map_sub, Complex.conj_ofReal]
  have := congrArg (starRingEnd ℂ) (h i h1 h2)
  simp only [map_mul, map_sub, map_add, map_pow, Complex.conj_ofReal] at this
  rw [e]
  exact this

/-- **C179** The growth rate is never negative, and it is zero when the gradient of absolute vorticity has one sign (the criterion of Rayleigh and
Kuo, for the discrete operator). -/
theorem C179_rayleigh_kuo {qz : Solver} (hq : Spec.Exact qz) {n : ℕ} (hn : 3 ≤ n) {lat : ℕ → ℝ} (h : Spec.Northward n lat) (u : ℕ → ℝ) :
    ∃ v, barotGrowth qz (Spec.array n u) (Spec.array n lat) 6371000 7.292e-5 = .ok (some v) ∧ 0 ≤ v ∧
      ((∀ i, 1 ≤ i → i ≤ n → 0 ≤ Spec.barotQ n lat u i) ∨ (∀ i, 1 ≤ i → i ≤ n → Spec.barotQ n lat u i ≤ 0) → v = 0) := by
  obtain ⟨v, e, ⟨k, hk, lam, hl, hv⟩, hub⟩ := C178_greatest hq hn h u
  refine ⟨v, e, ?_, fun hQ => ?_⟩
  · have := hub ⟨k, hk, _, conj_mode hl, rfl⟩
    rw [Complex.conj_im] at this
    linarith
  · rw [hv]
    by_cases hk0 : k = 0
    · subst hk0
      obtain ⟨psi, ⟨h0, hn'⟩, ⟨j, j1, j2, hj⟩, hm⟩ := hl
      by_contra him
      have hlam : lam ≠ 0 := fun h => him (by rw [h]; rfl)
      refine hj (vorticity_injective (k := ((0 : ℕ) : ℝ) * 1e-7) (fun i h1 h2 => barotW_pos hn h h1 h2) (fun i _ => (barotG_pos hn h i).le)
        (Or.inr fun i _ => barotG_pos hn h i) h0 hn' (fun i h1 h2 => ?_) j j1 j2)
      have := hm i h1 h2
      have hz : (((((0 : ℕ) : ℝ) * 1e-7 : ℝ)) : ℂ) = 0 := by simp
      rw [hz] at this ⊢
      rw [zero_mul, zero_mul, zero_mul, zero_mul, add_zero] at this
      exact (mul_eq_zero.mp this).resolve_left hlam
    · exact no_growth (fun i h1 h2 => barotW_pos hn h h1 h2) (fun i _ => (barotG_pos hn h i).le)
        (mul_ne_zero (Nat.cast_ne_zero.mpr hk0) (by norm_num)) hQ hl

/-! ### Order of the latitudes -/

theorem solve_flip (qz : Solver) (n : ℕ) (U L : ℕ → Option ℝ) : barotSolve qz n (flip n U) (flip n L) = barotSolve qz n U L := by
  unfold barotSolve
  by_cases hnone : (∃ i, i < n ∧ U i = none) ∨ ∃ i, i < n ∧ L i = none
  · rw [if_pos hnone, if_pos (by rwa [none_flip, none_flip])]
  · rw [if_neg hnone, if_neg (by rwa [none_flip, none_flip])]
    by_cases hm : Monotone1 n L
    · rw [if_neg (show ¬ ¬ Monotone1 n L from not_not.mpr hm), if_neg (show ¬ ¬ Monotone1 n (flip n L) from not_not.mpr (monotone_flip hm))]
      by_cases h0 : n = 0
      · rw [if_pos h0, if_pos h0]
      · rw [if_neg h0, if_neg h0]
        have e0 : flip n L 0 = L (n - 1) := by unfold flip; rw [if_pos (by omega)]; rfl
        have e1 : flip n L (n - 1) = L 0 := by unfold flip; rw [if_pos (by omega)]; congr 1; omega
        rw [e0, e1, flip_flip, flip_flip]
        dsimp only
        by_cases h1 : n = 1
        · subst h1
          have : ∀ v : ℕ → Option ℝ, flip 1 v = v := by
            intro v; funext i; unfold flip
            by_cases hi : i < 1
            · rw [if_pos hi]; congr 1; omega
            · rw [if_neg hi]
          simp only [this, ite_self]
        · have hne := monotone_ends hm (by omega)
          by_cases hgt : (L 0).getD 0 > (L (n - 1)).getD 0
          · rw [if_pos hgt, if_pos hgt, if_neg (by linarith), if_neg (by linarith)]
          · have : (L (n - 1)).getD 0 > (L 0).getD 0 := lt_of_le_of_ne (not_lt.mp hgt) hne
            rw [if_neg hgt, if_neg hgt, if_pos this, if_pos this]
    · rw [if_pos hm, if_pos (show ¬ Monotone1 n (flip n L) from fun h => hm (monotone_flip_iff.mp h))]

/-- **C180** The order of the latitudes does not matter: `barot_growth_rate(u[::-1], lat[::-1])` is `barot_growth_rate(u, lat)`, for every two
arrays, whatever they hold. -/
theorem C180_order (qz : Solver) {n : ℕ} {u lat : NDArr (Option ℝ)} (hu : u.shape = [n]) (hl : lat.shape = [n]) (radius omega : ℝ) :
    barotGrowth qz (Spec.backwards n u) (Spec.backwards n lat) radius omega = barotGrowth qz u lat radius omega := by
  unfold barotGrowth
  by_cases hr : radius ≠ 6371000 ∨ omega ≠ 7.292e-5
  · rw [if_pos hr, if_pos hr]
  rw [if_neg hr, if_neg hr]
  have a1 : as1d u = .ok (n, fun i => u.get [i]) := by rw [as1d, hu]
  have a2 : as1d lat = .ok (n, fun i => lat.get [i]) := by rw [as1d, hl]
  have a3 : ∀ a, as1d (Spec.backwards n a) = .ok (n, flip n fun i => a.get [i]) := fun a => rfl
  rw [a1, a2, a3, a3]
  simp only [Except.bind, bind]
  rw [if_neg (show ¬ n ≠ n by simp), if_neg (show ¬ n ≠ n by simp)]
  exact solve_flip qz n _ _

/-! ### Hemispheres -/

theorem step_mirror {n : ℕ} {lat : ℕ → ℝ} {i : ℕ} (h1 : 1 ≤ i) (h2 : i + 1 ≤ n) : Spec.step (fun i => -lat (n + 1 - i)) i = Spec.step lat (n - i) := by
  simp only [Spec.step, Spec.metres]
  rw [show n + 1 - (i + 1) = n - i by omega, show n + 1 - i = n - i + 1 by omega, ← Real.cos_neg]
  congr 1
  · ring
  · congr 1; ring

theorem barotG_mirror {n : ℕ} (hn : 3 ≤ n) {lat : ℕ → ℝ} (i : ℕ) : Spec.barotG n (fun i => -lat (n + 1 - i)) i = Spec.barotG n lat (n - i) := by
  rw [Spec.barotG, Spec.barotG, step_mirror (by omega) (by omega)]
  congr 2
  omega

theorem barotW_mirror {n : ℕ} (hn : 3 ≤ n) {lat : ℕ → ℝ} {i : ℕ} (h1 : 1 ≤ i) (h2 : i ≤ n) :
    Spec.barotW n (fun i => -lat (n + 1 - i)) i = Spec.barotW n lat (n + 1 - i) := by
  unfold Spec.barotW
  by_cases e1 : i = 1
  · subst e1
    rw [if_pos rfl, if_neg (by omega), if_pos (by omega), step_mirror le_rfl (by omega)]
  · rw [if_neg e1]
    by_cases e2 : i = n
    · subst e2
      rw [if_pos rfl, if_pos (by omega), step_mirror (by omega) (by omega)]
      congr 1
      omega
    · rw [if_neg e2, if_neg (by omega), if_neg (by omega)]
      simp only [Spec.metres]
      rw [show n + 1 - (i + 1) = n + 1 - i - 1 by omega, show n + 1 - (i - 1) = n + 1 - i + 1 by omega]
      ring

theorem rates_mirror {n : ℕ} (hn : 3 ≤ n) {lat u : ℕ → ℝ} :
    Spec.BarotRates n lat u ⊆ Spec.BarotRates n (fun i => -lat (n + 1 - i)) (fun i => u (n + 1 - i)) := by
  rintro x ⟨k, hk, lam, h, rfl⟩
  refine ⟨k, hk, lam, NormalMode.congr (fun i _ => barotG_mirror hn i) (fun i h1 h2 => barotW_mirror hn h1 h2) (fun i _ _ => rfl) (fun i h1 h2 => ?_)
    (reversed h), rfl⟩
  rw [Spec.barotQ, Spec.barotQ]
  congr 1
  · congr 2
    rw [neg_mul, Real.cos_neg]
  · have hin : ∀ j, j ≤ n + 1 → Spec.inside n (fun i => u (n + 1 - i)) j = Spec.inside n u (n + 1 - j) := by
      intro j hj
      unfold Spec.inside
      by_cases e : 1 ≤ j ∧ j ≤ n
      · rw [if_pos e, if_pos (by omega)]
      · rw [if_neg e, if_neg (by omega)]
    rw [Spec.lap, Spec.lap, barotG_mirror hn, barotG_mirror hn, barotW_mirror hn h1 h2, hin i (by omega), hin (i + 1) (by omega), hin (i - 1) (by omega),
      show n + 1 - (i + 1) = n + 1 - i - 1 by omega, show n + 1 - (i - 1) = n + 1 - i + 1 by omega, show n - (i - 1) = n + 1 - i by omega,
      show n - i = n + 1 - i - 1 by omega]
    simp only [smul_eq_mul]
    ring

/-- **C180** The hemispheres are treated alike: the same wind at the mirrored latitudes has the same growth rate. -/
theorem C180_mirror {qz : Solver} (hq : Spec.Exact qz) {n : ℕ} (hn : 3 ≤ n) {lat : ℕ → ℝ} (h : Spec.Northward n lat) (u : ℕ → ℝ) :
    ∃ v, barotGrowth qz (Spec.array n u) (Spec.array n lat) 6371000 7.292e-5 = .ok (some v) ∧
      barotGrowth qz (Spec.array n u) (Spec.array n fun i => -lat i) 6371000 7.292e-5 = .ok (some v) := by
  obtain ⟨v, e, hv⟩ := C178_greatest hq hn h u
  refine ⟨v, e, ?_⟩
  have hlt : lat 1 < lat n := (h.inc 1 le_rfl (by omega)).trans_le (h.mono (by omega) (by omega) le_rfl)
  rw [barot_call qz hn u _ (Or.inr fun i hi => ⟨_, _, rfl, rfl, by have := h.inc (i + 1) (by omega) (by omega); linarith⟩),
    if_pos (by simpa using hlt)]
  have e1 : ∀ i, 1 ≤ i → i ≤ n → arg (flip n fun i => some (-lat (i + 1))) i = -lat (n + 1 - i) := by
    intro i h1 h2
    unfold arg flip
    rw [if_pos (by omega), Option.getD_some]
    congr 2; omega
  have e2 : ∀ i, 1 ≤ i → i ≤ n → arg (flip n fun i => some (u (i + 1))) i = u (n + 1 - i) := by
    intro i h1 h2
    unfold arg flip
    rw [if_pos (by omega), Option.getD_some]
    congr 1; omega
  have hN : Spec.Northward n (fun i => -lat (n + 1 - i)) := by
    refine ⟨fun i h1 h2 => ?_, ?_, ?_⟩
    · have := h.inc (n + 1 - (i + 1)) (by omega) (by omega)
      rw [show n + 1 - (i + 1) + 1 = n + 1 - i by omega] at this
      linarith
    · have := h.north
      simp only [Nat.add_sub_cancel]
      linarith
    · have := h.south
      simp only [Nat.add_sub_cancel_left]
      linarith
  obtain ⟨v', ev, hv'⟩ := dbarot_value hq hn (northward_congr (by omega) hN e1) (arg (flip n fun i => some (u (i + 1))))
  rw [ev]
  have s1 : Spec.BarotRates n lat u ⊆ Spec.BarotRates n (arg (flip n fun i => some (-lat (i + 1)))) (arg (flip n fun i => some (u (i + 1)))) :=
    (rates_mirror hn).trans (barotRates_congr hn (fun i h1 h2 => (e1 i h1 h2).symm) (fun i h1 h2 => (e2 i h1 h2).symm))
  have s2 : Spec.BarotRates n (arg (flip n fun i => some (-lat (i + 1)))) (arg (flip n fun i => some (u (i + 1)))) ⊆ Spec.BarotRates n lat u := by
    refine (barotRates_congr hn e1 e2).trans ((rates_mirror hn).trans (barotRates_congr hn (fun i h1 h2 => ?_) (fun i h1 h2 => ?_)))
    · rw [neg_neg]; congr 1; omega
    · congr 1; omega
  have : v' = v := le_antisymm (hv.2 (s2 hv'.1)) (hv'.2 (s1 hv.1))
  rw [this]; rfl

/-! ### A case -/

/-- Latitudes 30S, 0, 30N. -/
noncomputable def lat3 (i : ℕ) : ℝ := 30 * i - 60

theorem lat3_northward : Spec.Northward 3 lat3 := by
  refine ⟨fun i _ _ => ?_, ?_, ?_⟩
  · unfold lat3; push_cast; linarith
  · unfold lat3; norm_num
  · unfold lat3; norm_num

/-- C178, C179 and C180 apply to an exact solver and three latitudes. -/
example : ∃ v, barotGrowth rootSolver (Spec.array 3 fun i => 10 * i) (Spec.array 3 lat3) 6371000 7.292e-5 = .ok (some v) ∧
    IsGreatest (Spec.BarotRates 3 lat3 fun i => 10 * i) v :=
  C178_greatest rootSolver_exact le_rfl lat3_northward _

/-- An atmosphere at rest has growth rate zero. -/
theorem C179_rest {qz : Solver} (hq : Spec.Exact qz) {n : ℕ} (hn : 3 ≤ n) {lat : ℕ → ℝ} (h : Spec.Northward n lat) :
    barotGrowth qz (Spec.array n fun _ => 0) (Spec.array n lat) 6371000 7.292e-5 = .ok (some 0) := by
  obtain ⟨v, e, -, h0⟩ := C179_rayleigh_kuo hq hn h (fun _ => 0)
  rw [e, h0 (Or.inl fun i h1 h2 => ?_)]
  have : Spec.inside n (fun _ => (0 : ℝ)) = fun _ => 0 := by funext j; unfold Spec.inside; split <;> rfl
  rw [Spec.barotQ, this, Spec.lap]
  simp only [sub_self, smul_zero, sub_zero]
  refine div_nonneg (mul_nonneg (by norm_num) (Real.cos_nonneg_of_mem_Icc ⟨?_, ?_⟩)) (by norm_num)
  · have := h.mono le_rfl h1 h2
    have := h.south
    have hp := Real.pi_pos
    have : -90 * (Real.pi / 180) ≤ lat i * (Real.pi / 180) := mul_le_mul_of_nonneg_right (by linarith) (by positivity)
    linarith
  · have := h.mono h1 h2 le_rfl
    have := h.north
    have hp := Real.pi_pos
    have : lat i * (Real.pi / 180) ≤ 90 * (Real.pi / 180) := mul_le_mul_of_nonneg_right (by linarith) (by positivity)
    linarith

example : barotGrowth rootSolver (Spec.array 3 fun _ => 0) (Spec.array 3 lat3) 6371000 7.292e-5 = .ok (some 0) :=
  C179_rest rootSolver_exact le_rfl lat3_northward

/-! ### The second difference is not the documented derivative -/

/-- The claim: on fine grids the second difference of the kernel is the second derivative: for the parabola `(y - y0)²`, whose second derivative
is 2, and latitudes `phi - h, phi, phi + h`, it tends to 2 with the step. -/
def Spec.SecondDerivative : Prop :=
  ∀ phi : ℝ, |phi| < 90 → ∀ eps > 0, ∃ h0 > 0, ∀ h, 0 < h → h < h0 → ∀ lat : ℕ → ℝ, lat 1 = phi - h → lat 2 = phi → lat 3 = phi + h →
    |lap (barotG 3 lat) (barotW 3 lat) (fun i => (metres lat i - metres lat 2) ^ 2) 2 - 2| < eps

/-- **C178** It is not: at 60N it is at least 4 for every step up to 30 degrees (the kernel differentiates `psi' / cos lat`). -/
theorem C178_second_derivative_false : ¬ Spec.SecondDerivative := by
  intro hcl
  obtain ⟨h0, hpos, hh⟩ := hcl 60 (by rw [abs_of_pos] <;> norm_num) 1 one_pos
  obtain ⟨h, h1, h2, h3⟩ : ∃ h, 0 < h ∧ h < h0 ∧ h < 30 := ⟨min h0 30 / 2, by positivity, by
    have := min_le_left h0 30; have : 0 < min h0 30 := by positivity
    linarith, by have := min_le_right h0 30; have : 0 < min h0 30 := by positivity
                 linarith⟩
  have key := hh h h1 h2 (fun i => 60 - 2 * h + i * h) (by push_cast; ring) (by push_cast; ring) (by push_cast; ring)
  set lat : ℕ → ℝ := fun i => 60 - 2 * h + i * h with hlat
  have hp := Real.pi_pos
  set d := 6.371e6 * (h * (Real.pi / 180)) with hd
  have hdpos : 0 < d := by positivity
  have m1 : Spec.metres lat 1 - Spec.metres lat 2 = -d := by simp only [Spec.metres, hlat, hd]; push_cast; ring
  have m3 : Spec.metres lat 3 - Spec.metres lat 2 = d := by simp only [Spec.metres, hlat, hd]; push_cast; ring
  set a := Real.cos ((60 - h / 2) * (Real.pi / 180)) with ha
  set b := Real.cos ((60 + h / 2) * (Real.pi / 180)) with hb
  have s1 : Spec.step lat 1 = d * a := by
    rw [Spec.step, show Spec.metres lat (1 + 1) - Spec.metres lat 1 = d by linarith, ha]
    congr 2; simp only [hlat]; push_cast; ring
  have s2 : Spec.step lat 2 = d * b := by
    rw [Spec.step, show Spec.metres lat (2 + 1) - Spec.metres lat 2 = d by linarith, hb]
    congr 2; simp only [hlat]; push_cast; ring
  have hapos : 0 < a := Real.cos_pos_of_mem_Ioo ⟨by nlinarith, by nlinarith⟩
  have hbpos : 0 < b := Real.cos_pos_of_mem_Ioo ⟨by nlinarith, by nlinarith⟩
  have val : Spec.lap (Spec.barotG 3 lat) (Spec.barotW 3 lat) (fun i => (Spec.metres lat i - Spec.metres lat 2) ^ 2) 2 = 1 / a + 1 / b := by
    rw [Spec.lap, Spec.barotG, Spec.barotG, Spec.barotW, if_neg (by norm_num), if_neg (by norm_num)]
    simp only [smul_eq_mul]
    norm_num only [show max 1 (min 2 (3 - 1)) = 2 by decide, show max 1 (min (2 - 1) (3 - 1)) = 1 by decide]
    rw [s1, s2, m3, m1, show Spec.metres lat 3 - Spec.metres lat 1 = 2 * d by linarith]
    field_simp
    ring
  rw [val] at key
  -- the sum of the two cosines is `cos (h / 2)`
  have hsum : a + b = Real.cos (h / 2 * (Real.pi / 180)) := by
    rw [ha, hb, show (60 - h / 2) * (Real.pi / 180) = Real.pi / 3 - h / 2 * (Real.pi / 180) by ring,
      show (60 + h / 2) * (Real.pi / 180) = Real.pi / 3 + h / 2 * (Real.pi / 180) by ring, Real.cos_sub, Real.cos_add, Real.cos_pi_div_three]
    ring
  have hle : a + b ≤ 1 := hsum ▸ Real.cos_le_one _
  have hge : 4 ≤ 1 / a + 1 / b := by
    rw [div_add_div _ _ hapos.ne' hbpos.ne', le_div_iff₀ (by positivity)]
    nlinarith [sq_nonneg (a - b)]
  rw [abs_lt] at key
  linarith [key.2]

end Skyborn.Growth
