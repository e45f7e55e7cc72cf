/-
C36, C61: bilinear regridding.
-/
import Verif.Regrid.BilinLemmas

namespace Skyborn.Regrid

open Skyborn

variable {K : Type} [Field K] [LinearOrder K] [IsStrictOrderedRing K]

/-! ### One axis -/

/-- The value at the bracket as a function on the axis does not depend on the bracket chosen. -/
theorem bracket_unique {n : ℕ} {x : ℕ → K} (hx : Spec.StrictInc n x) {t : K} {l r l' r' : ℕ} {a a' : K} (h : Spec.Bracket n x t l r a)
    (h' : Spec.Bracket n x t l' r' a') (f : ℕ → K) : (1 - a) * f l + a * f r = (1 - a') * f l' + a' * f r' := by
  obtain ⟨h1, h2, h3, h4, h5⟩ := h
  obtain ⟨g1, g2, g3, g4, g5⟩ := h'
  rw [← g5] at h5
  rcases h2 with rfl | ⟨hn, rfl, rfl⟩
  · rcases g2 with rfl | ⟨hn, rfl, rfl⟩
    · have d1 : 0 < x (l + 1) - x l := sub_pos.mpr (hx l (l + 1) (by omega) h1)
      have d2 : 0 < x (l' + 1) - x l' := sub_pos.mpr (hx l' (l' + 1) (by omega) g1)
      have mono : ∀ i j, i ≤ j → j < n → x i ≤ x j := by
        intro i j hij hj
        rcases Nat.lt_or_ge i j with h | h
        · exact (hx i j h hj).le
        · rw [show i = j by omega]
      rcases Nat.lt_trichotomy l l' with hl | hl | hl
      · have := mono (l + 1) l' (by omega) (by omega)
        have e1 : a * (x (l + 1) - x l) ≤ 1 * (x (l + 1) - x l) := mul_le_mul_of_nonneg_right h4 d1.le
        have e2 : 0 ≤ a' * (x (l' + 1) - x l') := mul_nonneg g3 d2.le
        have e3 : a' * (x (l' + 1) - x l') = 0 := by linarith
        have e4 : a * (x (l + 1) - x l) = 1 * (x (l + 1) - x l) := by linarith
        have a1 : a = 1 := mul_right_cancel₀ d1.ne' e4
        have a2 : a' = 0 := (mul_eq_zero.mp e3).resolve_right d2.ne'
        have e5 : x (l + 1) = x l' := by rw [a1, a2] at h5; linarith
        have : l + 1 = l' := by
          by_contra hne
          have := hx (l + 1) l' (by omega) (by omega)
          linarith
        rw [a1, a2, this]; ring
      · subst hl
        have : a = a' := mul_right_cancel₀ d1.ne' (by linarith : a * (x (l + 1) - x l) = a' * (x (l + 1) - x l))
        rw [this]
      · have := mono (l' + 1) l (by omega) (by omega)
        have e1 : a' * (x (l' + 1) - x l') ≤ 1 * (x (l' + 1) - x l') := mul_le_mul_of_nonneg_right g4 d2.le
        have e2 : 0 ≤ a * (x (l + 1) - x l) := mul_nonneg h3 d1.le
        have e3 : a * (x (l + 1) - x l) = 0 := by linarith
        have e4 : a' * (x (l' + 1) - x l') = 1 * (x (l' + 1) - x l') := by linarith
        have a1 : a' = 1 := mul_right_cancel₀ d2.ne' e4
        have a2 : a = 0 := (mul_eq_zero.mp e3).resolve_right d1.ne'
        have e5 : x (l' + 1) = x l := by rw [a1, a2] at h5; linarith
        have : l' + 1 = l := by
          by_contra hne
          have := hx (l' + 1) l (by omega) (by omega)
          linarith
        rw [a1, a2, this]; ring
    · omega
  · rcases g2 with rfl | ⟨-, rfl, rfl⟩
    · omega
    · ring

/-- A point of the axis is a bracket with fraction 0 or 1. -/
theorem bracket_knot {n : ℕ} {x : ℕ → K} (hx : Spec.StrictInc n x) {k l r : ℕ} {a : K} (hk : k < n) (h : Spec.Bracket n x (x k) l r a)
    (f : ℕ → K) : (1 - a) * f l + a * f r = f k := by
  have mono : ∀ i j, i ≤ j → j < n → x i ≤ x j := by
    intro i j hij hj
    rcases Nat.lt_or_ge i j with h | h
    · exact (hx i j h hj).le
    · rw [show i = j by omega]
  have hc : max (x 0) (min (x (n - 1)) (x k)) = x k := by
    rw [min_eq_right (mono k (n - 1) (by omega) (by omega)), max_eq_right (mono 0 k (by omega) hk)]
  rcases Nat.lt_or_ge (k + 1) n with h1 | h1
  · have h' : Spec.Bracket n x (x k) k (k + 1) 0 := ⟨h1, Or.inl rfl, le_rfl, zero_le_one, by rw [hc]; ring⟩
    rw [bracket_unique hx h h' f]; ring
  · rcases Nat.eq_zero_or_pos k with h0 | h0
    · have h' : Spec.Bracket n x (x k) 0 0 0 := ⟨by omega, Or.inr ⟨by omega, rfl, rfl⟩, le_rfl, zero_le_one, by rw [hc, h0]; ring⟩
      rw [bracket_unique hx h h' f, h0]; ring
    · have h' : Spec.Bracket n x (x k) (k - 1) k 1 := ⟨hk, Or.inl (by omega), zero_le_one, le_rfl, by rw [hc]; ring⟩
      rw [bracket_unique hx h h' f]; ring

theorem Bilinear.unique {n m : ℕ} {x y : ℕ → K} (hx : Spec.StrictInc n x) (hy : Spec.StrictInc m y) {f : ℕ → ℕ → K} {s t v v' : K}
    (h : Spec.Bilinear n m x y f s t v) (h' : Spec.Bilinear n m x y f s t v') : v = v' := by
  obtain ⟨l, r, a, p, q, b, h1, h2, rfl⟩ := h
  obtain ⟨l', r', a', p', q', b', g1, g2, rfl⟩ := h'
  have e1 := bracket_unique hy h2 g2 fun d => (1 - a) * f l d + a * f r d
  have e2 : ∀ d, (1 - a) * f l d + a * f r d = (1 - a') * f l' d + a' * f r' d := fun d => bracket_unique hx h1 g1 fun c => f c d
  calc _ = (1 - b) * ((1 - a) * f l p + a * f r p) + b * ((1 - a) * f l q + a * f r q) := by ring
    _ = (1 - b') * ((1 - a) * f l p' + a * f r p') + b' * ((1 - a) * f l q' + a * f r q') := e1
    _ = _ := by rw [e2, e2]; ring

/-- The corners of a bilinear interpolation bound it. -/
theorem Bilinear.range {n m : ℕ} {x y : ℕ → K} {f : ℕ → ℕ → K} {s t v lo hi : K} (h : Spec.Bilinear n m x y f s t v)
    (hf : ∀ c d, c < n → d < m → lo ≤ f c d ∧ f c d ≤ hi) : lo ≤ v ∧ v ≤ hi := by
  obtain ⟨l, r, a, p, q, b, ⟨h1, h2, h3, h4, -⟩, ⟨g1, g2, g3, g4, -⟩, rfl⟩ := h
  have hl : l < n := by omega
  have hp : p < m := by omega
  have f1 := hf l p hl hp
  have f2 := hf r p h1 hp
  have f3 := hf l q hl g1
  have f4 := hf r q h1 g1
  have a' : 0 ≤ 1 - a := by linarith
  have b' : 0 ≤ 1 - b := by linarith
  have m1 := mul_nonneg a' b'
  have m2 := mul_nonneg h3 b'
  have m3 := mul_nonneg a' g3
  have m4 := mul_nonneg h3 g3
  constructor
  · have := mul_le_mul_of_nonneg_left f1.1 m1
    have := mul_le_mul_of_nonneg_left f2.1 m2
    have := mul_le_mul_of_nonneg_left f3.1 m3
    have := mul_le_mul_of_nonneg_left f4.1 m4
    have : lo = (1 - a) * (1 - b) * lo + a * (1 - b) * lo + (1 - a) * b * lo + a * b * lo := by ring
    linarith
  · have := mul_le_mul_of_nonneg_left f1.2 m1
    have := mul_le_mul_of_nonneg_left f2.2 m2
    have := mul_le_mul_of_nonneg_left f3.2 m3
    have := mul_le_mul_of_nonneg_left f4.2 m4
    have : hi = (1 - a) * (1 - b) * hi + a * (1 - b) * hi + (1 - a) * b * hi + a * b * hi := by ring
    linarith

/-! ### np.interp -/

theorem npInterp_spec {n : ℕ} (hn : 1 ≤ n) {x : ℕ → K} (hx : Spec.StrictInc n x) {fp : ℕ → Option K} {f : ℕ → K}
    (hf : ∀ i, i < n → fp i = some (f i)) (t : K) :
    ∃ l r a, Spec.Bracket n x t l r a ∧ npInterp n x fp t = some ((1 - a) * f l + a * f r) := by
  rcases Nat.lt_or_ge 1 n with hn1 | hn1
  · have h01 : x 0 < x (n - 1) := hx 0 (n - 1) (by omega) (by omega)
    unfold npInterp
    by_cases h1 : t ≤ x 0
    · refine ⟨0, 1, 0, ⟨by omega, Or.inl rfl, le_rfl, zero_le_one, ?_⟩, ?_⟩
      · rw [min_eq_right (h1.trans h01.le), max_eq_left h1]; ring
      · rw [if_pos h1, hf 0 (by omega)]; congr 1; ring
    · rw [if_neg h1]
      by_cases h2 : t ≥ x (n - 1)
      · refine ⟨n - 2, n - 1, 1, ⟨by omega, Or.inl (by omega), zero_le_one, le_rfl, ?_⟩, ?_⟩
        · rw [min_eq_left h2, max_eq_right h01.le]; ring
        · rw [if_pos h2, hf (n - 1) (by omega)]; congr 1; ring
      · rw [if_neg h2]
        push Not at h1 h2
        dsimp only
        obtain ⟨j, hj⟩ : ∃ j, j = Nat.findGreatest (fun j => x j ≤ t) (n - 2) := ⟨_, rfl⟩
        rw [← hj]
        have hjn : j ≤ n - 2 := by rw [hj]; exact Nat.findGreatest_le _
        have hjx : x j ≤ t := by
          rw [hj]
          exact Nat.findGreatest_spec (P := fun j => x j ≤ t) (m := 0) (Nat.zero_le _) h1.le
        have hj1 : t < x (j + 1) := by
          by_contra hc
          push Not at hc
          rcases Nat.lt_or_ge (n - 2) (j + 1) with g | g
          · rw [show j + 1 = n - 1 by omega] at hc
            exact absurd hc (not_le.mpr h2)
          · have := Nat.le_findGreatest (P := fun j => x j ≤ t) g hc
            omega
        have hd : 0 < x (j + 1) - x j := by linarith
        by_cases he : t = x j
        · refine ⟨j, j + 1, 0, ⟨by omega, Or.inl rfl, le_rfl, zero_le_one, ?_⟩, ?_⟩
          · rw [min_eq_right h2.le, max_eq_right h1.le, he]; ring
          · rw [if_pos he, hf j (by omega)]; congr 1; ring
        · refine ⟨j, j + 1, (t - x j) / (x (j + 1) - x j), ⟨by omega, Or.inl rfl, div_nonneg (by linarith) hd.le, ?_, ?_⟩, ?_⟩
          · rw [div_le_one hd]; linarith
          · rw [min_eq_right h2.le, max_eq_right h1.le]; field_simp; ring
          · rw [if_neg he, hf j (by omega), hf (j + 1) (by omega)]
            simp only [lerp, Option.bind_some, Option.map_some]
            congr 1; ring
  · have : n = 1 := by omega
    subst this
    refine ⟨0, 0, 0, ⟨by omega, Or.inr ⟨rfl, rfl, rfl⟩, le_rfl, zero_le_one, ?_⟩, ?_⟩
    · rw [Nat.sub_self, max_eq_left (min_le_left _ _)]; ring
    · unfold npInterp
      rw [Nat.sub_self, hf 0 (by omega)]
      have : (1 - 0) * f 0 + 0 * f 0 = f 0 := by ring
      rw [this]
      split
      · rfl
      · rw [if_pos (le_of_lt (not_le.mp ‹_›))]

/-! ### The regridder -/

theorem pyStrictInc_iff {n : ℕ} {x : ℕ → K} : pyStrictInc n x = true ↔ Spec.StrictInc n x := by
  unfold pyStrictInc
  rw [List.all_eq_true]
  constructor
  · intro h
    apply strictInc_of_adj
    intro i h1 h2
    have := h (i - 1) (by rw [List.mem_range]; omega)
    rw [decide_eq_true_eq, show i - 1 + 1 = i by omega] at this
    linarith
  · intro h i hi
    rw [List.mem_range] at hi
    rw [decide_eq_true_eq]
    have := h i (i + 1) (by omega) (by omega)
    linarith

theorem supportsNative_iff {src tgt : Grid K} : supportsNative src tgt = true ↔ 1 < src.nlon ∧ 1 < src.nlat ∧ 0 < tgt.nlon ∧
    0 < tgt.nlat ∧ Spec.StrictInc src.nlon src.lon ∧ Spec.StrictInc src.nlat src.lat ∧ Spec.StrictInc tgt.nlon tgt.lon ∧
    Spec.StrictInc tgt.nlat tgt.lat := by
  unfold supportsNative
  simp only [Bool.and_eq_true, decide_eq_true_eq, pyStrictInc_iff]
  tauto

/-- The compiled path, for any field: what every output element is. -/
theorem native_spec {src tgt : Grid K} (hn : supportsNative src tgt = true) {field : NDArr (Option K)} {s : List ℕ}
    (hshape : field.shape = s ++ [src.nlon, src.nlat]) :
    ∃ R, bilinearRegrid src tgt field = .ok R ∧ R.shape = s ++ [tgt.nlon, tgt.nlat] ∧
      ∀ l i j, InB s l → i < tgt.nlon → j < tgt.nlat → PointSpec src.nlon src.nlat src.lon src.lat
        (fun c d => field.get (l ++ [c, d])) (tgt.lon i) (tgt.lat j) (R.get (l ++ [i, j])) := by
  have hlead : lead field = s := by
    unfold lead; rw [hshape]; simp
  have htrail : trail field = [src.nlon, src.nlat] := by
    unfold trail; rw [hshape]; simp
  obtain ⟨n1, n2, n3, n4, i1, i2, i3, i4⟩ := supportsNative_iff.mp hn
  obtain ⟨st, e, out, hst, h⟩ := forM_inv (Nat.zero_le s.prod) (s := (some fun _ => none : Option (ℕ → Option K)))
    (f := fun o (st : Option (ℕ → Option K)) => match st with
        | none => some none
        | some out => bilinearCore (s.prod * (src.nlon * src.nlat)) (o * (src.nlon * src.nlat)) (s.prod * (tgt.nlon * tgt.nlat))
            (o * (tgt.nlon * tgt.nlat)) src.nlon src.nlat (NDArr.buf field) src.lon src.lat tgt.nlon tgt.nlat tgt.lon tgt.lat out)
    (fun r st => ∃ out, st = some out ∧ ∀ o i j, o < r → i < tgt.nlon → j < tgt.nlat →
      PointSpec src.nlon src.nlat src.lon src.lat (fun c d => NDArr.buf field (o * (src.nlon * src.nlat) + (c * src.nlat + d)))
        (tgt.lon i) (tgt.lat j) (out (o * (tgt.nlon * tgt.nlat) + (i * tgt.nlat + j))))
    ⟨_, rfl, by intro o i j h; omega⟩
    (by
      rintro r st - hr ⟨out, rfl, h⟩
      have hs : ∀ n : ℕ, r * n + n ≤ s.prod * n := by
        intro n
        calc r * n + n = (r + 1) * n := by ring
          _ ≤ s.prod * n := Nat.mul_le_mul_right n hr
      obtain ⟨out', e', h1, h2⟩ := bilinearCore_spec (fsize := s.prod * (src.nlon * src.nlat)) (foff := r * (src.nlon * src.nlat))
        (osize := s.prod * (tgt.nlon * tgt.nlat)) (ooff := r * (tgt.nlon * tgt.nlat)) (field := NDArr.buf field) (tgtLon := tgt.lon)
        (tgtLat := tgt.lat) n1.le n2.le i1 i2 (hs _) (hs _) out
      refine ⟨_, e', out', rfl, ?_⟩
      intro o i j ho hi hj
      rcases Nat.lt_succ_iff_lt_or_eq.mp ho with g | g
      · rw [h2]
        · exact h o i j g hi hj
        · intro i' j' hi' hj' e
          have := flat_inj (flat_lt hi' hj') (flat_lt hi hj) e
          omega
      · subst g
        exact h1 i j hi hj)
  subst hst
  refine ⟨NDArr.ofBuf (s ++ [tgt.nlon, tgt.nlat]) out, ?_, rfl, ?_⟩
  · unfold bilinearRegrid bilinearNative
    rw [if_neg (by simp [htrail]), if_pos hn, if_neg (by omega), isStrictlyIncreasing_true i1, isStrictlyIncreasing_true i2,
      isStrictlyIncreasing_true i3, isStrictlyIncreasing_true i4, hlead]
    simp only [run, bind, Except.bind, pure, Except.pure, Bool.and_self, if_true]
    generalize hz : forM 0 s.prod (some fun _ => none : Option (ℕ → Option K)) _ = z
    have hz' : z = some (some out) := hz.symm.trans e
    rw [hz']
  · intro l i j hl hi hj
    rw [ofBuf_slice out hl]
    obtain ⟨l', r, a, p, q, b, hl', hp, h1, h2, h3⟩ := h _ i j (ravel_lt hl) hi hj
    refine ⟨l', r, a, p, q, b, hl', hp, h1, h2, ?_⟩
    rw [h3]
    beta_reduce
    have eb : ∀ c d, c < src.nlon → d < src.nlat →
        NDArr.buf field (ravel s l * (src.nlon * src.nlat) + (c * src.nlat + d)) = field.get (l ++ [c, d]) := by
      intro c d hc hd
      have := buf_slice htrail (l := l) (by rw [hlead]; exact hl) hc hd
      rw [hlead] at this
      exact this
    rw [eb l' p hl' hp, eb r p h1.1 hp, eb l' q hl' h2.1, eb r q h1.1 h2.1]

theorem fallback_spec {src tgt : Grid K} (hn : ¬ supportsNative src tgt = true) (p1 : 0 < src.nlon) (p2 : 0 < src.nlat)
    (i1 : Spec.StrictInc src.nlon src.lon) (i2 : Spec.StrictInc src.nlat src.lat) {field : NDArr (Option K)} {s : List ℕ}
    (hshape : field.shape = s ++ [src.nlon, src.nlat]) :
    ∃ R, bilinearRegrid src tgt field = .ok R ∧ R.shape = s ++ [tgt.nlon, tgt.nlat] ∧
      ∀ l, InB s l → ∀ f : ℕ → ℕ → K, (∀ c d, c < src.nlon → d < src.nlat → field.get (l ++ [c, d]) = some (f c d)) →
        ∀ i j, i < tgt.nlon → j < tgt.nlat →
          ∃ v, R.get (l ++ [i, j]) = some v ∧ Spec.Bilinear src.nlon src.nlat src.lon src.lat f (tgt.lon i) (tgt.lat j) v := by
  have hlead : lead field = s := by
    unfold lead; rw [hshape]; simp
  have htrail : trail field = [src.nlon, src.nlat] := by
    unfold trail; rw [hshape]; simp
  unfold bilinearRegrid
  rw [if_neg (by simp [htrail]), if_neg hn, if_neg (by omega), hlead]
  refine ⟨_, rfl, rfl, ?_⟩
  intro l hl f hf i j hi hj
  dsimp only
  have t1 : (l ++ [i, j]).take s.length = l := by rw [← hl.length]; simp
  have t2 : (l ++ [i, j]).getD s.length 0 = i := by rw [← hl.length]; simp
  have t3 : (l ++ [i, j]).getD (s.length + 1) 0 = j := by rw [← hl.length]; simp
  rw [t1, t2, t3]
  unfold bilinearPy
  rw [if_neg (by omega)]
  dsimp only
  choose! g hg using fun c (hc : c < src.nlon) => npInterp_spec (show 1 ≤ src.nlat by omega) i2
    (fp := fun d => field.get (l ++ [c, d])) (f := f c) (fun d hd => hf c d hc hd) (tgt.lat j)
  choose! r' a' hb hv using hg
  obtain ⟨L, R, a, hB, e⟩ := npInterp_spec (show 1 ≤ src.nlon by omega) i1
    (fp := fun c => npInterp src.nlat src.lat (fun d => field.get (l ++ [c, d])) (tgt.lat j))
    (f := fun c => (1 - a' c) * f c (g c) + a' c * f c (r' c)) (fun c hc => hv c hc) (tgt.lon i)
  refine ⟨_, e, L, R, a, g L, r' L, a' L, hB, hb L (by have := hB.1; have := hB.2.1; omega), ?_⟩
  have hR := hB.1
  have hL : L < src.nlon := by have := hB.2.1; omega
  rw [bracket_unique i2 (hb R hR) (hb L hL) (f R)]
  ring

/-- C36: with strictly increasing source axes and any target axes (in any order), the result at every target point of every
slice without missing values is present and is the bilinear interpolation of the surrounding source values - on the compiled
path as on the np.interp fallback. -/
theorem C36_bilinear {src tgt : Grid K} (p1 : 0 < src.nlon) (p2 : 0 < src.nlat) (i1 : Spec.StrictInc src.nlon src.lon)
    (i2 : Spec.StrictInc src.nlat src.lat) {field : NDArr (Option K)} {s : List ℕ} (hshape : field.shape = s ++ [src.nlon, src.nlat]) :
    ∃ R, bilinearRegrid src tgt field = .ok R ∧ R.shape = s ++ [tgt.nlon, tgt.nlat] ∧
      ∀ l, InB s l → ∀ f : ℕ → ℕ → K, (∀ c d, c < src.nlon → d < src.nlat → field.get (l ++ [c, d]) = some (f c d)) →
        ∀ i j, i < tgt.nlon → j < tgt.nlat →
          ∃ v, R.get (l ++ [i, j]) = some v ∧ Spec.Bilinear src.nlon src.nlat src.lon src.lat f (tgt.lon i) (tgt.lat j) v := by
  by_cases hn : supportsNative src tgt = true
  · obtain ⟨R, e, hs, h⟩ := native_spec hn hshape
    refine ⟨R, e, hs, ?_⟩
    intro l hl f hf i j hi hj
    obtain ⟨L, r, a, p, q, b, hL, hp, h1, h2, h3⟩ := h l i j hl hi hj
    beta_reduce at h3
    rw [hf L p hL hp, hf r p h1.1 hp, hf L q hL h2.1, hf r q h1.1 h2.1] at h3
    simp only [lerp, Option.bind_some, Option.map_some] at h3
    exact ⟨_, h3, L, r, a, p, q, b, h1, h2, by ring⟩
  · exact fallback_spec hn p1 p2 i1 i2 hshape

/-- C36: the interpolated value lies between any bounds of the values of its slice. -/
theorem C36_range {src tgt : Grid K} (p1 : 0 < src.nlon) (p2 : 0 < src.nlat) (i1 : Spec.StrictInc src.nlon src.lon)
    (i2 : Spec.StrictInc src.nlat src.lat) {field : NDArr (Option K)} {s : List ℕ} (hshape : field.shape = s ++ [src.nlon, src.nlat])
    {R : NDArr (Option K)} (e : bilinearRegrid src tgt field = .ok R) {l : List ℕ} (hl : InB s l) {f : ℕ → ℕ → K}
    (hf : ∀ c d, c < src.nlon → d < src.nlat → field.get (l ++ [c, d]) = some (f c d)) {lo hi : K}
    (hb : ∀ c d, c < src.nlon → d < src.nlat → lo ≤ f c d ∧ f c d ≤ hi) {i j : ℕ} (hi' : i < tgt.nlon) (hj : j < tgt.nlat) :
    ∃ v, R.get (l ++ [i, j]) = some v ∧ lo ≤ v ∧ v ≤ hi := by
  obtain ⟨R', e', -, h⟩ := C36_bilinear (tgt := tgt) p1 p2 i1 i2 hshape
  rw [e] at e'
  obtain rfl : R = R' := by injection e'
  obtain ⟨v, hv, hB⟩ := h l hl f hf i j hi' hj
  exact ⟨v, hv, Bilinear.range hB hb⟩

/-- C36: at a target point coinciding with a source point the source value is returned. -/
theorem C36_exact {src tgt : Grid K} (p1 : 0 < src.nlon) (p2 : 0 < src.nlat) (i1 : Spec.StrictInc src.nlon src.lon)
    (i2 : Spec.StrictInc src.nlat src.lat) {field : NDArr (Option K)} {s : List ℕ} (hshape : field.shape = s ++ [src.nlon, src.nlat])
    {R : NDArr (Option K)} (e : bilinearRegrid src tgt field = .ok R) {l : List ℕ} (hl : InB s l) {f : ℕ → ℕ → K}
    (hf : ∀ c d, c < src.nlon → d < src.nlat → field.get (l ++ [c, d]) = some (f c d)) {i j c d : ℕ} (hi : i < tgt.nlon)
    (hj : j < tgt.nlat) (hc : c < src.nlon) (hd : d < src.nlat) (h1 : tgt.lon i = src.lon c) (h2 : tgt.lat j = src.lat d) :
    R.get (l ++ [i, j]) = some (f c d) := by
  obtain ⟨R', e', -, h⟩ := C36_bilinear (tgt := tgt) p1 p2 i1 i2 hshape
  rw [e] at e'
  obtain rfl : R = R' := by injection e'
  obtain ⟨v, hv, L, r, a, p, q, b, b1, b2, rfl⟩ := h l hl f hf i j hi hj
  rw [hv]
  congr 1
  rw [h1] at b1
  rw [h2] at b2
  have k1 := bracket_knot i1 hc b1 fun c => f c p
  have k2 := bracket_knot i1 hc b1 fun c => f c q
  have k3 := bracket_knot i2 hd b2 fun d => f c d
  rw [← k3, ← k1, ← k2]; ring

/-- C36: a field `A + B lon + C lat + D lon lat` is reproduced at every target point (beyond the ends of the axes: at the
nearest point of the source range). -/
theorem C36_reproduces {src tgt : Grid K} (p1 : 0 < src.nlon) (p2 : 0 < src.nlat) (i1 : Spec.StrictInc src.nlon src.lon)
    (i2 : Spec.StrictInc src.nlat src.lat) {field : NDArr (Option K)} {s : List ℕ} (hshape : field.shape = s ++ [src.nlon, src.nlat])
    {R : NDArr (Option K)} (e : bilinearRegrid src tgt field = .ok R) {l : List ℕ} (hl : InB s l) {A B C D : K}
    (hf : ∀ c d, c < src.nlon → d < src.nlat →
      field.get (l ++ [c, d]) = some (A + B * src.lon c + C * src.lat d + D * (src.lon c * src.lat d)))
    {i j : ℕ} (hi : i < tgt.nlon) (hj : j < tgt.nlat) :
    R.get (l ++ [i, j]) =
      (let x := max (src.lon 0) (min (src.lon (src.nlon - 1)) (tgt.lon i))
       let y := max (src.lat 0) (min (src.lat (src.nlat - 1)) (tgt.lat j))
       some (A + B * x + C * y + D * (x * y))) := by
  obtain ⟨R', e', -, h⟩ := C36_bilinear (tgt := tgt) p1 p2 i1 i2 hshape
  rw [e] at e'
  obtain rfl : R = R' := by injection e'
  obtain ⟨v, hv, L, r, a, p, q, b, b1, b2, rfl⟩ := h l hl _ hf i j hi hj
  rw [hv]
  dsimp only
  rw [← b1.2.2.2.2, ← b2.2.2.2.2]
  congr 1
  ring

/-- C36: linearity in the field. -/
theorem C36_linear {src tgt : Grid K} (p1 : 0 < src.nlon) (p2 : 0 < src.nlat) (i1 : Spec.StrictInc src.nlon src.lon)
    (i2 : Spec.StrictInc src.nlat src.lat) {field field' field'' : NDArr (Option K)} {s : List ℕ}
    (hs : field.shape = s ++ [src.nlon, src.nlat]) (hs' : field'.shape = s ++ [src.nlon, src.nlat])
    (hs'' : field''.shape = s ++ [src.nlon, src.nlat]) {R R' R'' : NDArr (Option K)} (e : bilinearRegrid src tgt field = .ok R)
    (e' : bilinearRegrid src tgt field' = .ok R') (e'' : bilinearRegrid src tgt field'' = .ok R'') {l : List ℕ} (hl : InB s l)
    {f f' : ℕ → ℕ → K} {k k' : K} (hf : ∀ c d, c < src.nlon → d < src.nlat → field.get (l ++ [c, d]) = some (f c d))
    (hf' : ∀ c d, c < src.nlon → d < src.nlat → field'.get (l ++ [c, d]) = some (f' c d))
    (hf'' : ∀ c d, c < src.nlon → d < src.nlat → field''.get (l ++ [c, d]) = some (k * f c d + k' * f' c d))
    {i j : ℕ} (hi : i < tgt.nlon) (hj : j < tgt.nlat) :
    ∃ v v', R.get (l ++ [i, j]) = some v ∧ R'.get (l ++ [i, j]) = some v' ∧ R''.get (l ++ [i, j]) = some (k * v + k' * v') := by
  obtain ⟨Q, q1, -, h⟩ := C36_bilinear (tgt := tgt) p1 p2 i1 i2 hs
  obtain ⟨Q', q1', -, h'⟩ := C36_bilinear (tgt := tgt) p1 p2 i1 i2 hs'
  obtain ⟨Q'', q1'', -, h''⟩ := C36_bilinear (tgt := tgt) p1 p2 i1 i2 hs''
  rw [e] at q1; rw [e'] at q1'; rw [e''] at q1''
  obtain rfl : R = Q := by injection q1
  obtain rfl : R' = Q' := by injection q1'
  obtain rfl : R'' = Q'' := by injection q1''
  obtain ⟨v, hv, b⟩ := h l hl f hf i j hi hj
  obtain ⟨v', hv', b'⟩ := h' l hl f' hf' i j hi hj
  obtain ⟨v'', hv'', b''⟩ := h'' l hl _ hf'' i j hi hj
  refine ⟨v, v', hv, hv', ?_⟩
  rw [hv'']
  congr 1
  obtain ⟨L, r, a, p, q, c, g1, g2, rfl⟩ := b''
  have := Bilinear.unique i1 i2 b ⟨L, r, a, p, q, c, g1, g2, rfl⟩
  have := Bilinear.unique i1 i2 b' ⟨L, r, a, p, q, c, g1, g2, rfl⟩
  subst v v'
  ring

/-- C36: fields whose trailing axes do not match the source grid are refused. -/
theorem C36_rejected {src tgt : Grid K} {field : NDArr (Option K)} (h : trail field ≠ [src.nlon, src.nlat]) :
    bilinearRegrid src tgt field = .error .valueError := by
  unfold bilinearRegrid; rw [if_pos h]

/-- C36: missing values on the compiled path: the result at a target point is missing exactly when one of the four corners of
the cell used for it is missing (even a corner with weight 0). -/
theorem C36_missing {src tgt : Grid K} (hn : supportsNative src tgt = true) {field : NDArr (Option K)} {s : List ℕ}
    (hshape : field.shape = s ++ [src.nlon, src.nlat]) {R : NDArr (Option K)} (e : bilinearRegrid src tgt field = .ok R) {l : List ℕ}
    (hl : InB s l) {i j : ℕ} (hi : i < tgt.nlon) (hj : j < tgt.nlat) :
    ∃ c a d b, Spec.Bracket src.nlon src.lon (tgt.lon i) c (c + 1) a ∧ Spec.Bracket src.nlat src.lat (tgt.lat j) d (d + 1) b ∧
      (R.get (l ++ [i, j]) = none ↔ field.get (l ++ [c, d]) = none ∨ field.get (l ++ [c + 1, d]) = none ∨
        field.get (l ++ [c, d + 1]) = none ∨ field.get (l ++ [c + 1, d + 1]) = none) := by
  obtain ⟨R', e', -, h⟩ := native_spec hn hshape
  rw [e] at e'
  obtain rfl : R = R' := by injection e'
  obtain ⟨n1, n2, -⟩ := supportsNative_iff.mp hn
  obtain ⟨L, r, a, p, q, b, hL, hp, b1, b2, hv⟩ := h l i j hl hi hj
  have hr : r = L + 1 := by have := b1.2.1; omega
  have hq : q = p + 1 := by have := b2.2.1; omega
  subst hr hq
  refine ⟨L, a, p, b, b1, b2, ?_⟩
  rw [hv]
  beta_reduce
  cases field.get (l ++ [L, p]) <;> cases field.get (l ++ [L + 1, p]) <;> cases field.get (l ++ [L, p + 1]) <;>
    cases field.get (l ++ [L + 1, p + 1]) <;> simp [lerp]

/-- C61, for fields without missing values: regridding onto the same grid returns the field. -/
theorem C61_identity_partial {src : Grid K} (p1 : 0 < src.nlon) (p2 : 0 < src.nlat) (i1 : Spec.StrictInc src.nlon src.lon)
    (i2 : Spec.StrictInc src.nlat src.lat) {field : NDArr (Option K)} {s : List ℕ} (hshape : field.shape = s ++ [src.nlon, src.nlat])
    (hf : ∀ idx, InB field.shape idx → field.get idx ≠ none) :
    ∃ R, bilinearRegrid src src field = .ok R ∧ NDArr.Eqv R field := by
  obtain ⟨R, e, hs, -⟩ := C36_bilinear (tgt := src) p1 p2 i1 i2 hshape
  refine ⟨R, e, by rw [hs, hshape], ?_⟩
  intro idx hidx
  rw [hs] at hidx
  have hlen := hidx.length
  obtain ⟨l, c, d, rfl, hl⟩ : ∃ l c d, idx = l ++ [c, d] ∧ l.length = s.length := by
    have h1 : (idx.drop s.length).length = 2 := by rw [List.length_drop, hlen]; simp
    obtain ⟨c, d, hcd⟩ := List.length_eq_two.mp h1
    refine ⟨idx.take s.length, c, d, ?_, ?_⟩
    · rw [← hcd, List.take_append_drop]
    · rw [List.length_take, hlen]; simp
  have h2 := (InB_append hl).mp hidx
  obtain ⟨h3, hc, hd, -⟩ := h2
  rw [C36_exact p1 p2 i1 i2 hshape e h3 (f := fun c d => (field.get (l ++ [c, d])).getD 0) ?_ hc hd hc hd rfl rfl]
  · have := hf (l ++ [c, d]) (by rw [hshape]; exact hidx)
    obtain ⟨v, hv⟩ := Option.ne_none_iff_exists'.mp this
    rw [hv]; rfl
  · intro c' d' hc' hd'
    have := hf (l ++ [c', d']) (by rw [hshape, InB_append hl]; exact ⟨h3, hc', hd', trivial⟩)
    obtain ⟨v, hv⟩ := Option.ne_none_iff_exists'.mp this
    rw [hv]; rfl

/-- C61 is false with missing values: regridding a 3 x 2 field with two missing values onto its own grid loses a third one. -/
theorem C61_false : ∃ (src : Grid ℚ) (field R : NDArr (Option ℚ)), Spec.StrictInc src.nlon src.lon ∧ Spec.StrictInc src.nlat src.lat ∧
    field.shape = [src.nlon, src.nlat] ∧ bilinearRegrid src src field = .ok R ∧ field.get [1, 0] = some 5 ∧ R.get [1, 0] = none := by
  have i1 : Spec.StrictInc 3 (fun i => (i : ℚ)) := fun i j h _ => by beta_reduce; exact_mod_cast h
  have i2 : Spec.StrictInc 2 (fun i => (i : ℚ)) := fun i j h _ => by beta_reduce; exact_mod_cast h
  obtain ⟨field, hfd⟩ : ∃ field : NDArr (Option ℚ),
      field = ⟨[3, 2], fun idx => if idx = [0, 0] ∨ idx = [2, 0] then none else some 5⟩ := ⟨_, rfl⟩
  have hn : supportsNative (⟨3, fun i => (i : ℚ), 2, fun i => (i : ℚ)⟩ : Grid ℚ) ⟨3, fun i => (i : ℚ), 2, fun i => (i : ℚ)⟩ = true := by
    rw [supportsNative_iff]; exact ⟨by decide, by decide, by decide, by decide, i1, i2, i1, i2⟩
  have hs : field.shape = [] ++ [3, 2] := by rw [hfd]; rfl
  obtain ⟨R, e, -, -⟩ := native_spec hn hs
  refine ⟨⟨3, fun i => (i : ℚ), 2, fun i => (i : ℚ)⟩, field, R, i1, i2, hs, e, by rw [hfd]; rfl, ?_⟩
  obtain ⟨c, a, d, b, b1, b2, h⟩ := C36_missing hn hs e (l := []) trivial (show 1 < 3 by omega) (show 0 < 2 by omega)
  rw [List.nil_append] at h
  rw [h]
  have hc : c + 1 < 3 := b1.1
  have hd : d + 1 < 2 := b2.1
  obtain rfl : d = 0 := by omega
  have : c = 0 ∨ c = 1 := by omega
  rcases this with rfl | rfl
  · left; rw [hfd]; rfl
  · right; left; rw [hfd]; rfl

/-- Grids meeting the hypotheses: an uneven 3 x 2 source, a descending target. -/
example : Spec.StrictInc 3 (fun i : ℕ => (i : ℚ) ^ 2) ∧ Spec.StrictInc 2 (fun i : ℕ => (i : ℚ)) ∧
    bilinearRegrid ⟨3, fun i : ℕ => (i : ℚ) ^ 2, 2, fun i : ℕ => (i : ℚ)⟩ ⟨2, fun i : ℕ => 3 - 2 * (i : ℚ), 1, fun _ => 1 / 2⟩
      ⟨[3, 2], fun idx => some (2 + ((idx.getD 0 0 : ℕ) : ℚ) ^ 2)⟩ ≠ .error .valueError := by
  have i1 : Spec.StrictInc 3 (fun i : ℕ => (i : ℚ) ^ 2) := by
    intro i j h _
    have : (i : ℚ) < j := by exact_mod_cast h
    have : (0 : ℚ) ≤ i := by positivity
    dsimp only
    nlinarith
  have i2 : Spec.StrictInc 2 (fun i => (i : ℚ)) := fun i j h _ => by beta_reduce; exact_mod_cast h
  refine ⟨i1, i2, ?_⟩
  obtain ⟨R, e, -⟩ := C36_bilinear (src := (⟨3, fun i : ℕ => (i : ℚ) ^ 2, 2, fun i : ℕ => (i : ℚ)⟩ : Grid ℚ))
    (tgt := ⟨2, fun i : ℕ => 3 - 2 * (i : ℚ), 1, fun _ => 1 / 2⟩) (by decide) (by decide) i1 i2
    (field := ⟨[3, 2], fun idx => some (2 + ((idx.getD 0 0 : ℕ) : ℚ) ^ 2)⟩) (s := []) rfl
  rw [e]
  exact fun h => by cases h

end Skyborn.Regrid
