/-
C40, C37 (preservation of constants, range), C60: the conservative regridder as a whole.
-/
import Verif.Regrid.ConsLemmas
import Verif.Regrid.PyModel

namespace Skyborn.Regrid

open Skyborn

/-! ### Slices of an array -/

theorem shape_split {α : Type} {a : NDArr α} {n m : ℕ} (h : trail a = [n, m]) : a.shape = lead a ++ [n, m] := by
  rw [← h]; exact (List.take_append_drop _ _).symm

theorem buf_slice {α : Type} {a : NDArr α} {n m : ℕ} (h : trail a = [n, m]) {l : List ℕ} (hl : InB (lead a) l) {c d : ℕ}
    (hc : c < n) (hd : d < m) : NDArr.buf a (ravel (lead a) l * (n * m) + (c * m + d)) = a.get (l ++ [c, d]) := by
  have e := shape_split h
  have hin : InB a.shape (l ++ [c, d]) := by
    rw [e, InB_append hl.length]
    exact ⟨hl, hc, hd, trivial⟩
  have hr : ravel a.shape (l ++ [c, d]) = ravel (lead a) l * (n * m) + (c * m + d) := by
    rw [e, ravel_append hl.length]
    simp [ravel]
  unfold NDArr.buf
  rw [← hr, unravel_ravel hin]

theorem ofBuf_slice {α : Type} {s : List ℕ} {n m : ℕ} (b : ℕ → α) {l : List ℕ} (hl : InB s l) (c d : ℕ) :
    (NDArr.ofBuf (s ++ [n, m]) b).get (l ++ [c, d]) = b (ravel s l * (n * m) + (c * m + d)) := by
  unfold NDArr.ofBuf
  dsimp only
  rw [ravel_append hl.length]
  simp [ravel]

variable {K : Type} [Field K] [LinearOrder K] [IsStrictOrderedRing K]

/-! ### The kernel -/

theorem core_spec {outer nsl nsa ntl nta : ℕ} (field : ℕ → Option K) {lonW latW : ℕ → K}
    (h1 : ∀ t s, t < ntl → s < nsl → 0 ≤ lonW (t * nsl + s)) (h2 : ∀ t s, t < nta → s < nsa → 0 ≤ latW (t * nsa + s)) :
    ∃ out, conservativeCore outer nsl nsa ntl nta field lonW latW = some out ∧ ∀ o i j, o < outer → i < ntl → j < nta →
      out (o * (ntl * nta) + (i * nta + j)) =
        (let C := ∑ c ∈ Finset.range nsl, lonW (i * nsl + c) * ∑ d ∈ Finset.range nsa, latW (j * nsa + d) *
            present (field (o * (nsl * nsa) + (c * nsa + d)))
         let T := ∑ c ∈ Finset.range nsl, lonW (i * nsl + c) * ∑ d ∈ Finset.range nsa, latW (j * nsa + d) *
            (field (o * (nsl * nsa) + (c * nsa + d))).getD 0
         if C > 0 then some (T / C) else none) := by
  obtain ⟨a, b, eab, hab⟩ := scanRows_spec ntl nsl lonW (fun _ => 0) fun _ => 0
  obtain ⟨a', b', eab', hab'⟩ := scanRows_spec nta nsa latW (fun _ => 0) fun _ => 0
  obtain ⟨V, hV⟩ : ∃ V : ℕ → ℕ → ℕ → Option K, V = fun o i j =>
      (let C := ∑ c ∈ Finset.range nsl, lonW (i * nsl + c) * ∑ d ∈ Finset.range nsa, latW (j * nsa + d) *
            present (field (o * (nsl * nsa) + (c * nsa + d)))
       let T := ∑ c ∈ Finset.range nsl, lonW (i * nsl + c) * ∑ d ∈ Finset.range nsa, latW (j * nsa + d) *
            (field (o * (nsl * nsa) + (c * nsa + d))).getD 0
       if C > 0 then some (T / C) else none) := ⟨_, rfl⟩
  have hs : ∀ (o n : ℕ), o < outer → o * n + n ≤ outer * n := by
    intro o n h
    calc o * n + n = (o + 1) * n := by ring
      _ ≤ outer * n := Nat.mul_le_mul_right n h
  obtain ⟨st, e, h⟩ := forM_inv (Nat.zero_le outer)
    (s := ((fun _ => none : ℕ → Option K), ((fun _ => 0 : ℕ → K), (fun _ => 0 : ℕ → K)))) (f := fun o st => do
      let tmp ← reduceLat (outer * (nsl * nsa)) (o * (nsl * nsa)) nsl nsa nta field latW a' b' st.2
      let out ← reduceLon (outer * (ntl * nta)) (o * (ntl * nta)) nsl ntl nta lonW a b tmp st.1
      return (out, tmp))
    (fun r st => ∀ o i j, o < r → i < ntl → j < nta → st.1 (o * (ntl * nta) + (i * nta + j)) = V o i j)
    (by intro o i j h; omega)
    (by
      rintro r st - hr h
      obtain ⟨t, c, e1, h3⟩ := reduceLat_spec (off := r * (nsl * nsa)) (field := field) (hs r (nsl * nsa) hr) h2 hab' st.2
      obtain ⟨out, e2, h4, h5⟩ := reduceLon_spec (off := r * (ntl * nta)) (hs r (ntl * nta) hr) h1 hab (t, c) st.1
      refine ⟨(out, (t, c)), by
        beta_reduce
        rw [e1]
        simp only [Option.bind_eq_bind, Option.bind_some]
        rw [e2]
        rfl, ?_⟩
      intro o i j ho hi hj
      rcases Nat.lt_succ_iff_lt_or_eq.mp ho with g | g
      · dsimp only
        rw [h5, h o i j g hi hj]
        intro i' j' hi' hj' e
        have := flat_inj (flat_lt hi' hj') (flat_lt hi hj) e
        omega
      · subst g
        dsimp only
        rw [h4 i j hi hj, hV]
        dsimp only
        have ec : ∑ c' ∈ Finset.range nsl, lonW (i * nsl + c') * c (c' * nta + j) = ∑ c ∈ Finset.range nsl, lonW (i * nsl + c) *
            ∑ d ∈ Finset.range nsa, latW (j * nsa + d) * present (field (o * (nsl * nsa) + (c * nsa + d))) :=
          Finset.sum_congr rfl fun c' hc' => by rw [(h3 c' j (Finset.mem_range.mp hc') hj).2]
        have et : ∑ c' ∈ Finset.range nsl, lonW (i * nsl + c') * t (c' * nta + j) = ∑ c ∈ Finset.range nsl, lonW (i * nsl + c) *
            ∑ d ∈ Finset.range nsa, latW (j * nsa + d) * (field (o * (nsl * nsa) + (c * nsa + d))).getD 0 :=
          Finset.sum_congr rfl fun c' hc' => by rw [(h3 c' j (Finset.mem_range.mp hc') hj).1]
        rw [ec, et])
  refine ⟨st.1, ?_, ?_⟩
  · unfold conservativeCore
    rw [eab, eab']
    simp only [Option.bind_eq_bind, Option.bind_some] at e ⊢
    rw [e]
    rfl
  · intro o i j ho hi hj
    rw [h o i j ho hi hj, hV]

/-- Sums of present values. -/
theorem isMean_of {n m : ℕ} {w : ℕ → K} {v : ℕ → K} (hw : ∀ c, c < n → 0 ≤ w c) (hv : ∀ d, d < m → 0 ≤ v d) (f : ℕ → ℕ → Option K) :
    Spec.IsMaskedMean n m (fun c d => w c * v d) f
      (let C := ∑ c ∈ Finset.range n, w c * ∑ d ∈ Finset.range m, v d * present (f c d)
       let T := ∑ c ∈ Finset.range n, w c * ∑ d ∈ Finset.range m, v d * (f c d).getD 0
       if C > 0 then some (T / C) else none) := by
  have eC : ∑ c ∈ Finset.range n, w c * ∑ d ∈ Finset.range m, v d * present (f c d) =
      ∑ c ∈ Finset.range n, ∑ d ∈ Finset.range m, if f c d = none then 0 else w c * v d := by
    refine Finset.sum_congr rfl fun c _ => ?_
    rw [Finset.mul_sum]
    refine Finset.sum_congr rfl fun d _ => ?_
    cases f c d <;> simp [present]
  have eT : ∑ c ∈ Finset.range n, w c * ∑ d ∈ Finset.range m, v d * (f c d).getD 0 =
      ∑ c ∈ Finset.range n, ∑ d ∈ Finset.range m, w c * v d * (f c d).getD 0 := by
    refine Finset.sum_congr rfl fun c _ => ?_
    rw [Finset.mul_sum]
    refine Finset.sum_congr rfl fun d _ => ?_
    ring
  have nn : ∀ c d, c < n → d < m → 0 ≤ (if f c d = none then 0 else w c * v d) := by
    intro c d hc hd
    split
    · exact le_rfl
    · exact mul_nonneg (hw c hc) (hv d hd)
  dsimp only
  rw [eC, eT]
  split
  · rename_i h
    refine ⟨?_, ?_⟩
    · by_contra hno
      push Not at hno
      have : ∑ c ∈ Finset.range n, ∑ d ∈ Finset.range m, (if f c d = none then 0 else w c * v d) ≤ 0 := by
        refine Finset.sum_nonpos fun c hc => Finset.sum_nonpos fun d hd => ?_
        split
        · exact le_rfl
        · exact hno c (Finset.mem_range.mp hc) d (Finset.mem_range.mp hd) ‹_›
      exact absurd h (not_lt.mpr this)
    · exact div_mul_cancel₀ _ h.ne'
  · rename_i h
    intro c hc d hd
    by_contra hno
    push Not at hno
    have hp : 0 < w c * v d := lt_of_le_of_ne (mul_nonneg (hw c hc) (hv d hd)) (Ne.symm hno.2)
    have h1 : w c * v d ≤ ∑ d ∈ Finset.range m, if f c d = none then 0 else w c * v d := by
      have := Finset.single_le_sum (f := fun d => if f c d = none then 0 else w c * v d) (s := Finset.range m)
        (fun d hd => nn c d hc (Finset.mem_range.mp hd)) (Finset.mem_range.mpr hd)
      simpa [hno.1] using this
    have h2 := Finset.single_le_sum (f := fun c => ∑ d ∈ Finset.range m, if f c d = none then 0 else w c * v d) (s := Finset.range n)
        (fun c hc => Finset.sum_nonneg fun d hd => nn c d (Finset.mem_range.mp hc) (Finset.mem_range.mp hd)) (Finset.mem_range.mpr hc)
    exact h (lt_of_lt_of_le hp (h1.trans h2))

theorem mean_range {n m : ℕ} {W : ℕ → ℕ → K} (hW : ∀ c d, c < n → d < m → 0 ≤ W c d) {f : ℕ → ℕ → Option K} {r lo hi : K}
    (h : Spec.IsMaskedMean n m W f (some r)) (hf : ∀ c d, c < n → d < m → ∀ v, f c d = some v → lo ≤ v ∧ v ≤ hi) : lo ≤ r ∧ r ≤ hi := by
  obtain ⟨⟨c0, hc0, d0, hd0, hne, hpos⟩, e⟩ := h
  have nn : ∀ c d, c < n → d < m → 0 ≤ (if f c d = none then 0 else W c d) := by
    intro c d hc hd
    split
    · exact le_rfl
    · exact hW c d hc hd
  have hS : 0 < ∑ c ∈ Finset.range n, ∑ d ∈ Finset.range m, if f c d = none then 0 else W c d := by
    refine Finset.sum_pos' (fun c hc => Finset.sum_nonneg fun d hd => nn c d (Finset.mem_range.mp hc) (Finset.mem_range.mp hd))
      ⟨c0, Finset.mem_range.mpr hc0, ?_⟩
    refine Finset.sum_pos' (fun d hd => nn c0 d hc0 (Finset.mem_range.mp hd)) ⟨d0, Finset.mem_range.mpr hd0, ?_⟩
    rw [if_neg hne]; exact hpos
  have lower : lo * (∑ c ∈ Finset.range n, ∑ d ∈ Finset.range m, if f c d = none then 0 else W c d) ≤
      ∑ c ∈ Finset.range n, ∑ d ∈ Finset.range m, W c d * (f c d).getD 0 := by
    rw [Finset.mul_sum]
    refine Finset.sum_le_sum fun c hc => ?_
    rw [Finset.mul_sum]
    refine Finset.sum_le_sum fun d hd => ?_
    have h1 := hW c d (Finset.mem_range.mp hc) (Finset.mem_range.mp hd)
    cases hv : f c d with
    | none => simp
    | some v =>
      have := (hf c d (Finset.mem_range.mp hc) (Finset.mem_range.mp hd) v hv).1
      simp only [reduceCtorEq, if_false, Option.getD_some]
      nlinarith
  have upper : ∑ c ∈ Finset.range n, ∑ d ∈ Finset.range m, W c d * (f c d).getD 0 ≤
      hi * (∑ c ∈ Finset.range n, ∑ d ∈ Finset.range m, if f c d = none then 0 else W c d) := by
    rw [Finset.mul_sum]
    refine Finset.sum_le_sum fun c hc => ?_
    rw [Finset.mul_sum]
    refine Finset.sum_le_sum fun d hd => ?_
    have h1 := hW c d (Finset.mem_range.mp hc) (Finset.mem_range.mp hd)
    cases hv : f c d with
    | none => simp
    | some v =>
      have := (hf c d (Finset.mem_range.mp hc) (Finset.mem_range.mp hd) v hv).2
      simp only [reduceCtorEq, if_false, Option.getD_some]
      nlinarith
  rw [← e] at lower upper
  exact ⟨le_of_mul_le_mul_right lower hS, le_of_mul_le_mul_right upper hS⟩

/-! ### The regridder -/

/-- A grid `ConservativeRegridder` accepts: non-empty, both axes strictly increasing, latitudes between the poles. -/
structure GridOK (g : Grid ℝ) : Prop where
  lonPos : 0 < g.nlon
  latPos : 0 < g.nlat
  lonInc : Spec.StrictInc g.nlon g.lon
  lat : Spec.LatAxis g.nlat g.lat

/-- C40: at every point of every leading slice the result is the weighted mean over the non-missing source cells - missing
exactly when no non-missing source cell has positive weight - with the product of the longitude and latitude weights. -/
theorem C40_masked_mean {src tgt : Grid ℝ} (hs : GridOK src) (ht : GridOK tgt) {field : NDArr (Option ℝ)} {s : List ℕ}
    (hshape : field.shape = s ++ [src.nlon, src.nlat]) :
    ∃ (R : NDArr (Option ℝ)) (lonW latW : ℕ → ℝ), conservativeRegrid src tgt field = .ok R ∧
      longitudeWeights (2 * Real.pi) src.nlon src.lon tgt.nlon tgt.lon = .ok lonW ∧
      latitudeWeights Real.sin (Real.pi / 2) src.nlat src.lat tgt.nlat tgt.lat = .ok latW ∧
      R.shape = s ++ [tgt.nlon, tgt.nlat] ∧ ∀ l i j, InB s l → i < tgt.nlon → j < tgt.nlat →
        Spec.IsMaskedMean src.nlon src.nlat (fun c d => lonW (i * src.nlon + c) * latW (j * src.nlat + d))
          (fun c d => field.get (l ++ [c, d])) (R.get (l ++ [i, j])) := by
  have hlead : lead field = s := by
    unfold lead; rw [hshape]; simp
  have htrail : trail field = [src.nlon, src.nlat] := by
    unfold trail; rw [hshape]; simp
  obtain ⟨lonW, e1, nn1, -⟩ := C37_longitude_weights (2 * Real.pi) hs.lonPos ht.lonPos hs.lonInc ht.lonInc
  obtain ⟨latW, e2, nn2, -⟩ := C37_latitude_weights hs.latPos ht.latPos hs.lat ht.lat
  obtain ⟨out, e3, h⟩ := core_spec (outer := s.prod) (NDArr.buf field) nn1 nn2
  refine ⟨NDArr.ofBuf (s ++ [tgt.nlon, tgt.nlat]) out, lonW, latW, ?_, e1, e2, rfl, ?_⟩
  · unfold conservativeRegrid
    rw [if_neg (by simp [htrail]), hlead]
    simp only [e1, e2, e3, run, bind, Except.bind, pure, Except.pure]
  · intro l i j hl hi hj
    rw [ofBuf_slice out hl, h _ i j (ravel_lt hl) hi hj]
    have key := isMean_of (n := src.nlon) (m := src.nlat) (w := fun c => lonW (i * src.nlon + c)) (v := fun d => latW (j * src.nlat + d))
      (fun c hc => nn1 i c hi hc) (fun d hd => nn2 j d hj hd) fun c d => field.get (l ++ [c, d])
    have eb : ∀ c d, c < src.nlon → d < src.nlat →
        NDArr.buf field (ravel s l * (src.nlon * src.nlat) + (c * src.nlat + d)) = field.get (l ++ [c, d]) := by
      intro c d hc hd
      have := buf_slice htrail (l := l) (by rw [hlead]; exact hl) hc hd
      rw [hlead] at this
      exact this
    have e4 : ∀ q : Option ℝ → ℝ, (∑ c ∈ Finset.range src.nlon, lonW (i * src.nlon + c) * ∑ d ∈ Finset.range src.nlat,
        latW (j * src.nlat + d) * q (NDArr.buf field (ravel s l * (src.nlon * src.nlat) + (c * src.nlat + d)))) =
        ∑ c ∈ Finset.range src.nlon, lonW (i * src.nlon + c) * ∑ d ∈ Finset.range src.nlat,
          latW (j * src.nlat + d) * q (field.get (l ++ [c, d])) := by
      intro q
      refine Finset.sum_congr rfl fun c hc => ?_
      congr 1
      refine Finset.sum_congr rfl fun d hd => ?_
      rw [eb c d (Finset.mem_range.mp hc) (Finset.mem_range.mp hd)]
    dsimp only at key ⊢
    rw [e4 present, e4 fun o => o.getD 0]
    exact key

/-- C40: inputs the regridder refuses - a field whose trailing axes do not match the source grid, or axes which are empty or do
not increase strictly - give a ValueError. -/
theorem C40_rejected {src tgt : Grid ℝ} {field : NDArr (Option ℝ)}
    (h : trail field ≠ [src.nlon, src.nlat] ∨ src.nlon = 0 ∨ tgt.nlon = 0 ∨ ¬ Spec.StrictInc src.nlon src.lon ∨
      ¬ Spec.StrictInc tgt.nlon tgt.lon ∨ src.nlat = 0 ∨ tgt.nlat = 0 ∨ ¬ Spec.StrictInc src.nlat src.lat ∨
      ¬ Spec.StrictInc tgt.nlat tgt.lat) : conservativeRegrid src tgt field = .error .valueError := by
  unfold conservativeRegrid
  by_cases h0 : trail field ≠ [src.nlon, src.nlat]
  · rw [if_pos h0]
  · rw [if_neg h0]
    by_cases h1 : src.nlon = 0 ∨ tgt.nlon = 0 ∨ ¬ Spec.StrictInc src.nlon src.lon ∨ ¬ Spec.StrictInc tgt.nlon tgt.lon
    · rw [(C37_rejected (2 * Real.pi) Real.sin h1).1]
      rfl
    · have h2 : src.nlat = 0 ∨ tgt.nlat = 0 ∨ ¬ Spec.StrictInc src.nlat src.lat ∨ ¬ Spec.StrictInc tgt.nlat tgt.lat := by tauto
      push Not at h1
      obtain ⟨w, e, -⟩ := C37_longitude_weights (2 * Real.pi) (Nat.pos_of_ne_zero h1.1) (Nat.pos_of_ne_zero h1.2.1) h1.2.2.1 h1.2.2.2
      rw [e]
      have e2 := (C37_rejected (2 * Real.pi) Real.sin h2).2
      rw [show 2 * Real.pi / 4 = Real.pi / 2 by ring] at e2
      rw [e2]
      rfl

/-- C37: every regridded value lies between any bounds of the non-missing values of its slice. -/
theorem C37_range {src tgt : Grid ℝ} (hs : GridOK src) (ht : GridOK tgt) {field : NDArr (Option ℝ)} {s : List ℕ}
    (hshape : field.shape = s ++ [src.nlon, src.nlat]) {R : NDArr (Option ℝ)} (e : conservativeRegrid src tgt field = .ok R)
    {l : List ℕ} {i j : ℕ} (hl : InB s l) (hi : i < tgt.nlon) (hj : j < tgt.nlat) {lo hi' r : ℝ}
    (hf : ∀ c d, c < src.nlon → d < src.nlat → ∀ v, field.get (l ++ [c, d]) = some v → lo ≤ v ∧ v ≤ hi')
    (hr : R.get (l ++ [i, j]) = some r) : lo ≤ r ∧ r ≤ hi' := by
  obtain ⟨R', lonW, latW, e', e1, e2, -, h⟩ := C40_masked_mean hs ht hshape
  rw [e] at e'
  obtain rfl : R = R' := by injection e'
  obtain ⟨w1, f1, nn1, -⟩ := C37_longitude_weights (2 * Real.pi) hs.lonPos ht.lonPos hs.lonInc ht.lonInc
  obtain ⟨w2, f2, nn2, -⟩ := C37_latitude_weights hs.latPos ht.latPos hs.lat ht.lat
  rw [e1] at f1; rw [e2] at f2
  obtain rfl : lonW = w1 := by injection f1
  obtain rfl : latW = w2 := by injection f2
  have := h l i j hl hi hj
  rw [hr] at this
  exact mean_range (fun c d hc hd => mul_nonneg (nn1 i c hi hc) (nn2 j d hj hd)) this hf

/-- C40: on a slice without missing values the result is present everywhere and equals the plain weighted sum. -/
theorem C40_complete {src tgt : Grid ℝ} (hs : GridOK src) (ht : GridOK tgt) {field : NDArr (Option ℝ)} {s : List ℕ}
    (hshape : field.shape = s ++ [src.nlon, src.nlat]) {R : NDArr (Option ℝ)} (e : conservativeRegrid src tgt field = .ok R)
    {lonW latW : ℕ → ℝ} (e1 : longitudeWeights (2 * Real.pi) src.nlon src.lon tgt.nlon tgt.lon = .ok lonW)
    (e2 : latitudeWeights Real.sin (Real.pi / 2) src.nlat src.lat tgt.nlat tgt.lat = .ok latW)
    {l : List ℕ} {i j : ℕ} (hl : InB s l) (hi : i < tgt.nlon) (hj : j < tgt.nlat) {f : ℕ → ℕ → ℝ}
    (hf : ∀ c d, c < src.nlon → d < src.nlat → field.get (l ++ [c, d]) = some (f c d)) :
    R.get (l ++ [i, j]) = some (∑ c ∈ Finset.range src.nlon, lonW (i * src.nlon + c) *
      ∑ d ∈ Finset.range src.nlat, latW (j * src.nlat + d) * f c d) := by
  obtain ⟨R', lonW', latW', e', e1', e2', -, h⟩ := C40_masked_mean hs ht hshape
  rw [e] at e'
  obtain rfl : R = R' := by injection e'
  rw [e1] at e1'; rw [e2] at e2'
  obtain rfl : lonW = lonW' := by injection e1'
  obtain rfl : latW = latW' := by injection e2'
  obtain ⟨w1, f1, nn1, s1⟩ := C37_longitude_weights (2 * Real.pi) hs.lonPos ht.lonPos hs.lonInc ht.lonInc
  obtain ⟨w2, f2, nn2, s2⟩ := C37_latitude_weights hs.latPos ht.latPos hs.lat ht.lat
  rw [e1] at f1; rw [e2] at f2
  obtain rfl : lonW = w1 := by injection f1
  obtain rfl : latW = w2 := by injection f2
  have key := h l i j hl hi hj
  have tot : ∑ c ∈ Finset.range src.nlon, ∑ d ∈ Finset.range src.nlat, lonW (i * src.nlon + c) * latW (j * src.nlat + d) = 1 := by
    rw [Finset.sum_congr rfl fun c _ => by rw [← Finset.mul_sum, s2 j hj, mul_one]]
    exact s1 i hi
  cases hv : R.get (l ++ [i, j]) with
  | none =>
    rw [hv] at key
    exfalso
    have : ∑ c ∈ Finset.range src.nlon, ∑ d ∈ Finset.range src.nlat, lonW (i * src.nlon + c) * latW (j * src.nlat + d) = 0 := by
      refine Finset.sum_eq_zero fun c hc => Finset.sum_eq_zero fun d hd => ?_
      rcases key c (Finset.mem_range.mp hc) d (Finset.mem_range.mp hd) with g | g
      · beta_reduce at g
        rw [hf c d (Finset.mem_range.mp hc) (Finset.mem_range.mp hd)] at g
        exact absurd g (by simp)
      · exact g
    rw [tot] at this
    exact one_ne_zero this
  | some r =>
    rw [hv] at key
    have k2 := key.2
    have g1 : ∑ c ∈ Finset.range src.nlon, ∑ d ∈ Finset.range src.nlat,
        (if field.get (l ++ [c, d]) = none then 0 else lonW (i * src.nlon + c) * latW (j * src.nlat + d)) = 1 := by
      rw [← tot]
      refine Finset.sum_congr rfl fun c hc => Finset.sum_congr rfl fun d hd => ?_
      rw [hf c d (Finset.mem_range.mp hc) (Finset.mem_range.mp hd), if_neg (by simp)]
    rw [g1, mul_one] at k2
    rw [k2]
    congr 1
    refine Finset.sum_congr rfl fun c hc => ?_
    rw [Finset.mul_sum]
    refine Finset.sum_congr rfl fun d hd => ?_
    beta_reduce
    rw [hf c d (Finset.mem_range.mp hc) (Finset.mem_range.mp hd), Option.getD_some, mul_assoc]

/-- C37: a constant field is reproduced. -/
theorem C37_constant {src tgt : Grid ℝ} (hs : GridOK src) (ht : GridOK tgt) {field : NDArr (Option ℝ)} {s : List ℕ}
    (hshape : field.shape = s ++ [src.nlon, src.nlat]) {R : NDArr (Option ℝ)} (e : conservativeRegrid src tgt field = .ok R)
    {l : List ℕ} {i j : ℕ} (hl : InB s l) (hi : i < tgt.nlon) (hj : j < tgt.nlat) {v : ℝ}
    (hf : ∀ c d, c < src.nlon → d < src.nlat → field.get (l ++ [c, d]) = some v) : R.get (l ++ [i, j]) = some v := by
  obtain ⟨w1, f1, nn1, s1⟩ := C37_longitude_weights (2 * Real.pi) hs.lonPos ht.lonPos hs.lonInc ht.lonInc
  obtain ⟨w2, f2, nn2, s2⟩ := C37_latitude_weights hs.latPos ht.latPos hs.lat ht.lat
  rw [C40_complete hs ht hshape e f1 f2 hl hi hj (f := fun _ _ => v) hf]
  congr 1
  rw [Finset.sum_congr rfl fun c _ => by rw [← Finset.sum_mul, s2 j hj, one_mul], ← Finset.sum_mul, s1 i hi, one_mul]

/-- C60: on the whole sphere. When the source and target longitude cells together never span more than half the circle and no
target cell is degenerate, the area integral of the regridded field equals that of the source field, slice by slice. -/
theorem C60_sphere_integral {src tgt : Grid ℝ} (hs : GridOK src) (ht : GridOK tgt)
    (ls : Spec.LonAxis (2 * Real.pi) src.nlon src.lon) (lt : Spec.LonAxis (2 * Real.pi) tgt.nlon tgt.lon)
    (hw : ∀ t s, t < tgt.nlon → s < src.nlon →
      Spec.lonWidth (2 * Real.pi) tgt.nlon tgt.lon t + Spec.lonWidth (2 * Real.pi) src.nlon src.lon s ≤ 2 * Real.pi / 2)
    (hwide : ∀ t, t < tgt.nlon → Spec.lonWidth (2 * Real.pi) tgt.nlon tgt.lon t > 1 / 10 ^ 15)
    (harea : ∀ t, t < tgt.nlat → Spec.bandArea tgt.nlat tgt.lat t > 1 / 10 ^ 15)
    {field : NDArr (Option ℝ)} {s : List ℕ} (hshape : field.shape = s ++ [src.nlon, src.nlat]) {R : NDArr (Option ℝ)}
    (e : conservativeRegrid src tgt field = .ok R) {l : List ℕ} (hl : InB s l) {f g : ℕ → ℕ → ℝ}
    (hf : ∀ c d, c < src.nlon → d < src.nlat → field.get (l ++ [c, d]) = some (f c d))
    (hg : ∀ i j, i < tgt.nlon → j < tgt.nlat → R.get (l ++ [i, j]) = some (g i j)) :
    ∑ i ∈ Finset.range tgt.nlon, ∑ j ∈ Finset.range tgt.nlat,
        Spec.lonWidth (2 * Real.pi) tgt.nlon tgt.lon i * Spec.bandArea tgt.nlat tgt.lat j * g i j =
      ∑ c ∈ Finset.range src.nlon, ∑ d ∈ Finset.range src.nlat,
        Spec.lonWidth (2 * Real.pi) src.nlon src.lon c * Spec.bandArea src.nlat src.lat d * f c d := by
  obtain ⟨w1, f1, -, -⟩ := C37_longitude_weights (2 * Real.pi) hs.lonPos ht.lonPos hs.lonInc ht.lonInc
  obtain ⟨w2, f2, -, -⟩ := C37_latitude_weights hs.latPos ht.latPos hs.lat ht.lat
  have hgv : ∀ i j, i < tgt.nlon → j < tgt.nlat → g i j = ∑ c ∈ Finset.range src.nlon, w1 (i * src.nlon + c) *
      ∑ d ∈ Finset.range src.nlat, w2 (j * src.nlat + d) * f c d := by
    intro i j hi hj
    have := C40_complete hs ht hshape e f1 f2 hl hi hj hf
    rw [hg i j hi hj] at this
    injection this
  have lonC := C39_conserves_partial ls lt hw hwide f1
  have latC := C38_latitude_integral hs.latPos ht.latPos hs.lat ht.lat harea f2
  calc ∑ i ∈ Finset.range tgt.nlon, ∑ j ∈ Finset.range tgt.nlat,
        Spec.lonWidth (2 * Real.pi) tgt.nlon tgt.lon i * Spec.bandArea tgt.nlat tgt.lat j * g i j
      = ∑ j ∈ Finset.range tgt.nlat, Spec.bandArea tgt.nlat tgt.lat j * ∑ i ∈ Finset.range tgt.nlon,
          Spec.lonWidth (2 * Real.pi) tgt.nlon tgt.lon i * ∑ c ∈ Finset.range src.nlon, w1 (i * src.nlon + c) *
            ∑ d ∈ Finset.range src.nlat, w2 (j * src.nlat + d) * f c d := by
        rw [Finset.sum_comm]
        refine Finset.sum_congr rfl fun j hj => ?_
        rw [Finset.mul_sum]
        refine Finset.sum_congr rfl fun i hi => ?_
        rw [hgv i j (Finset.mem_range.mp hi) (Finset.mem_range.mp hj)]
        ring
    _ = ∑ j ∈ Finset.range tgt.nlat, Spec.bandArea tgt.nlat tgt.lat j * ∑ c ∈ Finset.range src.nlon,
          Spec.lonWidth (2 * Real.pi) src.nlon src.lon c * ∑ d ∈ Finset.range src.nlat, w2 (j * src.nlat + d) * f c d := by
        refine Finset.sum_congr rfl fun j _ => ?_
        rw [lonC fun c => ∑ d ∈ Finset.range src.nlat, w2 (j * src.nlat + d) * f c d]
    _ = ∑ c ∈ Finset.range src.nlon, Spec.lonWidth (2 * Real.pi) src.nlon src.lon c * ∑ j ∈ Finset.range tgt.nlat,
          Spec.bandArea tgt.nlat tgt.lat j * ∑ d ∈ Finset.range src.nlat, w2 (j * src.nlat + d) * f c d := by
        simp only [Finset.mul_sum]
        rw [Finset.sum_comm]
        refine Finset.sum_congr rfl fun c _ => Finset.sum_congr rfl fun j _ => Finset.sum_congr rfl fun d _ => ?_
        ring
    _ = _ := by
        refine Finset.sum_congr rfl fun c _ => ?_
        rw [latC fun d => f c d, Finset.mul_sum]
        refine Finset.sum_congr rfl fun d _ => ?_
        ring

end Skyborn.Regrid
