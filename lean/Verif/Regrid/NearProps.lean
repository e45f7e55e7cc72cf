/-
C41: nearest-neighbour regridding.
-/
import Verif.Regrid.ConsProps

namespace Skyborn.Regrid

open Skyborn

/-! ### The search -/

/-- The cosine the search compares. -/
noncomputable def score (tlon tlat slon slat : ℝ) : ℝ :=
  Real.sin tlat * Real.sin slat + Real.cos tlat * Real.cos slat * (Real.cos tlon * Real.cos slon + Real.sin tlon * Real.sin slon)

theorem score_angle (tlon tlat slon slat : ℝ) : Spec.angle tlon tlat slon slat = Real.arccos (score tlon tlat slon slat) := by
  unfold Spec.angle score
  congr 1
  ring

theorem score_range (tlon tlat slon slat : ℝ) : -1 ≤ score tlon tlat slon slat ∧ score tlon tlat slon slat ≤ 1 := by
  unfold score
  rw [← Real.cos_sub]
  have h1 := Real.sin_sq_add_cos_sq tlat
  have h2 := Real.sin_sq_add_cos_sq slat
  have c1 := Real.neg_one_le_cos (tlon - slon)
  have c2 := Real.cos_le_one (tlon - slon)
  generalize Real.cos (tlon - slon) = c at *
  generalize Real.sin tlat = a at *
  generalize Real.cos tlat = b at *
  generalize Real.sin slat = p at *
  generalize Real.cos slat = q at *
  have hc : (b * q * c) ^ 2 ≤ (b * q) ^ 2 := by
    rw [mul_pow]
    have : c ^ 2 ≤ 1 := by nlinarith
    nlinarith [sq_nonneg (b * q)]
  have hbq := sq_le_sq.mp hc
  have h3 : |a * p| + |b * q| ≤ 1 := by
    rw [abs_mul, abs_mul]
    have e1 := sq_abs a
    have e2 := sq_abs b
    have e3 := sq_abs p
    have e4 := sq_abs q
    nlinarith [sq_nonneg (|a| - |p|), sq_nonneg (|b| - |q|)]
  have h4 : |a * p + b * q * c| ≤ 1 := (abs_add_le _ _).trans (by linarith)
  exact abs_le.mp h4

/-- What the scan has found after the first `r` source positions (in flat order). -/
def Best (nsa : ℕ) (sc : ℕ → ℕ → ℝ) (r : ℕ) (st : ℝ × ℕ) : Prop :=
  (r = 0 ∧ st = (-2, 0)) ∨ (st.2 < r ∧ st.1 = sc (st.2 / nsa) (st.2 % nsa) ∧ (∀ k, k < r → sc (k / nsa) (k % nsa) ≤ st.1) ∧
    ∀ k, k < st.2 → sc (k / nsa) (k % nsa) < st.1)

theorem nearestOne_spec {nsl nsa : ℕ} (h1 : 0 < nsl) (h2 : 0 < nsa) (srcLon srcLat : ℕ → ℝ) (tlon tlat : ℝ) :
    ∃ k, nearestOne nsl nsa srcLon srcLat tlon tlat = some k ∧ k < nsl * nsa ∧
      (∀ c d, c < nsl → d < nsa → score tlon tlat (srcLon c) (srcLat d) ≤ score tlon tlat (srcLon (k / nsa)) (srcLat (k % nsa))) ∧
      ∀ c d, d < nsa → c * nsa + d < k →
        score tlon tlat (srcLon c) (srcLat d) < score tlon tlat (srcLon (k / nsa)) (srcLat (k % nsa)) := by
  obtain ⟨sc, hsc⟩ : ∃ sc : ℕ → ℕ → ℝ, sc = fun c d => score tlon tlat (srcLon c) (srcLat d) := ⟨_, rfl⟩
  have hdm : ∀ c d, d < nsa → (c * nsa + d) / nsa = c ∧ (c * nsa + d) % nsa = d := by
    intro c d hd
    constructor
    · rw [Nat.add_comm, Nat.add_mul_div_right _ _ h2, Nat.div_eq_of_lt hd, Nat.zero_add]
    · rw [Nat.add_comm, Nat.add_mul_mod_self_right, Nat.mod_eq_of_lt hd]
  have step : ∀ isl, isl < nsl → ∀ isa, isa < nsa → ∀ st : ℝ × ℕ, Best nsa sc (isl * nsa + isa) st → ∃ st', (do
      let sa ← rd0 nsa srcLat isa
      let sc := Real.sin tlat * Real.sin sa + Real.cos tlat * Real.cos sa *
        (Real.cos tlon * Real.cos (srcLon isl) + Real.sin tlon * Real.sin (srcLon isl))
      let cur := isl * nsa + isa
      if sc > st.1 ∨ (|sc - st.1| ≤ 1 / 10 ^ 15 ∧ cur < st.2) then return (sc, cur) else return st) = some st' ∧
        Best nsa sc (isl * nsa + (isa + 1)) st' := by
    intro isl hl isa ha st hst
    rw [rd0_ok ha]
    simp only [Option.bind_eq_bind, Option.bind_some]
    have hs : Real.sin tlat * Real.sin (srcLat isa) + Real.cos tlat * Real.cos (srcLat isa) *
        (Real.cos tlon * Real.cos (srcLon isl) + Real.sin tlon * Real.sin (srcLon isl)) = sc isl isa := by rw [hsc]; rfl
    rw [hs]
    have hr := score_range tlon tlat (srcLon isl) (srcLat isa)
    have hr' : -1 ≤ sc isl isa := by rw [hsc]; exact hr.1
    by_cases hgt : sc isl isa > st.1
    · rw [if_pos (Or.inl hgt)]
      refine ⟨_, rfl, Or.inr ?_⟩
      dsimp only
      rw [(hdm isl isa ha).1, (hdm isl isa ha).2]
      refine ⟨by omega, rfl, ?_, ?_⟩
      · intro k hk
        rcases hst with ⟨h0, -⟩ | ⟨-, -, h3, -⟩
        · have : k = isl * nsa + isa := by omega
          rw [this, (hdm isl isa ha).1, (hdm isl isa ha).2]
        · rcases Nat.lt_or_ge k (isl * nsa + isa) with g | g
          · exact (h3 k g).trans hgt.le
          · have : k = isl * nsa + isa := by omega
            rw [this, (hdm isl isa ha).1, (hdm isl isa ha).2]
      · intro k hk
        rcases hst with ⟨h0, -⟩ | ⟨-, -, h3, -⟩
        · omega
        · exact lt_of_le_of_lt (h3 k hk) hgt
    · rcases hst with ⟨h0, h0'⟩ | ⟨h3, h4, h5, h6⟩
      · rw [h0'] at hgt
        dsimp only at hgt
        exact absurd (by linarith) hgt
      · rw [if_neg (by
          rintro (g | ⟨-, g⟩)
          · exact hgt g
          · omega)]
        refine ⟨_, rfl, Or.inr ⟨by omega, h4, ?_, h6⟩⟩
        intro k hk
        rcases Nat.lt_or_ge k (isl * nsa + isa) with g | g
        · exact h5 k g
        · have : k = isl * nsa + isa := by omega
          rw [this, (hdm isl isa ha).1, (hdm isl isa ha).2]
          exact not_lt.mp hgt
  obtain ⟨st, e, h⟩ := forM_inv (Nat.zero_le nsl) (s := ((-2 : ℝ), (0 : ℕ))) (f := fun isl r => do
      let sl ← rd0 nsl srcLon isl
      let cosDlon := Real.cos tlon * Real.cos sl + Real.sin tlon * Real.sin sl
      forM 0 nsa r fun isa (r : ℝ × ℕ) => do
        let sa ← rd0 nsa srcLat isa
        let score := Real.sin tlat * Real.sin sa + Real.cos tlat * Real.cos sa * cosDlon
        let cur := isl * nsa + isa
        if score > r.1 ∨ (|score - r.1| ≤ 1 / 10 ^ 15 ∧ cur < r.2) then return (score, cur) else return r)
    (fun r st => Best nsa sc (r * nsa) st) (Or.inl ⟨by simp, rfl⟩)
    (by
      intro r st _ hr hst
      beta_reduce
      rw [rd0_ok hr]
      simp only [Option.bind_eq_bind, Option.bind_some]
      obtain ⟨st', e', h'⟩ := forM_inv (Nat.zero_le nsa) (s := st) (f := fun isa (r' : ℝ × ℕ) => (do
          let sa ← rd0 nsa srcLat isa
          let score := Real.sin tlat * Real.sin sa + Real.cos tlat * Real.cos sa *
            (Real.cos tlon * Real.cos (srcLon r) + Real.sin tlon * Real.sin (srcLon r))
          let cur := r * nsa + isa
          if score > r'.1 ∨ (|score - r'.1| ≤ 1 / 10 ^ 15 ∧ cur < r'.2) then return (score, cur) else return r'))
        (fun q st => Best nsa sc (r * nsa + q) st) hst (fun q st _ hq hb => step r hr q hq st hb)
      refine ⟨st', e', ?_⟩
      have : (r + 1) * nsa = r * nsa + nsa := by ring
      rw [this]; exact h')
  have hpos : 0 < nsl * nsa := Nat.mul_pos h1 h2
  rcases h with ⟨h0, -⟩ | ⟨h3, h4, h5, h6⟩
  · omega
  · refine ⟨st.2, ?_, h3, ?_, ?_⟩
    · unfold nearestOne
      rw [e]; rfl
    · intro c d hc hd
      have := h5 (c * nsa + d) (flat_lt hc hd)
      rw [(hdm c d hd).1, (hdm c d hd).2, h4, hsc] at this
      exact this
    · intro c d hd hk
      have := h6 (c * nsa + d) hk
      rw [(hdm c d hd).1, (hdm c d hd).2, h4, hsc] at this
      exact this

/-- C41: the compiled search returns, for every target point, the first (in flat order) of the source points at the smallest
great-circle angle. -/
theorem C41_nearest {nsl nsa ntl nta : ℕ} (h1 : 0 < nsl) (h2 : 0 < nsa) (h3 : 0 < ntl) (h4 : 0 < nta) (srcLon srcLat tgtLon tgtLat : ℕ → ℝ) :
    ∃ ind, nearestIndices nsl nsa srcLon srcLat ntl nta tgtLon tgtLat = .ok ind ∧ ∀ i j, i < ntl → j < nta →
      ∃ c d, c < nsl ∧ d < nsa ∧ ind (i * nta + j) = c * nsa + d ∧
        (∀ c' d', c' < nsl → d' < nsa → Spec.angle (tgtLon i) (tgtLat j) (srcLon c) (srcLat d) ≤
          Spec.angle (tgtLon i) (tgtLat j) (srcLon c') (srcLat d')) ∧
        ∀ c' d', c' < nsl → d' < nsa → c' * nsa + d' < c * nsa + d →
          Spec.angle (tgtLon i) (tgtLat j) (srcLon c) (srcLat d) < Spec.angle (tgtLon i) (tgtLat j) (srcLon c') (srcLat d') := by
  choose k hk hlt hmax hfirst using fun a b => nearestOne_spec h1 h2 srcLon srcLat a b
  unfold nearestIndices
  rw [if_neg (by omega)]
  have flat : ∀ i, 0 ≤ i → i < ntl → ∀ ind : ℕ → ℕ, (do
      let tl ← rd0 ntl tgtLon i
      forM 0 nta ind fun ia ind => do
        let ta ← rd0 nta tgtLat ia
        let k ← nearestOne nsl nsa srcLon srcLat tl ta
        wr0 (ntl * nta) ind (i * nta + ia) k) =
      (forM 0 nta ind fun ia ind => (do
        let ta ← rd0 nta tgtLat ia
        let k ← nearestOne nsl nsa srcLon srcLat (tgtLon i) ta
        wr0 (ntl * nta) ind (i * nta + ia) k)) := by
    intro i _ hi ind
    rw [rd0_ok hi]; rfl
  rw [forM_congr flat]
  obtain ⟨ind, e, hind, -⟩ := forM2_write (n := ntl) (m := nta) (off := 0) (a := fun _ => (0 : ℕ)) (f := fun i ia ind => do
        let ta ← rd0 nta tgtLat ia
        let k ← nearestOne nsl nsa srcLon srcLat (tgtLon i) ta
        wr0 (ntl * nta) ind (i * nta + ia) k) (fun i j => k (tgtLon i) (tgtLat j))
    (by
      intro i j hi hj b _
      simp only [rd0_ok hj, Option.bind_eq_bind, Option.bind_some, hk, Nat.zero_add]
      rw [wr0_ok (flat_lt hi hj)])
  refine ⟨ind, by rw [e]; rfl, ?_⟩
  intro i j hi hj
  have hv := hind i j hi hj
  rw [Nat.zero_add] at hv
  have hl := hlt (tgtLon i) (tgtLat j)
  have hm := hmax (tgtLon i) (tgtLat j)
  have hf := hfirst (tgtLon i) (tgtLat j)
  generalize k (tgtLon i) (tgtLat j) = q at *
  have hq : q / nsa * nsa + q % nsa = q := by rw [Nat.mul_comm]; exact Nat.div_add_mod q nsa
  refine ⟨q / nsa, q % nsa, (Nat.div_lt_iff_lt_mul h2).mpr hl, Nat.mod_lt _ h2, by rw [hv, hq], ?_, ?_⟩
  · intro c' d' hc hd
    rw [score_angle, score_angle]
    exact Real.arccos_le_arccos (hm c' d' hc hd)
  · intro c' d' hc hd hlt'
    rw [score_angle, score_angle]
    rw [hq] at hlt'
    exact Real.arccos_lt_arccos (score_range _ _ _ _).1 (hf c' d' hd hlt') (score_range _ _ _ _).2

/-! ### The copy -/

/-- C41: with any valid table of flat source indices the result at a target point is the source value the table points to, for
every leading index. Values are copied, whatever their type. -/
theorem C41_copies {α : Type} {nslon nslat ntlon ntlat : ℕ} (h1 : 0 < ntlon) (h2 : 0 < ntlat) {idx : ℕ → ℤ}
    {field : NDArr α} {s : List ℕ} (hshape : field.shape = s ++ [nslon, nslat])
    (hidx : ∀ t, t < ntlon * ntlat → 0 ≤ idx t ∧ idx t < nslon * nslat) :
    ∃ R, nearestRegrid nslon nslat ntlon ntlat (ntlon * ntlat) idx field = .ok R ∧ R.shape = s ++ [ntlon, ntlat] ∧
      ∀ l i j c d, InB s l → i < ntlon → j < ntlat → c < nslon → d < nslat → idx (i * ntlat + j) = ((c * nslat + d : ℕ) : ℤ) →
        R.get (l ++ [i, j]) = some (field.get (l ++ [c, d])) := by
  have hlead : lead field = s := by
    unfold lead; rw [hshape]; simp
  have htrail : trail field = [nslon, nslat] := by
    unfold trail; rw [hshape]; simp
  have hchk : (forM 0 (ntlon * ntlat) true fun i ok =>
      if ok then do
        let k ← rd0 (ntlon * ntlat) idx i
        return !(decide (k < 0) || decide (k ≥ ((nslon * nslat : ℕ) : ℤ)))
      else return false) = some true := by
    obtain ⟨b, e, hb⟩ := forM_inv (Nat.zero_le (ntlon * ntlat)) (s := true) (f := fun i ok =>
      if ok then do
        let k ← rd0 (ntlon * ntlat) idx i
        return !(decide (k < 0) || decide (k ≥ ((nslon * nslat : ℕ) : ℤ)))
      else return false) (fun _ b => b = true) rfl
      (by
        rintro i b - hi rfl
        have := hidx i hi
        refine ⟨true, ?_, rfl⟩
        rw [if_pos rfl, rd0_ok hi]
        simp only [Option.bind_eq_bind, Option.bind_some]
        push_cast
        simp [this.1, this.2])
    rw [e, hb]
  obtain ⟨out, e, hout, -⟩ := forM2_write (n := s.prod) (m := ntlon * ntlat) (off := 0) (a := fun _ => (none : Option α))
    (f := fun o t out => do
        let k ← rd0 (ntlon * ntlat) idx t
        let v ← if 0 ≤ k then rd0 (s.prod * (nslon * nslat)) (NDArr.buf field) (o * (nslon * nslat) + k.toNat) else none
        wr0 (s.prod * (ntlon * ntlat)) out (o * (ntlon * ntlat) + t) (some v))
    (fun o t => some (NDArr.buf field (o * (nslon * nslat) + (idx t).toNat)))
    (by
      intro o t ho ht b _
      have h3 := hidx t ht
      have h4 : (idx t).toNat < nslon * nslat := by
        have : ((nslon * nslat : ℕ) : ℤ) = nslon * nslat := by push_cast; ring
        omega
      rw [rd0_ok ht]
      simp only [Option.bind_eq_bind, Option.bind_some]
      rw [if_pos h3.1, rd0_ok (flat_lt ho h4)]
      simp only [Option.bind_some, Nat.zero_add]
      rw [wr0_ok (flat_lt ho ht)])
  refine ⟨NDArr.ofBuf (s ++ [ntlon, ntlat]) out, ?_, rfl, ?_⟩
  · unfold nearestRegrid nearestApply
    rw [if_neg (by simp [htrail]), if_neg (by omega), if_neg (by simp), hlead, hchk]
    simp only [run, bind, Except.bind, pure, Except.pure, if_true]
    generalize hz : forM 0 s.prod (fun _ => none : ℕ → Option α) _ = z
    have hz' : z = some out := hz.symm.trans e
    rw [hz']
  · intro l i j c d hl hi hj hc hd hk
    have := hout (ravel s l) (i * ntlat + j) (ravel_lt hl) (flat_lt hi hj)
    rw [Nat.zero_add] at this
    rw [ofBuf_slice out hl, this, hk, Int.toNat_natCast]
    have hb := buf_slice htrail (l := l) (by rw [hlead]; exact hl) hc hd
    rw [hlead] at hb
    rw [hb]

/-- C41: a table of the wrong length, a table with an index outside the source grid, an empty target or a field which does not
match the source grid is refused - nothing is read out of bounds. -/
theorem C41_rejected {α : Type} {nslon nslat ntlon ntlat nidx : ℕ} {idx : ℕ → ℤ} {field : NDArr α}
    (h : trail field ≠ [nslon, nslat] ∨ ntlon = 0 ∨ ntlat = 0 ∨ nidx ≠ ntlon * ntlat ∨
      ∃ t, t < nidx ∧ (idx t < 0 ∨ idx t ≥ nslon * nslat)) :
    nearestRegrid nslon nslat ntlon ntlat nidx idx field = .error .valueError := by
  unfold nearestRegrid nearestApply
  by_cases h0 : trail field ≠ [nslon, nslat]
  · rw [if_pos h0]
  · rw [if_neg h0]
    by_cases h1 : ntlon = 0 ∨ ntlat = 0
    · rw [if_pos h1]; rfl
    · rw [if_neg h1]
      by_cases h2 : nidx ≠ ntlon * ntlat
      · rw [if_pos h2]; rfl
      · rw [if_neg h2]
        obtain ⟨t, ht, hbad⟩ : ∃ t, t < nidx ∧ (idx t < 0 ∨ idx t ≥ nslon * nslat) := by
          rcases h with g | g | g | g | g
          · exact absurd g h0
          · exact absurd (Or.inl g) h1
          · exact absurd (Or.inr g) h1
          · exact absurd g h2
          · exact g
        obtain ⟨b, e, hb⟩ := forM_inv (Nat.zero_le nidx) (s := true) (f := fun i ok =>
          if ok then do
            let k ← rd0 nidx idx i
            return !(decide (k < 0) || decide (k ≥ ((nslon * nslat : ℕ) : ℤ)))
          else return false) (fun r b => t < r → b = false) (by intro h; omega)
          (by
            rintro i b - hi hb
            by_cases hi' : t < i
            · rw [hb hi']
              exact ⟨false, by simp, fun _ => rfl⟩
            · cases b with
              | false => exact ⟨false, by simp, fun _ => rfl⟩
              | true =>
                rw [if_pos rfl, rd0_ok hi]
                simp only [Option.bind_eq_bind, Option.bind_some]
                refine ⟨_, rfl, ?_⟩
                intro h3
                have : i = t := by omega
                subst this
                push_cast
                rcases hbad with g | g <;> simp [g])
        rw [e, hb ht]
        rfl

/-- C41: search and copy together: at every target point the value of the nearest source point (the first one if several are
equally near). -/
theorem C41_nearest_value {α : Type} {src tgt : Grid ℝ} (h1 : 0 < src.nlon) (h2 : 0 < src.nlat) (h3 : 0 < tgt.nlon)
    (h4 : 0 < tgt.nlat) {field : NDArr α} {s : List ℕ} (hshape : field.shape = s ++ [src.nlon, src.nlat]) :
    ∃ ind R, nearestIndices src.nlon src.nlat src.lon src.lat tgt.nlon tgt.nlat tgt.lon tgt.lat = .ok ind ∧
      nearestRegrid src.nlon src.nlat tgt.nlon tgt.nlat (tgt.nlon * tgt.nlat) (fun t => (ind t : ℤ)) field = .ok R ∧
      R.shape = s ++ [tgt.nlon, tgt.nlat] ∧ ∀ l i j, InB s l → i < tgt.nlon → j < tgt.nlat →
        ∃ c d, c < src.nlon ∧ d < src.nlat ∧ R.get (l ++ [i, j]) = some (field.get (l ++ [c, d])) ∧
          ∀ c' d', c' < src.nlon → d' < src.nlat → Spec.angle (tgt.lon i) (tgt.lat j) (src.lon c) (src.lat d) ≤
            Spec.angle (tgt.lon i) (tgt.lat j) (src.lon c') (src.lat d') := by
  obtain ⟨ind, e, h⟩ := C41_nearest h1 h2 h3 h4 src.lon src.lat tgt.lon tgt.lat
  obtain ⟨R, e', hs, hR⟩ := C41_copies h3 h4 (idx := fun t => (ind t : ℤ)) hshape (by
    intro t ht
    refine ⟨by positivity, ?_⟩
    have hq : t / tgt.nlat * tgt.nlat + t % tgt.nlat = t := by rw [Nat.mul_comm]; exact Nat.div_add_mod t tgt.nlat
    obtain ⟨c, d, hc, hd, hi, -⟩ := h (t / tgt.nlat) (t % tgt.nlat) ((Nat.div_lt_iff_lt_mul h4).mpr ht) (Nat.mod_lt _ h4)
    rw [hq] at hi
    rw [hi]
    exact_mod_cast flat_lt hc hd)
  refine ⟨ind, R, e, e', hs, ?_⟩
  intro l i j hl hi hj
  obtain ⟨c, d, hc, hd, hk, hmin, -⟩ := h i j hi hj
  exact ⟨c, d, hc, hd, hR l i j c d hl hi hj hc hd (by rw [hk]), hmin⟩

end Skyborn.Regrid
