import Verif.MK.PyPlain
import Verif.Common.Folds

namespace Skyborn.MK.Py

open Skyborn Skyborn.MK Finset Spec

/-! ### congruence of the closed forms -/

theorem score_congr {n : ℕ} {y y' : ℕ → ℝ} (h : ∀ i, 1 ≤ i → i ≤ n → y i = y' i) : score n y = score n y' := by
  unfold score
  refine Finset.sum_congr rfl fun p hp => ?_
  rw [mem_pairs] at hp
  rw [h _ (by omega) (by omega), h _ (by omega) (by omega)]

theorem sc_congr {n : ℕ} {y y' : ℕ → ℝ} (h : ∀ i, i < n → y i = y' i) : sc n y = sc n y' :=
  score_congr fun i i1 i2 => h (i - 1) (by omega)

theorem values_congr {n : ℕ} {y y' : ℕ → ℝ} (h : ∀ i, 1 ≤ i → i ≤ n → y i = y' i) : values n y = values n y' := by
  rw [values_eq_bufList, values_eq_bufList, bufList_congr h]

theorem tv_congr {n : ℕ} {y y' : ℕ → ℝ} (h : ∀ i, i < n → y i = y' i) : tv n y = tv n y' := by
  unfold tv
  rw [values_congr (y := buf y) (y' := buf y') fun i i1 i2 => h (i - 1) (by omega)]

theorem dietzKilleen_congr {n : ℕ} {x x' y y' : ℕ → ℝ} (hx : ∀ i, 1 ≤ i → i ≤ n → x i = x' i)
    (hy : ∀ i, 1 ≤ i → i ≤ n → y i = y' i) : dietzKilleen n x y = dietzKilleen n x' y' := by
  unfold dietzKilleen
  have e1 : ∑ p ∈ pairs n, sgn ((x p.2 - x p.1) * (y p.2 - y p.1)) =
      ∑ p ∈ pairs n, sgn ((x' p.2 - x' p.1) * (y' p.2 - y' p.1)) := by
    refine Finset.sum_congr rfl fun p hp => ?_
    rw [mem_pairs] at hp
    rw [hx _ (by omega) (by omega), hx _ (by omega) (by omega), hy _ (by omega) (by omega), hy _ (by omega) (by omega)]
  have e2 : ∑ i ∈ Icc 1 n, midRank n x i * midRank n y i = ∑ i ∈ Icc 1 n, midRank n x' i * midRank n y' i := by
    refine Finset.sum_congr rfl fun i hi => ?_
    rw [Finset.mem_Icc] at hi
    rw [midRank_congr hx hi.1 hi.2, midRank_congr hy hi.1 hi.2]
  rw [e1, e2]

/-- the correlated kernel only looks at the complete cycles -/
theorem correlatedGroupedStats_congr {n n' p : ℕ} (hn : n / p = n' / p) {y y' : ℕ → ℝ}
    (h : ∀ i, 1 ≤ i → i ≤ n / p * p → y i = y' i) : correlatedGroupedStats n p y = correlatedGroupedStats n' p y' := by
  rw [C50_correlated_closed_form, C50_correlated_closed_form, ← hn]
  have hg : ∀ g, g ∈ Icc 1 p → ∀ i, 1 ≤ i → i ≤ n / p → groupSeries p y g i = groupSeries p y' g i := by
    intro g hg i i1 i2
    rw [Finset.mem_Icc] at hg
    unfold groupSeries
    apply h _ (by omega)
    obtain ⟨k, rfl⟩ : ∃ k, i = k + 1 := ⟨i - 1, by omega⟩
    calc g + (k + 1 - 1) * p ≤ p + k * p := by simp; omega
      _ = (k + 1) * p := by ring
      _ ≤ n / p * p := Nat.mul_le_mul_right _ i2
  congr 1
  · exact Finset.sum_congr rfl fun g hgm => score_congr (hg g hgm)
  · congr 1
    exact Finset.sum_congr rfl fun g hgm => Finset.sum_congr rfl fun k hk => dietzKilleen_congr (hg g hgm) (hg k hk)

/-! ### sums over groups -/

theorem sc_zero (y : ℕ → ℝ) : sc 0 y = 0 := by simp [sc, score, pairs_small]
theorem tv_zero (y : ℕ → ℝ) : tv 0 y = 0 := by simp [tv, tieVariance, values]

/-- number of samples of a season (0-based) in a series of length `n` -/
def seasonLen (n p s : ℕ) : ℕ := (n - s + p - 1) / p

theorem lt_seasonLen {n p s c : ℕ} (hp : 0 < p) : c < seasonLen n p s ↔ s + c * p < n := by
  unfold seasonLen
  rw [Nat.lt_iff_add_one_le, Nat.le_div_iff_mul_le hp]
  rw [show (c + 1) * p = c * p + p by ring]
  omega

theorem groupSums_eq (rows groups : ℕ) (matrix : ℕ → ℕ → Option ℝ) (W : ℕ → ℝ) :
    groupSums rows groups matrix W =
      some (∑ g ∈ range groups, sc (finiteColumn rows fun c => matrix c g).length (elems (finiteColumn rows fun c => matrix c g)),
        ∑ g ∈ range groups, tv (finiteColumn rows fun c => matrix c g).length (elems (finiteColumn rows fun c => matrix c g)),
        ∑ g ∈ range groups, (1 / 2 : ℝ) * (finiteColumn rows fun c => matrix c g).length *
          (((finiteColumn rows fun c => matrix c g).length : ℝ) - 1)) := by
  unfold groupSums
  set F : ℕ → List ℝ := fun g => finiteColumn rows fun c => matrix c g with hF
  obtain ⟨s, e, hs⟩ := foldlM_range_inv (n := groups) (s := ((0 : ℝ), (0 : ℝ), (0 : ℝ)))
    (f := fun acc g => do
      let fin := finiteColumn rows fun c => matrix c g
      let n := fin.length
      if n = 0 then return acc
      else
        let r ← scoreVar n (elems fin) false W
        return (acc.1 + r.1, acc.2.1 + r.2.getD 0, acc.2.2 + (1 / 2 : ℝ) * n * ((n : ℝ) - 1)))
    (fun k acc => acc = (∑ g ∈ range k, sc (F g).length (elems (F g)), ∑ g ∈ range k, tv (F g).length (elems (F g)),
      ∑ g ∈ range k, (1 / 2 : ℝ) * (F g).length * (((F g).length : ℝ) - 1))) (by simp)
    (by
      intro g _ acc hacc
      simp only [scoreVar_false, Option.bind_eq_bind, Option.bind_some]
      rw [show (finiteColumn rows fun c => matrix c g) = F g from rfl]
      simp only [Finset.sum_range_succ]
      by_cases h0 : (F g).length = 0
      · rw [if_pos h0]
        refine ⟨acc, rfl, ?_⟩
        rw [hacc, h0]; simp [sc_zero, tv_zero]
      · rw [if_neg h0]
        exact ⟨_, rfl, by rw [hacc]; simp⟩)
  rw [e, hs]

theorem seasonalScoreVarBatch_eq {n m p : ℕ} (y : ℕ → ℕ → ℝ) (hp : 0 < p) (W : ℕ → ℝ) :
    ∃ st, seasonalScoreVarBatch n m y (p : ℤ) W = some st ∧
      (∀ j, j < m → st.1 j = ∑ s ∈ range p, sc (seasonLen n p s) (fun c => y j (s + c * p))) ∧
      (∀ j, j < m → st.2.1 j = ∑ s ∈ range p, tv (seasonLen n p s) (fun c => y j (s + c * p))) ∧
      st.2.2 = ∑ s ∈ range p, (1 / 2 : ℝ) * (seasonLen n p s) * ((seasonLen n p s : ℝ) - 1) := by
  unfold seasonalScoreVarBatch
  rw [if_neg (by omega)]
  simp only [Int.toNat_natCast]
  obtain ⟨s, e, hs⟩ := foldlM_range_inv (n := p) (s := ((fun _ => (0 : ℝ)), (fun _ => (0 : ℝ)), (0 : ℝ)))
    (f := fun (acc : (ℕ → ℝ) × (ℕ → ℝ) × ℝ) season => do
        let k := (n - season + p - 1) / p
        if k = 0 then return acc
        else
          let r ← columns m (fun _ => ((0 : ℝ), (none : Option ℝ))) fun j =>
            scoreVar k (fun c => y j (season + c * p)) false W
          return (fun j => acc.1 j + (r j).1, fun j => acc.2.1 j + (r j).2.getD 0,
            acc.2.2 + (1 / 2 : ℝ) * k * ((k : ℝ) - 1)))
    (fun k st => (∀ j, j < m → st.1 j = ∑ s ∈ range k, sc (seasonLen n p s) (fun c => y j (s + c * p))) ∧
      (∀ j, j < m → st.2.1 j = ∑ s ∈ range k, tv (seasonLen n p s) (fun c => y j (s + c * p))) ∧
      st.2.2 = ∑ s ∈ range k, (1 / 2 : ℝ) * (seasonLen n p s) * ((seasonLen n p s : ℝ) - 1)) (by simp)
    (by
      intro season _ acc ⟨h1, h2, h3⟩
      rw [show (n - season + p - 1) / p = seasonLen n p season from rfl]
      simp only [Finset.sum_range_succ]
      by_cases h0 : seasonLen n p season = 0
      · simp only [h0, if_true, sc_zero, tv_zero, add_zero]
        refine ⟨acc, rfl, h1, h2, by rw [h3]; simp⟩
      · simp only [h0, if_false]
        obtain ⟨w, ew, hw⟩ := columns_ok (m := m) (fun _ => ((0 : ℝ), (none : Option ℝ)))
          (k := fun j => scoreVar (seasonLen n p season) (fun c => y j (season + c * p)) false W)
          (fun j _ => scoreVar_false _ _ _)
        rw [ew]
        refine ⟨_, rfl, ?_, ?_, ?_⟩
        · intro j hj; simp only [h1 j hj, hw j hj]
        · intro j hj; simp only [h2 j hj, hw j hj, Option.getD_some]
        · simp only [h3])
  exact ⟨s, e, hs⟩

/-! ### reshaping -/

/-- number of rows of the padded season matrix -/
def seasonRows (n p : ℕ) : ℕ := (n + p - 1) / p

theorem reshapeSeasonal_eq (vals : List (Option ℝ)) {p : ℕ} (hp : 0 < p) :
    ∃ M, reshapeSeasonal vals (p : ℤ) = some (seasonRows vals.length p, M) ∧
      ∀ c s, M c s = vals.getD (c * p + s) none := by
  unfold reshapeSeasonal
  rw [if_neg (by omega)]
  simp only [Int.toNat_natCast]
  have hrows : (if vals.length % p ≠ 0 then vals ++ List.replicate (p - vals.length % p) none else vals).length / p =
      seasonRows vals.length p := by
    unfold seasonRows
    have hd := Nat.div_add_mod vals.length p
    have hm := Nat.mod_lt vals.length hp
    set q := vals.length / p
    set r := vals.length % p
    split_ifs with h
    · rw [List.length_append, List.length_replicate, ← hd, Nat.div_eq_of_lt_le (k := q + 1), Nat.div_eq_of_lt_le (k := q + 1)]
      · rw [show (q + 1) * p = p * q + p by ring]; omega
      · rw [show (q + 1 + 1) * p = p * q + 2 * p by ring]; omega
      · rw [show (q + 1) * p = p * q + p by ring]; omega
      · rw [show (q + 1 + 1) * p = p * q + 2 * p by ring]; omega
    · have h : r = 0 := by omega
      rw [← hd, h, Nat.div_eq_of_lt_le (k := q), Nat.div_eq_of_lt_le (k := q)]
      · rw [show q * p = p * q by ring]; omega
      · rw [show (q + 1) * p = p * q + p by ring]; omega
      · rw [show q * p = p * q by ring]; omega
      · rw [show (q + 1) * p = p * q + p by ring]; omega
  refine ⟨_, by rw [hrows], ?_⟩
  intro c s
  split_ifs with h
  · rcases Nat.lt_or_ge (c * p + s) vals.length with h' | h'
    · rw [List.getD_append _ _ _ _ h']
    · rw [List.getD_append_right _ _ _ _ h', List.getD_eq_default _ _ h']
      rcases Nat.lt_or_ge (c * p + s - vals.length) (p - vals.length % p) with h'' | h''
      · rw [List.getD_replicate _ h'']
      · rw [List.getD_eq_default]; simpa using h''
  · rfl

theorem seasonRows_le {n p c : ℕ} (hp : 0 < p) : seasonRows n p ≤ c ↔ n ≤ c * p := by
  unfold seasonRows
  rw [← Nat.lt_add_one_iff, Nat.div_lt_iff_lt_mul hp, show (c + 1) * p = c * p + p by ring]
  omega

/-- with nothing missing, the finite part of a column of the padded matrix is the strided season -/
theorem finiteColumn_clean {l : List ℝ} {p s : ℕ} (hp : 0 < p) :
    finiteColumn (seasonRows l.length p) (fun c => (l.map some).getD (c * p + s) none) =
      (List.range (seasonLen l.length p s)).map fun c => elems l (s + c * p) := by
  unfold finiteColumn
  have hle : seasonLen l.length p s ≤ seasonRows l.length p := by
    by_contra h
    push Not at h
    have := (lt_seasonLen hp).mp h
    have := (seasonRows_le (n := l.length) (c := seasonRows l.length p) hp).mp le_rfl
    omega
  obtain ⟨d, hd⟩ := Nat.exists_eq_add_of_le hle
  rw [hd, List.range_add, List.map_append, List.reduceOption_append]
  have e1 : (List.range (seasonLen l.length p s)).map (fun c => (l.map some).getD (c * p + s) none) =
      ((List.range (seasonLen l.length p s)).map fun c => elems l (s + c * p)).map some := by
    rw [List.map_map]
    refine List.map_congr_left fun c hc => ?_
    have hc' := (lt_seasonLen hp).mp (List.mem_range.mp hc)
    have hlt : c * p + s < l.length := by omega
    simp only [Function.comp, elems]
    rw [List.getD_eq_getElem _ _ (by simpa using hlt), List.getElem_map, show s + c * p = c * p + s by omega,
      List.getD_eq_getElem _ _ hlt]
  have e2 : ((List.map (fun x => seasonLen l.length p s + x) (List.range d)).map
      (fun c => (l.map some).getD (c * p + s) none)).reduceOption = [] := by
    have : ((List.map (fun x => seasonLen l.length p s + x) (List.range d)).map
      (fun c => (l.map some).getD (c * p + s) none)) = List.replicate d none := by
      rw [List.map_map, List.eq_replicate_iff]
      refine ⟨by simp, fun b hb => ?_⟩
      obtain ⟨c, -, rfl⟩ := List.mem_map.mp hb
      have : ¬ (seasonLen l.length p s + c < seasonLen l.length p s) := by omega
      rw [lt_seasonLen hp] at this
      simp only [Function.comp]
      rw [List.getD_eq_default]
      simp; omega
    rw [this]; simp
  rw [e1, e2, reduceOption_map_some, List.append_nil]

theorem elems_map_range {k : ℕ} (f : ℕ → ℝ) {i : ℕ} (hi : i < k) : elems ((List.range k).map f) i = f i := by
  unfold elems
  rw [List.getD_eq_getElem _ _ (by simpa using hi)]; simp

/-! ### within-season slopes -/

/-- value at a 1-based time, `0` if missing -/
noncomputable def valAt (vals : List (Option ℝ)) (i : ℕ) : ℝ := (vals.getD (i - 1) none).getD 0

/-- is the sample at a 1-based time present? -/
def present (vals : List (Option ℝ)) (i : ℕ) : Prop := (vals.getD (i - 1) none).isSome = true

instance (vals : List (Option ℝ)) (i : ℕ) : Decidable (present vals i) := by unfold present; infer_instance

/-- slopes of all pairs of present samples of the same season, per cycle -/
noncomputable def Spec.seasonSlopesGaps (vals : List (Option ℝ)) (p : ℕ) : Multiset ℝ :=
  ((seasonPairs vals.length p).filter fun q => present vals q.1 ∧ present vals q.2).val.map
    fun q => (valAt vals q.2 - valAt vals q.1) / (((q.2 : ℝ) - (q.1 : ℝ)) / (p : ℝ))

theorem map_val_eq_sum {ι β : Type} (s : Finset ι) (f : ι → β) : s.val.map f = ∑ x ∈ s, ({f x} : Multiset β) := by
  rw [Finset.sum]
  have e : (fun p => ({f p} : Multiset β)) = (fun x => ({x} : Multiset β)) ∘ f := rfl
  rw [e, ← Multiset.map_map, Multiset.sum_map_singleton]

theorem filterMap_range'_sum {β : Type} (a k : ℕ) (f : ℕ → Option β) :
    (((List.range' a k).filterMap f : List β) : Multiset β) =
      ∑ j ∈ Ico a (a + k), (match f j with | none => (0 : Multiset β) | some v => {v}) := by
  induction k with
  | zero => simp
  | succ k ih =>
    rw [List.range'_1_concat, List.filterMap_append, ← Multiset.coe_add, ih, ← add_assoc,
      Finset.sum_Ico_succ_top (by omega)]
    congr 1
    cases h : f (a + k) <;> simp [h]

theorem seasonPairs_sum {M : Type*} [AddCommMonoid M] {p rows n : ℕ} (hp : 0 < p) (hn : n ≤ rows * p) (F : ℕ → ℕ → M)
    (hF : ∀ i j, i < j → n < j → F i j = 0) :
    ∑ g ∈ range p, ∑ i ∈ range rows, ∑ j ∈ Ico (i + 1) rows, F (i * p + g + 1) (j * p + g + 1) =
      ∑ q ∈ seasonPairs n p, F q.1 q.2 := by
  have hsub : ∑ q ∈ seasonPairs n p, F q.1 q.2 = ∑ q ∈ seasonPairs (rows * p) p, F q.1 q.2 := by
    apply Finset.sum_subset
    · intro q hq
      simp only [seasonPairs, Finset.mem_filter, mem_pairs] at hq ⊢
      exact ⟨⟨hq.1.1, hq.1.2.1, by omega⟩, hq.2⟩
    · intro q hq hq'
      simp only [seasonPairs, Finset.mem_filter, mem_pairs] at hq hq'
      apply hF _ _ hq.1.2.1
      by_contra h
      exact hq' ⟨⟨hq.1.1, hq.1.2.1, by omega⟩, hq.2⟩
  rw [hsub]
  have hl : ∑ g ∈ range p, ∑ i ∈ range rows, ∑ j ∈ Ico (i + 1) rows, F (i * p + g + 1) (j * p + g + 1) =
      ∑ x ∈ (range p ×ˢ (range rows ×ˢ range rows)).filter (fun x => x.2.1 < x.2.2),
        F (x.2.1 * p + x.1 + 1) (x.2.2 * p + x.1 + 1) := by
    rw [Finset.sum_filter, Finset.sum_product]
    refine Finset.sum_congr rfl fun g _ => ?_
    rw [Finset.sum_product]
    refine Finset.sum_congr rfl fun i _ => ?_
    rw [← Finset.sum_filter]
    apply Finset.sum_congr _ fun _ _ => rfl
    ext j; simp [Finset.mem_Ico]; omega
  rw [hl]
  refine Finset.sum_nbij' (fun x => (x.2.1 * p + x.1 + 1, x.2.2 * p + x.1 + 1))
    (fun q => ((q.1 - 1) % p, (q.1 - 1) / p, (q.2 - 1) / p)) ?_ ?_ ?_ ?_ ?_
  · rintro ⟨g, i, j⟩ hx
    simp only [Finset.mem_filter, Finset.mem_product, Finset.mem_range, seasonPairs, mem_pairs] at hx ⊢
    obtain ⟨⟨hg, hi, hj⟩, hij⟩ := hx
    have h1 : (i + 1) * p ≤ j * p := Nat.mul_le_mul_right _ hij
    have h2 : (j + 1) * p ≤ rows * p := Nat.mul_le_mul_right _ hj
    rw [add_mul, one_mul] at h1 h2
    refine ⟨⟨by omega, by omega, by omega⟩, ?_⟩
    rw [add_assoc, add_assoc, Nat.mul_add_mod_self_right, Nat.mul_add_mod_self_right]
  · rintro ⟨a, b⟩ hq
    simp only [Finset.mem_filter, Finset.mem_product, Finset.mem_range, seasonPairs, mem_pairs] at hq ⊢
    obtain ⟨⟨h1, h2, h3⟩, h4⟩ := hq
    have hb : (b - 1) / p < rows := by rw [Nat.div_lt_iff_lt_mul hp]; omega
    have ha : (a - 1) / p < rows := by rw [Nat.div_lt_iff_lt_mul hp]; omega
    refine ⟨⟨Nat.mod_lt _ hp, ha, hb⟩, ?_⟩
    obtain ⟨a, rfl⟩ : ∃ a', a = a' + 1 := ⟨a - 1, by omega⟩
    obtain ⟨b, rfl⟩ : ∃ b', b = b' + 1 := ⟨b - 1, by omega⟩
    simp only [Nat.add_sub_cancel]
    have h5 : a % p = b % p := Nat.ModEq.add_right_cancel' 1 h4
    have e1 := Nat.div_add_mod a p
    have e2 := Nat.div_add_mod b p
    rw [h5] at e1
    have : p * (a / p) < p * (b / p) := by omega
    exact lt_of_mul_lt_mul_left' this
  · rintro ⟨g, i, j⟩ hx
    simp only [Finset.mem_filter, Finset.mem_product, Finset.mem_range] at hx
    obtain ⟨⟨hg, hi, hj⟩, hij⟩ := hx
    simp only [Nat.add_sub_cancel, Prod.mk.injEq]
    refine ⟨?_, ?_, ?_⟩
    · rw [Nat.mul_add_mod_self_right]; exact Nat.mod_eq_of_lt hg
    · rw [Nat.mul_comm, Nat.mul_add_div hp, Nat.div_eq_of_lt hg, add_zero]
    · rw [Nat.mul_comm, Nat.mul_add_div hp, Nat.div_eq_of_lt hg, add_zero]
  · rintro ⟨a, b⟩ hq
    simp only [Finset.mem_filter, seasonPairs, mem_pairs] at hq
    obtain ⟨⟨h1, h2, h3⟩, h4⟩ := hq
    obtain ⟨a, rfl⟩ : ∃ a', a = a' + 1 := ⟨a - 1, by omega⟩
    obtain ⟨b, rfl⟩ : ∃ b', b = b' + 1 := ⟨b - 1, by omega⟩
    simp only [Nat.add_sub_cancel, Prod.mk.injEq]
    have h5 : a % p = b % p := Nat.ModEq.add_right_cancel' 1 h4
    have e1 := Nat.div_add_mod' a p
    have e2 := Nat.div_add_mod' b p
    refine ⟨by omega, ?_⟩
    rw [h5]; omega
  · rintro ⟨g, i, j⟩ _; rfl

/-- The three nested loops collect every within-season slope between present samples exactly once. -/
theorem groupSlopes_eq (vals : List (Option ℝ)) {p : ℕ} (hp : 0 < p) (M : ℕ → ℕ → Option ℝ)
    (hM : ∀ c s, M c s = vals.getD (c * p + s) none) :
    (groupSlopes (seasonRows vals.length p) p M : Multiset ℝ) = Spec.seasonSlopesGaps vals p := by
  set rows := seasonRows vals.length p with hr
  have hrows : vals.length ≤ rows * p := (seasonRows_le hp).mp le_rfl
  set F : ℕ → ℕ → Multiset ℝ := fun a b => if present vals a ∧ present vals b then
    {(valAt vals b - valAt vals a) / (((b : ℝ) - (a : ℝ)) / (p : ℝ))} else 0 with hF
  have h := seasonPairs_sum (n := vals.length) (rows := rows) hp hrows F (by
    intro i j hij hj
    rw [hF]; simp only
    rw [if_neg]
    rintro ⟨-, hpj⟩
    unfold present at hpj
    rw [List.getD_eq_default _ _ (by omega)] at hpj
    simp at hpj)
  unfold Spec.seasonSlopesGaps
  rw [map_val_eq_sum, Finset.sum_filter]
  refine Eq.trans ?_ h
  unfold groupSlopes
  rw [coe_flatMap_range]
  refine Finset.sum_congr rfl fun g _ => ?_
  rw [coe_flatMap_range]
  have hlast : ∑ i ∈ range rows, ∑ j ∈ Ico (i + 1) rows, F (i * p + g + 1) (j * p + g + 1) =
      ∑ i ∈ range (rows - 1), ∑ j ∈ Ico (i + 1) rows, F (i * p + g + 1) (j * p + g + 1) := by
    rcases Nat.eq_zero_or_pos rows with h0 | h0
    · rw [h0]
    · obtain ⟨k, hk⟩ : ∃ k, rows = k + 1 := ⟨rows - 1, by omega⟩
      rw [hk, Finset.sum_range_succ, Nat.add_sub_cancel]; simp
  rw [hlast]
  refine Finset.sum_congr rfl fun i hi => ?_
  have hi' : i < rows - 1 := by simpa using hi
  rw [hM]
  have hpr : ∀ c, present vals (c * p + g + 1) ↔ (vals.getD (c * p + g) none).isSome = true := by intro c; rfl
  have hva : ∀ c, valAt vals (c * p + g + 1) = (vals.getD (c * p + g) none).getD 0 := by intro c; rfl
  cases hvi : vals.getD (i * p + g) none with
  | none =>
    symm
    simp only [Multiset.coe_nil]
    apply Finset.sum_eq_zero
    intro j _
    rw [hF]; simp only
    rw [if_neg]
    rintro ⟨h1, -⟩
    rw [hpr, hvi] at h1; simp at h1
  | some vi =>
    simp only
    rw [filterMap_range'_sum, show i + 1 + (rows - (i + 1)) = rows by omega]
    refine Finset.sum_congr rfl fun j hj => ?_
    rw [Finset.mem_Ico] at hj
    rw [hM, hF]
    simp only
    cases hvj : vals.getD (j * p + g) none with
    | none =>
      rw [if_neg]
      rintro ⟨-, h1⟩
      rw [hpr, hvj] at h1; simp at h1
    | some vj =>
      rw [if_pos ⟨by rw [hpr, hvi]; rfl, by rw [hpr, hvj]; rfl⟩, hva, hva, hvi, hvj]
      simp only [Option.getD_some, Multiset.singleton_inj]
      congr 1
      have : (p : ℝ) ≠ 0 := by exact_mod_cast hp.ne'
      push_cast
      field_simp
      ring

theorem seasonalSlopeScalar_eq (vals : List (Option ℝ)) {p : ℕ} (hp : 0 < p) :
    seasonalSlopeScalar vals (p : ℤ) = some (if Spec.seasonSlopesGaps vals p = 0 then none
      else some (median (Spec.seasonSlopesGaps vals p))) := by
  unfold seasonalSlopeScalar
  obtain ⟨M, e, hM⟩ := reshapeSeasonal_eq vals hp
  rw [e]
  simp only [Option.bind_eq_bind, Option.bind_some, Int.toNat_natCast]
  have h := groupSlopes_eq vals hp M hM
  unfold medianOrNan
  rw [h]
  have : groupSlopes (seasonRows vals.length p) p M = [] ↔ Spec.seasonSlopesGaps vals p = 0 := by
    rw [← h, Multiset.coe_eq_zero]
  simp [this]

theorem getD_map_some (l : List ℝ) (k : ℕ) : (l.map some).getD k none = if k < l.length then some (elems l k) else none := by
  split_ifs with h
  · rw [List.getD_eq_getElem _ _ (by simpa using h)]
    unfold elems
    rw [List.getD_eq_getElem _ _ h, List.getElem_map]
  · rw [List.getD_eq_default]; simpa using h

theorem seasonSlopesGaps_clean (l : List ℝ) (p : ℕ) :
    Spec.seasonSlopesGaps (l.map some) p = seasonSlopes l.length p (buf (elems l)) := by
  unfold Spec.seasonSlopesGaps seasonSlopes
  have h1 : ∀ i, 1 ≤ i → i ≤ l.length → present (l.map some) i := by
    intro i i1 i2
    unfold present
    rw [getD_map_some, if_pos (by omega)]; rfl
  have h2 : ∀ i, 1 ≤ i → i ≤ l.length → valAt (l.map some) i = buf (elems l) i := by
    intro i i1 i2
    unfold valAt
    rw [getD_map_some, if_pos (by omega)]; rfl
  have e : ((seasonPairs (l.map some).length p).filter fun q => present (l.map some) q.1 ∧ present (l.map some) q.2) =
      seasonPairs l.length p := by
    rw [List.length_map, Finset.filter_eq_self]
    intro q hq
    simp only [seasonPairs, Finset.mem_filter, mem_pairs] at hq
    exact ⟨h1 _ (by omega) (by omega), h1 _ (by omega) (by omega)⟩
  rw [e]
  refine Multiset.map_congr rfl fun q hq => ?_
  have hq : q ∈ seasonPairs l.length p := hq
  simp only [seasonPairs, Finset.mem_filter, mem_pairs] at hq
  rw [h2 _ (by omega) (by omega), h2 _ (by omega) (by omega)]

theorem groupedSenSlope_clean (l : List ℝ) {p : ℕ} (hp : 0 < p) (W : ℕ → ℝ) :
    groupedSenSlope l.length p (buf (elems l)) W = seasonalSlopeScalar (l.map some) (p : ℤ) := by
  rw [C14_seasonal_slope _ _ hp, seasonalSlopeScalar_eq _ hp, seasonSlopesGaps_clean]
  have : (seasonPairs l.length p).card = 0 ↔ seasonSlopes l.length p (buf (elems l)) = 0 := by
    unfold seasonSlopes
    rw [Multiset.map_eq_zero, Finset.card_eq_zero, Finset.val_eq_zero]
  simp [this]

theorem seasonalScoreVarScalar_clean (l : List ℝ) {p : ℕ} (hp : 0 < p) (W : ℕ → ℝ) :
    seasonalScoreVarScalar (l.map some) (p : ℤ) W =
      some (∑ s ∈ range p, sc (seasonLen l.length p s) (fun c => elems l (s + c * p)),
        ∑ s ∈ range p, tv (seasonLen l.length p s) (fun c => elems l (s + c * p)),
        ∑ s ∈ range p, (1 / 2 : ℝ) * (seasonLen l.length p s) * ((seasonLen l.length p s : ℝ) - 1)) := by
  unfold seasonalScoreVarScalar
  obtain ⟨M, e, hM⟩ := reshapeSeasonal_eq (l.map some) hp
  rw [e]
  simp only [Option.bind_eq_bind, Option.bind_some, Int.toNat_natCast, groupSums_eq, hM, List.length_map,
    finiteColumn_clean hp, List.length_range]
  have h1 : ∀ s, sc (seasonLen l.length p s) (elems ((List.range (seasonLen l.length p s)).map fun c => elems l (s + c * p)))
      = sc (seasonLen l.length p s) (fun c => elems l (s + c * p)) := by
    intro s; exact sc_congr fun i hi => elems_map_range _ hi
  have h2 : ∀ s, tv (seasonLen l.length p s) (elems ((List.range (seasonLen l.length p s)).map fun c => elems l (s + c * p)))
      = tv (seasonLen l.length p s) (fun c => elems l (s + c * p)) := by
    intro s; exact tv_congr fun i hi => elems_map_range _ hi
  simp only [h1, h2]

theorem filter_range_lt (n k : ℕ) (P : ℕ → Bool) (h : ∀ i, i < n → (P i = true ↔ i < k)) (hk : k ≤ n) :
    (List.range n).filter P = List.range k := by
  obtain ⟨d, rfl⟩ := Nat.exists_eq_add_of_le hk
  rw [List.range_add, List.filter_append, List.filter_eq_self.mpr, List.filter_eq_nil_iff.mpr, List.append_nil]
  · intro a ha
    obtain ⟨i, hi, rfl⟩ := List.mem_map.mp ha
    have := h (k + i) (by simp at hi; omega)
    intro hh
    have := this.mp hh; omega
  · intro a ha
    have ha' := List.mem_range.mp ha
    exact (h a (by omega)).mpr ha'

theorem correlatedSeasonalScalar_clean (l : List ℝ) {p : ℕ} (hp : 0 < p) :
    correlatedSeasonalScalar (l.map some) (p : ℤ) = some (correlatedGroupedStats l.length p (buf (elems l))) := by
  unfold correlatedSeasonalScalar
  obtain ⟨M, e, hM⟩ := reshapeSeasonal_eq (l.map some) hp
  rw [e]
  simp only [Option.bind_eq_bind, Option.bind_some, Int.toNat_natCast, List.length_map]
  show some _ = some _
  congr 1
  unfold correlatedMatrixStats
  have hv : ((List.range (seasonRows l.length p)).filter fun c => (List.range p).all fun g => (M c g).isSome) =
      List.range (l.length / p) := by
    apply filter_range_lt
    · intro c _
      simp only [List.all_eq_true, List.mem_range, hM, getD_map_some]
      have key : (∀ g, g < p → (if c * p + g < l.length then some (elems l (c * p + g)) else none).isSome = true) ↔
          c * p + p ≤ l.length := by
        constructor
        · intro hh
          have := hh (p - 1) (by omega)
          split_ifs at this with h1
          · omega
          · simp at this
        · intro hh g hg
          rw [if_pos (by omega)]; rfl
      rw [key, Nat.lt_iff_add_one_le, Nat.le_div_iff_mul_le hp, add_mul, one_mul]
    · unfold seasonRows
      exact Nat.div_le_div_right (by omega)
  simp only [hv, List.length_range]
  have hdm := Nat.div_mul_le_self l.length p
  split_ifs with h0
  · have h0 : l.length / p = 0 := by omega
    rw [C50_correlated_closed_form, h0]
    simp [dietzKilleen, score, pairs_small]
  · apply correlatedGroupedStats_congr
    · exact Nat.mul_div_cancel _ hp
    · intro i i1 i2
      rw [Nat.mul_div_cancel _ hp] at i2
      obtain ⟨k, rfl⟩ : ∃ k, i = k + 1 := ⟨i - 1, by omega⟩
      simp only [buf, Nat.add_sub_cancel, hM]
      have hk : k / p < l.length / p := by rw [Nat.div_lt_iff_lt_mul hp]; omega
      have hg : (List.range (l.length / p)).getD (k / p) 0 = k / p := by
        rw [List.getD_eq_getElem _ _ (by simpa using hk), List.getElem_range]
      rw [hg, Nat.div_add_mod', getD_map_some, if_pos (by omega)]
      rfl

theorem finiteIdx_clean (l : List ℝ) : finiteIdx (l.map some) = List.range l.length := by
  unfold finiteIdx
  rw [List.length_map, List.filter_eq_self]
  intro i hi
  rw [getD_map_some, if_pos (List.mem_range.mp hi)]; rfl

/-- Seasonal families with Theil-Sen slopes: the batch path gives each clean column the result of the 1-D test. -/
theorem batch_season_ok (E : Env) (cfg : Cfg) (hs : cfg.test = .seasonal ∨ cfg.test = .correlatedSeasonal)
    (hmeth : cfg.method = .theilslopes) (hper : 0 < cfg.period) {n m : ℕ}
    (hn : 3 ≤ n) (hm : 0 < m) (l : ℕ → List ℝ) (hl : ∀ j, j < m → (l j).length = n) (W : ℕ → ℝ) :
    ∃ st, batchStats E cfg n m (fun j => elems (l j)) W = some st ∧ ∀ j, j < m →
      mkTest E cfg ((l j).map some) W = some (batchRes E cfg n (fun j => elems (l j)) st j) := by
  obtain ⟨p, hp⟩ : ∃ p : ℕ, cfg.period = (p : ℤ) := ⟨cfg.period.toNat, by omega⟩
  have hp0 : 0 < p := by omega
  have hne : ¬ cfg.period = 0 := by omega
  obtain ⟨sl, esl, hsl⟩ := columns_ok (m := m) (fun _ => (none : Option ℝ))
    (k := fun j => if cfg.period = 0 then none else groupedSenSlope n cfg.period.toNat (buf (elems (l j))) W)
    (g := fun j => if Spec.seasonSlopesGaps ((l j).map some) p = 0 then none
      else some (median (Spec.seasonSlopesGaps ((l j).map some) p)))
    (fun j hj => by
      rw [if_neg hne, hp, Int.toNat_natCast, ← hl j hj, groupedSenSlope_clean _ hp0, seasonalSlopeScalar_eq _ hp0])
  have hstd : ∀ j, j < m → ∀ (b : Option ℝ) (a : Option ℝ), b.isSome = a.isSome →
      stdErrorScalar n (fun i => (((List.range n).getD i 0 : ℕ) : ℝ) / (p : ℝ)) (elems (l j)) b a =
      stdErrorBatch cfg n (elems (l j)) b := by
    intro j hj b a hba
    unfold stdErrorBatch
    cases b with
    | none =>
      cases a with
      | none => rfl
      | some a => simp at hba
    | some b =>
      cases a with
      | none => simp at hba
      | some a =>
        rw [stdErrorScalar_eq (by omega)]
        simp only [hmeth, hs, if_true]
        rw [hp]
        unfold resStdErr
        congr 2
        symm
        apply std_shift (by omega) (-(medianN n (elems (l j)) - ((1 / 2 : ℝ) * ((n : ℝ) - 1) / ((p : ℤ) : ℝ)) * b))
        intro i hi
        have hg : (List.range n).getD i 0 = i := by
          rw [List.getD_eq_getElem _ _ (by simpa using hi), List.getElem_range]
        simp only [hg]
        unfold arange
        push_cast
        ring
  have hred : ∀ j, ((l j).map some).reduceOption = l j := fun j => reduceOption_map_some _
  rcases hs with ht | ht
  · obtain ⟨st, est, h1, h2, h3⟩ := seasonalScoreVarBatch_eq (n := n) (m := m) (fun j => elems (l j)) hp0 W
    refine ⟨_, by simp only [batchStats, ht, hmeth]; rw [esl, hp, est]; rfl, fun j hj => ?_⟩
    unfold mkTest
    rw [if_pos (Or.inl ht)]
    unfold mkSeasonal
    simp only [hred, hl j hj, finiteIdx_clean]
    rw [if_neg (by omega)]
    simp only [hmeth, ht, if_true]
    rw [hp, seasonalScoreVarScalar_clean _ hp0, seasonalSlopeScalar_eq _ hp0]
    simp only [Option.bind_eq_bind, Option.bind_some, hl j hj]
    unfold batchRes
    simp only [ht, zBatch_eq, h1 j hj, h2 j hj, h3, hsl j hj]
    have := hstd j hj (if Spec.seasonSlopesGaps ((l j).map some) p = 0 then none
      else some (median (Spec.seasonSlopesGaps ((l j).map some) p)))
    refine congrArg some ?_
    congr 1
    · split_ifs <;> simp_all
    · apply this; simp
  · obtain ⟨st, est, h1⟩ := columns_ok (m := m) (fun _ => ((0 : ℝ), (0 : ℝ), (0 : ℝ)))
      (k := fun j => some (correlatedGroupedStats n cfg.period.toNat (buf (elems (l j))))) (fun j _ => rfl)
    refine ⟨_, by simp only [batchStats, ht, hmeth]; rw [esl]; simp only [Option.bind_eq_bind, Option.bind_some]; rw [est]; rfl,
      fun j hj => ?_⟩
    unfold mkTest
    rw [if_pos (Or.inr ht)]
    unfold mkSeasonal
    simp only [hred, hl j hj, finiteIdx_clean]
    rw [if_neg (by omega)]
    simp only [hmeth, ht, reduceCtorEq, if_false]
    rw [hp, correlatedSeasonalScalar_clean _ hp0, seasonalSlopeScalar_eq _ hp0]
    simp only [Option.bind_eq_bind, Option.bind_some, hl j hj]
    unfold batchRes
    simp only [ht, h1 j hj, hsl j hj, h1 0 hm, if_true, hp, Int.toNat_natCast]
    have := hstd j hj (if Spec.seasonSlopesGaps ((l j).map some) p = 0 then none
      else some (median (Spec.seasonSlopesGaps ((l j).map some) p)))
    have hd : (correlatedGroupedStats n p (buf (elems (l 0)))).2.2 = (correlatedGroupedStats n p (buf (elems (l j)))).2.2 := by
      rw [C50_correlated_closed_form, C50_correlated_closed_form]
    rw [hd]
    refine congrArg some ?_
    congr 1
    · split_ifs <;> simp_all
    · apply this; simp

end Skyborn.MK.Py
