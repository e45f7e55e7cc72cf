/-
Arrays with a latitude axis and a latitude band (core.py:226-381).
-/
import Verif.Growth.Batch

namespace Skyborn.Growth

open Classical

/-- The positions on the latitude axis that lie in the band and where `x` is a number. -/
noncomputable def Spec.counted (nlat : ℕ) (lat x : ℕ → Option ℝ) (b0 b1 : ℝ) : Finset ℕ :=
  (Finset.range nlat).filter fun j => (∃ y, lat j = some y ∧ (b0 ≤ y ∧ y ≤ b1 ∨ b1 ≤ y ∧ y ≤ b0)) ∧ x j ≠ none

/-- The cosine of a latitude in degrees. -/
noncomputable def Spec.weight (lat : ℕ → Option ℝ) (j : ℕ) : ℝ := Real.cos ((lat j).getD 0 * (Real.pi / 180))

/-- The cosine-weighted mean over the band of the values that are not missing; missing if all are missing (or the weights cancel). -/
noncomputable def Spec.bandMean (nlat : ℕ) (lat x : ℕ → Option ℝ) (b0 b1 : ℝ) : Option ℝ :=
  if ∑ j ∈ counted nlat lat x b0 b1, weight lat j = 0 then none
  else some ((∑ j ∈ counted nlat lat x b0 b1, weight lat j * (x j).getD 0) / ∑ j ∈ counted nlat lat x b0 b1, weight lat j)

/-- The array without its latitude axis `la`. -/
noncomputable def Spec.bandMeans (nlat : ℕ) (lat : ℕ → Option ℝ) (b0 b1 : ℝ) (a : NDArr (Option ℝ)) (la : ℕ) : NDArr (Option ℝ) :=
  ⟨a.shape.eraseIdx la, fun idx => bandMean nlat lat (fun j => a.get (idx.insertIdx la j)) b0 b1⟩

/-- The array has two or three axes; exactly one of them has the length of the pressure axis and of the others exactly one, `la`, that of the latitude
axis. -/
def Spec.LatAxis (np nlat : ℕ) (a : NDArr (Option ℝ)) (la : ℕ) : Prop :=
  (a.shape.length = 2 ∨ a.shape.length = 3) ∧ ∃ pa, pa ≠ la ∧ (∀ c, a.shape[c]? = some np ↔ c = pa) ∧ ∀ c, c ≠ pa → (a.shape[c]? = some nlat ↔ c = la)

theorem axesOf_mem (l : List ℕ) (n c : ℕ) : c ∈ axesOf l n ↔ l[c]? = some n := by
  unfold axesOf
  simp only [List.mem_filter, List.mem_range, decide_eq_true_eq, List.getD_eq_getElem?_getD]
  constructor
  · rintro ⟨a, b⟩
    rw [List.getElem?_eq_getElem a] at b ⊢
    exact congrArg some b
  · intro h
    obtain ⟨a, b⟩ := List.getElem?_eq_some_iff.mp h
    exact ⟨a, by rw [h]; rfl⟩

theorem nodup_single {l : List ℕ} (hd : l.Nodup) {x : ℕ} (h : ∀ c, c ∈ l ↔ c = x) : l = [x] := by
  match l, hd, h with
  | [], _, h => exact absurd ((h x).mpr rfl) (by simp)
  | [a], _, h => rw [(h a).mp (by simp)]
  | a :: b :: r, hd, h =>
    have e1 := (h a).mp (by simp)
    have e2 := (h b).mp (by simp)
    subst e1
    subst e2
    simp at hd

theorem axesOf_nodup (l : List ℕ) (n : ℕ) : (axesOf l n).Nodup := List.Nodup.filter _ List.nodup_range

theorem inside_iff (b0 b1 : ℝ) (x : Option ℝ) : insideBand b0 b1 x = true ↔ ∃ y, x = some y ∧ (b0 ≤ y ∧ y ≤ b1 ∨ b1 ≤ y ∧ y ≤ b0) := by
  rcases x with _ | x
  · simp [insideBand]
  · simp only [insideBand, decide_eq_true_eq, Option.some.injEq, exists_eq_left']
    constructor
    · rintro ⟨a, b⟩
      rcases min_le_iff.mp a with a | a <;> rcases le_max_iff.mp b with b | b
      · rcases le_total b0 b1 with k | k
        · exact Or.inl ⟨a, b.trans k⟩
        · exact Or.inr ⟨k.trans a, b⟩
      · exact Or.inl ⟨a, b⟩
      · exact Or.inr ⟨a, b⟩
      · rcases le_total b0 b1 with k | k
        · exact Or.inl ⟨k.trans a, b⟩
        · exact Or.inr ⟨a, b.trans k⟩
    · rintro (⟨a, b⟩ | ⟨a, b⟩)
      · exact ⟨min_le_iff.mpr (Or.inl a), le_max_iff.mpr (Or.inr b)⟩
      · exact ⟨min_le_iff.mpr (Or.inr a), le_max_iff.mpr (Or.inl b)⟩

theorem sum_filter_list (s : List ℕ) (hd : s.Nodup) (f : ℕ → ℝ) : (s.map f).sum = ∑ j ∈ s.toFinset, f j := (List.sum_toFinset f hd).symm

theorem weightedMean_eq (nlat : ℕ) (l : NDArr (Option ℝ)) (b0 b1 : ℝ) (x : ℕ → Option ℝ) :
    weightedMean (bandRows b0 b1 nlat l) (fun j => (l.get [j]).getD 0) x = Spec.bandMean nlat (fun j => l.get [j]) x b0 b1 := by
  have hset : ((bandRows b0 b1 nlat l).filter fun j => (x j).isSome = true).toFinset = Spec.counted nlat (fun j => l.get [j]) x b0 b1 := by
    ext j
    simp only [Spec.counted, bandRows, List.mem_toFinset, List.mem_filter, List.mem_range, Finset.mem_filter, Finset.mem_range, inside_iff, decide_eq_true_eq]
    rw [and_assoc]
    refine and_congr_right fun _ => and_congr_right fun _ => ?_
    cases x j <;> simp
  have hnd : ((bandRows b0 b1 nlat l).filter fun j => (x j).isSome = true).Nodup := List.Nodup.filter _ (List.Nodup.filter _ List.nodup_range)
  unfold weightedMean Spec.bandMean
  simp only [sum_filter_list _ hnd, hset]
  rw [← List.toFinset_card_of_nodup hnd, hset]
  generalize Spec.counted nlat (fun j => l.get [j]) x b0 b1 = C
  have e : ∀ j, Real.cos ((l.get [j]).getD 0 * (Real.pi / 180)) = Spec.weight (fun j => l.get [j]) j := fun j => rfl
  simp only [e]
  by_cases hC : C.card = 0
  · rw [if_pos (Or.inl hC), if_pos]
    rw [Finset.card_eq_zero.mp hC]
    rfl
  · have hC' : (C.card : ℝ) ≠ 0 := Nat.cast_ne_zero.mpr hC
    by_cases hz : ∑ j ∈ C, Spec.weight (fun j => l.get [j]) j = 0
    · rw [if_pos hz, if_pos (Or.inr (by rw [hz, zero_div]))]
    · rw [if_neg hz, if_neg (by
        rintro (k | k)
        · exact hC k
        · rcases div_eq_zero_iff.mp k with k | k
          · exact hz k
          · exact hC' k), div_div_div_cancel_right₀ hC']
      congr 2
      exact Finset.sum_congr rfl fun j _ => mul_comm _ _

theorem bandField_eq {np nlat : ℕ} {a : NDArr (Option ℝ)} {la : ℕ} (h : Spec.LatAxis np nlat a la) (l : NDArr (Option ℝ)) (b0 b1 : ℝ) :
    bandField a np nlat (fun j => (l.get [j]).getD 0) (bandRows b0 b1 nlat l) = .ok (Spec.bandMeans nlat (fun j => l.get [j]) b0 b1 a la) := by
  obtain ⟨h2, pa, hne, hp, hl⟩ := h
  unfold bandField
  rw [if_neg (by omega), nodup_single (axesOf_nodup _ _) (x := pa) fun c => by rw [axesOf_mem, hp]]
  dsimp only
  rw [nodup_single (List.Nodup.filter _ (axesOf_nodup _ _)) (x := la) fun c => by
    simp only [List.mem_filter, axesOf_mem, decide_eq_true_eq]
    constructor
    · rintro ⟨a, b⟩
      exact (hl c b).mp a
    · rintro rfl
      exact ⟨(hl c hne.symm).mpr rfl, hne.symm⟩]
  dsimp only [Spec.bandMeans]
  congr 2
  funext idx
  exact weightedMean_eq _ _ _ _ _

/-- C188. Three-dimensional arrays with a latitude axis and a latitude band give what the band means would give, each the cosine-weighted mean over the
latitudes of the band (bounds in either order, included) that hold a number. -/
theorem C188_band {np nlat : ℕ} {pressure lat u t : NDArr (Option ℝ)} {lu lt : ℕ} (hp : pressure.shape = [np]) (hl : lat.shape = [nlat])
    (h3 : u.shape.length = 3 ∨ t.shape.length = 3) (hu : Spec.LatAxis np nlat u lu) (ht : Spec.LatAxis np nlat t lt) {b0 b1 : ℝ}
    (hsel : ∃ j y, j < nlat ∧ lat.get [j] = some y ∧ (b0 ≤ y ∧ y ≤ b1 ∨ b1 ≤ y ∧ y ≤ b0)) (qz : Solver) (lon : Option (NDArr (Option ℝ))) (mode method : String)
    (trop : Option (NDArr (Option ℝ))) (levels window : Option ℤ) (w : Trop.Work) (s : Trop.Scratch) (o : ℕ → ℕ → ℕ → Trop.Cell) :
    barocGrowth qz u t pressure (some lat) (some [b0, b1]) lon mode method trop levels window w s o =
      barocGrowth qz (Spec.bandMeans nlat (fun j => lat.get [j]) b0 b1 u lu) (Spec.bandMeans nlat (fun j => lat.get [j]) b0 b1 t lt) pressure none
        (some [b0, b1]) lon mode method trop levels window w s o := by
  have hnp : ∀ S, settings pressure lon mode method levels window = .ok S → S.np = np := by
    intro S h
    unfold settings as1d at h
    rw [hp] at h
    simp only [bind, Except.bind] at h
    split_ifs at h
    repeat' split at h
    all_goals first
      | cases h
        rfl
      | cases h
  unfold barocGrowth
  simp only [boundsOf, bind, Except.bind]
  cases hS : settings pressure lon mode method levels window with
  | error e => rfl
  | ok S =>
    dsimp only
    have e1 : reduceBand u t (some lat) b0 b1 S.np = .ok (Spec.bandMeans nlat (fun j => lat.get [j]) b0 b1 u lu, Spec.bandMeans nlat (fun j => lat.get [j]) b0 b1 t lt, none) := by
      rw [hnp S hS]
      unfold reduceBand
      rw [if_neg (by
        rcases h3 with k | k
        · rw [k]
          exact not_lt.mpr (le_max_left _ _)
        · rw [k]
          exact not_lt.mpr (le_max_right _ _))]
      dsimp only
      rw [hl]
      dsimp only
      rw [if_neg (by
        obtain ⟨j, y, hj, hy, hb⟩ := hsel
        refine List.ne_nil_of_mem (a := j) ?_
        unfold bandRows
        exact List.mem_filter.mpr ⟨List.mem_range.mpr hj, (inside_iff _ _ _).mpr ⟨y, hy, hb⟩⟩), bandField_eq hu, bandField_eq ht]
      rfl
    have e2 : reduceBand (Spec.bandMeans nlat (fun j => lat.get [j]) b0 b1 u lu) (Spec.bandMeans nlat (fun j => lat.get [j]) b0 b1 t lt) none b0 b1 S.np =
        .ok (Spec.bandMeans nlat (fun j => lat.get [j]) b0 b1 u lu, Spec.bandMeans nlat (fun j => lat.get [j]) b0 b1 t lt, none) := by
      unfold reduceBand
      rw [if_pos]
      have : ∀ (a : NDArr (Option ℝ)) (la : ℕ), Spec.LatAxis np nlat a la → (Spec.bandMeans nlat (fun j => lat.get [j]) b0 b1 a la).shape.length < 3 := by
        rintro a la ⟨h2, pa, hne, -, hl⟩
        have := (List.getElem?_eq_some_iff.mp ((hl la hne.symm).mpr rfl)).1
        show (a.shape.eraseIdx la).length < 3
        rw [List.length_eraseIdx_of_lt this]
        omega
      exact max_lt (this u lu hu) (this t lt ht)
    rw [e1, e2]

/-- C188. Where every number lies within `lo` and `hi` and no latitude beyond the poles, so does the mean. -/
theorem C188_mean_between {nlat : ℕ} {lat x : ℕ → Option ℝ} {b0 b1 lo hi : ℝ} (hlat : ∀ j y, j < nlat → lat j = some y → |y| ≤ 90)
    (hx : ∀ j v, j < nlat → x j = some v → lo ≤ v ∧ v ≤ hi) {m : ℝ} (h : Spec.bandMean nlat lat x b0 b1 = some m) : lo ≤ m ∧ m ≤ hi := by
  have hw : ∀ j ∈ Spec.counted nlat lat x b0 b1, 0 ≤ Spec.weight lat j ∧ lo ≤ (x j).getD 0 ∧ (x j).getD 0 ≤ hi := by
    intro j hj
    unfold Spec.counted at hj
    obtain ⟨a, ⟨y, hy, -⟩, hne⟩ := Finset.mem_filter.mp hj
    have a := Finset.mem_range.mp a
    obtain ⟨v, hv⟩ := Option.ne_none_iff_exists'.mp hne
    refine ⟨?_, ?_⟩
    · have k := abs_le.mp (hlat j y a hy)
      unfold Spec.weight
      rw [hy, Option.getD_some]
      have pp := Real.pi_pos
      exact Real.cos_nonneg_of_neg_pi_div_two_le_of_le (by nlinarith) (by nlinarith)
    · rw [hv]
      exact hx j v a hv
  unfold Spec.bandMean at h
  generalize Spec.counted nlat lat x b0 b1 = C at h hw
  split_ifs at h with g
  rw [← Option.some.inj h]
  have hpos : 0 < ∑ j ∈ C, Spec.weight lat j := lt_of_le_of_ne (Finset.sum_nonneg fun j hj => (hw j hj).1) (Ne.symm g)
  rw [le_div_iff₀ hpos, div_le_iff₀ hpos, Finset.mul_sum, Finset.mul_sum]
  exact ⟨Finset.sum_le_sum fun j hj => by nlinarith [hw j hj], Finset.sum_le_sum fun j hj => by nlinarith [hw j hj]⟩

/-- C188. Between the poles the mean is missing only if every value of the band is. -/
theorem C188_mean_missing {nlat : ℕ} {lat x : ℕ → Option ℝ} {b0 b1 : ℝ} (hlat : ∀ j y, j < nlat → lat j = some y → |y| < 90) :
    Spec.bandMean nlat lat x b0 b1 = none ↔ ∀ j y, j < nlat → lat j = some y → (b0 ≤ y ∧ y ≤ b1 ∨ b1 ≤ y ∧ y ≤ b0) → x j = none := by
  have hw : ∀ j ∈ Spec.counted nlat lat x b0 b1, 0 < Spec.weight lat j := by
    intro j hj
    unfold Spec.counted at hj
    obtain ⟨a, ⟨y, hy, -⟩, hne⟩ := Finset.mem_filter.mp hj
    have k := abs_lt.mp (hlat j y (Finset.mem_range.mp a) hy)
    unfold Spec.weight
    rw [hy, Option.getD_some]
    have pp := Real.pi_pos
    exact Real.cos_pos_of_mem_Ioo ⟨by nlinarith, by nlinarith⟩
  have hmem : Spec.counted nlat lat x b0 b1 = ∅ ↔ ∀ j y, j < nlat → lat j = some y → (b0 ≤ y ∧ y ≤ b1 ∨ b1 ≤ y ∧ y ≤ b0) → x j = none := by
    constructor
    · intro h j y a b c
      by_contra k
      have : j ∈ Spec.counted nlat lat x b0 b1 := Finset.mem_filter.mpr ⟨Finset.mem_range.mpr a, ⟨y, b, c⟩, k⟩
      rw [h] at this
      simp at this
    · intro h
      refine Finset.eq_empty_of_forall_notMem fun j hj => ?_
      unfold Spec.counted at hj
      obtain ⟨a, ⟨y, hy, hb⟩, hne⟩ := Finset.mem_filter.mp hj
      exact hne (h j y (Finset.mem_range.mp a) hy hb)
  rw [← hmem]
  unfold Spec.bandMean
  generalize Spec.counted nlat lat x b0 b1 = C at hw
  constructor
  · intro h
    split_ifs at h with g
    by_contra k
    exact absurd g (Finset.sum_pos hw (Finset.nonempty_iff_ne_empty.mpr k)).ne'
  · rintro rfl
    simp

/-- C188. A band without latitudes is refused, and so are three-dimensional arrays without latitudes. -/
theorem C188_empty {pressure u t : NDArr (Option ℝ)} {lat : Option (NDArr (Option ℝ))} (h3 : u.shape.length = 3 ∨ t.shape.length = 3) {b0 b1 : ℝ}
    (hsel : ∀ l, lat = some l → ∃ nlat, l.shape = [nlat] ∧ ∀ j y, j < nlat → l.get [j] = some y → ¬ (b0 ≤ y ∧ y ≤ b1 ∨ b1 ≤ y ∧ y ≤ b0))
    (qz : Solver) {lon : Option (NDArr (Option ℝ))} {mode method : String} {levels window : Option ℤ} {S : Setting}
    (hS : settings pressure lon mode method levels window = .ok S)
    (trop : Option (NDArr (Option ℝ))) (w : Trop.Work) (s : Trop.Scratch) (o : ℕ → ℕ → ℕ → Trop.Cell) :
    barocGrowth qz u t pressure lat (some [b0, b1]) lon mode method trop levels window w s o = .error .value := by
  unfold barocGrowth
  simp only [boundsOf, bind, Except.bind]
  rw [hS]
  dsimp only
  have : reduceBand u t lat b0 b1 S.np = .error .value := by
    unfold reduceBand
    rw [if_neg (by
      rcases h3 with k | k
      · rw [k]
        exact not_lt.mpr (le_max_left _ _)
      · rw [k]
        exact not_lt.mpr (le_max_right _ _))]
    rcases lat with _ | l
    · rfl
    · obtain ⟨nlat, e, hn⟩ := hsel l rfl
      dsimp only
      rw [e]
      dsimp only
      rw [if_pos]
      refine List.filter_eq_nil_iff.mpr fun j hj => ?_
      rw [inside_iff]
      rintro ⟨y, hy, hb⟩
      exact hn j y (List.mem_range.mp hj) hy hb
  rw [this]

/-- C188. A single section (level, latitude) cannot be averaged over a band: the call is refused. -/
theorem C188_section_refused {pressure u t lat : NDArr (Option ℝ)} (hu : u.shape.length ≤ 2) (ht : t.shape.length ≤ 2) {b0 b1 : ℝ}
    (qz : Solver) {lon : Option (NDArr (Option ℝ))} {mode method : String} {levels window : Option ℤ} {S : Setting}
    (hS : settings pressure lon mode method levels window = .ok S)
    (trop : Option (NDArr (Option ℝ))) (w : Trop.Work) (s : Trop.Scratch) (o : ℕ → ℕ → ℕ → Trop.Cell) :
    barocGrowth qz u t pressure (some lat) (some [b0, b1]) lon mode method trop levels window w s o = .error .value := by
  unfold barocGrowth
  simp only [boundsOf, bind, Except.bind]
  rw [hS]
  dsimp only
  have : reduceBand u t (some lat) b0 b1 S.np = .ok (u, t, some lat) := by
    unfold reduceBand
    rw [if_pos (max_lt (by omega) (by omega))]
  rw [this]
  simp [dispatch]

/-- The hypotheses of C188: four times, two levels, three latitudes. -/
example : Spec.LatAxis 2 3 ⟨[4, 2, 3], fun _ => some (10 : ℝ)⟩ 2 := by
  refine ⟨Or.inr rfl, 1, by decide, fun c => ?_, fun c hc => ?_⟩
  · rcases c with _ | _ | _ | c <;> simp
  · rcases c with _ | _ | _ | c <;> simp

example : ∃ m, Spec.bandMean 3 (fun j => some ((j : ℝ) * 10)) (fun j => if j = 1 then none else some j) 20 0 = some m ∧ 0 ≤ m ∧ m ≤ 2 := by
  have hl : ∀ (j : ℕ) (y : ℝ), j < 3 → (some ((j : ℝ) * 10) : Option ℝ) = some y → |y| < 90 := by
    intro j y hj h
    rw [← Option.some.inj h, abs_of_nonneg (by positivity)]
    have : (j : ℝ) < 3 := by exact_mod_cast hj
    linarith
  rcases hm : Spec.bandMean 3 (fun j => some ((j : ℝ) * 10)) (fun j => if j = 1 then none else some (j : ℝ)) 20 0 with _ | m
  · have := (C188_mean_missing hl).mp hm 0 0 (by omega) (by simp) (by norm_num)
    simp at this
  · refine ⟨m, rfl, C188_mean_between (fun j y a b => (hl j y a b).le) (fun j v a b => ?_) hm⟩
    beta_reduce at b
    split_ifs at b
    rw [← Option.some.inj b]
    have : (j : ℝ) ≤ 2 := by exact_mod_cast (show j ≤ 2 by omega)
    exact ⟨by positivity, this⟩

end Skyborn.Growth
