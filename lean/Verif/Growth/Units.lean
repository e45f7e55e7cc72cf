/-
Pressures in hPa or in Pa (core.py:737-740, 826-841, 982-999).
-/
import Verif.Growth.BarocSym

namespace Skyborn.Growth

open Classical

/-- All values times 100. -/
noncomputable def Spec.hundredfold (a : NDArr (Option ℝ)) : NDArr (Option ℝ) := ⟨a.shape, fun idx => (a.get idx).map fun x => x * 100⟩

/-- Levels in hPa whose values in Pa cannot be mistaken for hPa: none is above 2000 hPa, and one is above 20 hPa. -/
def Spec.ClearPressure (a : NDArr (Option ℝ)) : Prop :=
  ∃ n, a.shape = [n] ∧ (∀ i, i < n → ∀ x, a.get [i] = some x → x ≤ 2000) ∧ ∃ i x, i < n ∧ a.get [i] = some x ∧ 20 < x

theorem settings_units {a : NDArr (Option ℝ)} (h : Spec.ClearPressure a) (lon : Option (NDArr (Option ℝ))) (mode method : String) (levels window : Option ℤ) :
    settings (Spec.hundredfold a) lon mode method levels window = settings a lon mode method levels window := by
  obtain ⟨n, hn, hle, i, x, hi, hx, h20⟩ := h
  unfold settings as1d
  have hsh : (Spec.hundredfold a).shape = a.shape := rfl
  rw [hsh, hn]
  simp only [Except.bind, bind]
  have hpos : (∃ i, i < n ∧ ∃ x, (Spec.hundredfold a).get [i] = some x ∧ x ≤ 0) ↔ ∃ i, i < n ∧ ∃ x, a.get [i] = some x ∧ x ≤ 0 := by
    refine exists_congr fun i => and_congr_right fun _ => ?_
    show (∃ x, (a.get [i]).map (fun x => x * 100) = some x ∧ x ≤ 0) ↔ _
    cases a.get [i] with
    | none => simp
    | some y =>
      simp only [Option.map_some, Option.some.injEq, exists_eq_left']
      constructor <;> intro h <;> linarith
  have hp : pascal n (fun i => (Spec.hundredfold a).get [i]) = pascal n fun i => a.get [i] := by
    unfold pascal
    rw [if_neg, if_pos]
    · rfl
    · exact ⟨⟨i, hi, by show a.get [i] ≠ none; rw [hx]; simp⟩, hle⟩
    · rintro ⟨-, g⟩
      have := g i hi (x * 100) (by show (a.get [i]).map (fun x => x * 100) = _; rw [hx]; rfl)
      linarith
  rw [hp]
  by_cases g : ∃ i, i < n ∧ ∃ x, a.get [i] = some x ∧ x ≤ 0
  · rw [if_pos g, if_pos (hpos.mpr g)]
  · rw [if_neg g, if_neg (fun k => g (hpos.mp k))]

/-- C185: pressure levels may be given in hPa or in Pa, if one of them is above 20 hPa. -/
theorem C185_pressure {pressure : NDArr (Option ℝ)} (h : Spec.ClearPressure pressure) (qz : Solver) (u t : NDArr (Option ℝ)) (lat : Option (NDArr (Option ℝ)))
    (bounds : Option (List ℝ)) (lon : Option (NDArr (Option ℝ))) (mode method : String) (trop : Option (NDArr (Option ℝ))) (levels window : Option ℤ)
    (w : Trop.Work) (s : Trop.Scratch) (o : ℕ → ℕ → ℕ → Trop.Cell) :
    barocGrowth qz u t (Spec.hundredfold pressure) lat bounds lon mode method trop levels window w s o =
      barocGrowth qz u t pressure lat bounds lon mode method trop levels window w s o := by
  unfold barocGrowth
  simp only [settings_units h]

theorem profileVector_hundred (a : NDArr (Option ℝ)) (n : ℕ) :
    profileVector (Spec.hundredfold a) n = (profileVector a n).map fun v i => (v i).map fun x => x * 100 := by
  unfold profileVector Spec.hundredfold
  dsimp only
  rcases a.shape with _ | ⟨m, _ | ⟨k, l⟩⟩
  · rfl
  · dsimp only
    split
    · rfl
    · split <;> rfl
  · rfl

theorem profileVector_get {a : NDArr (Option ℝ)} {n : ℕ} {v : ℕ → Option ℝ} (h : profileVector a n = .ok v) (i : ℕ) : ∃ idx, v i = a.get idx := by
  unfold profileVector at h
  rcases ha : a.shape with _ | ⟨m, _ | ⟨k, l⟩⟩ <;> rw [ha] at h <;> dsimp only at h
  · cases h
    exact ⟨[], rfl⟩
  · split at h
    · cases h
      exact ⟨[i], rfl⟩
    · split at h
      · cases h
        exact ⟨[0], rfl⟩
      · cases h
  · cases h

/-- Tropopause pressures in hPa whose values in Pa cannot be mistaken for hPa: above 20 and at most 2000. -/
def Spec.ClearTropopause (a : NDArr (Option ℝ)) : Prop := ∀ idx x, a.get idx = some x → 20 < x ∧ x ≤ 2000

theorem tropOf_units {a : NDArr (Option ℝ)} (h : Spec.ClearTropopause a) (S : Setting) (t : ℕ → Option ℝ) (w : Trop.Work) :
    tropOf S t (some (Spec.hundredfold a)) w = tropOf S t (some a) w := by
  unfold tropOf
  dsimp only
  rw [profileVector_hundred]
  cases hv : profileVector a 1 with
  | error e => rfl
  | ok v =>
    simp only [Except.map]
    obtain ⟨idx, e⟩ := profileVector_get hv 0
    rw [e]
    cases hx : a.get idx with
    | none => rfl
    | some x =>
      obtain ⟨h1, h2⟩ := h idx x hx
      simp only [Option.map_some]
      rw [if_pos h2, if_neg (by linarith)]

theorem tropsOf_units {a : NDArr (Option ℝ)} (h : Spec.ClearTropopause a) {n : ℕ} :
    (∃ e, tropsOf n (some (Spec.hundredfold a)) = .error e ∧ tropsOf n (some a) = .error e) ∨
      ∃ v v', tropsOf n (some (Spec.hundredfold a)) = .ok (some v) ∧ tropsOf n (some a) = .ok (some v') ∧ ∀ i, i < n → v i = v' i := by
  unfold tropsOf
  dsimp only
  rw [profileVector_hundred]
  cases hv : profileVector a n with
  | error e => exact Or.inl ⟨e, rfl, rfl⟩
  | ok v =>
    refine Or.inr ⟨_, _, rfl, rfl, fun i hi => ?_⟩
    have hr : ∀ i x, v i = some x → 20 < x ∧ x ≤ 2000 := fun i x hx => by
      obtain ⟨idx, e⟩ := profileVector_get hv i
      exact h idx x (by rw [← e, hx])
    unfold tropPa
    by_cases g : ∃ i, i < n ∧ v i ≠ none
    · rw [if_neg, if_pos ⟨g, fun i _ x hx => (hr i x hx).2⟩]
      obtain ⟨k, hk, g⟩ := g
      obtain ⟨y, hy⟩ := Option.ne_none_iff_exists'.mp g
      rintro ⟨-, c⟩
      have := c k hk (y * 100) (by beta_reduce; rw [hy]; rfl)
      have := (hr k y hy).1
      linarith
    · rw [if_neg (fun c => g ?_), if_neg (fun c => g c.1)]
      · have : v i = none := by
          by_contra hc
          exact g ⟨i, hi, hc⟩
        beta_reduce
        rw [this]
        rfl
      · obtain ⟨⟨k, hk, g'⟩, -⟩ := c
        exact ⟨k, hk, fun e => g' (by beta_reduce; rw [e]; rfl)⟩

theorem solveRows_congr (qz : Solver) (S : Setting) (n : ℕ) {u t u' t' : ℕ → ℕ → Option ℝ} {place place' : ℕ → Option Place} {tp tp' : ℕ → Option ℝ} {rows : List ℕ}
    (h : ∀ i ∈ rows, runRow qz S (u i) (t i) (tp i) (place i) = runRow qz S (u' i) (t' i) (tp' i) (place' i)) (hp : ∀ i ∈ rows, place i = place' i) :
    solveRows qz S n u t place tp rows = solveRows qz S n u' t' place' tp' rows := by
  have h1 : (∃ i ∈ rows, ∃ q, place i = some q ∧ zonalLength S q ≤ 0) ↔ ∃ i ∈ rows, ∃ q, place' i = some q ∧ zonalLength S q ≤ 0 :=
    exists_congr fun i => and_congr_right fun hi => by rw [hp i hi]
  have h2 : (∃ i ∈ rows, runRow qz S (u i) (t i) (tp i) (place i) = .divZero) ↔ ∃ i ∈ rows, runRow qz S (u' i) (t' i) (tp' i) (place' i) = .divZero :=
    exists_congr fun i => and_congr_right fun hi => by rw [h i hi]
  have h3 : (rows.filterMap fun i => (runRow qz S (u i) (t i) (tp i) (place i)).failure) =
      rows.filterMap fun i => (runRow qz S (u' i) (t' i) (tp' i) (place' i)).failure :=
    List.filterMap_congr fun i hi => by rw [h i hi]
  have h4 : (fun i => if i ∈ rows then (runRow qz S (u i) (t i) (tp i) (place i)).number else none) =
      fun i => if i ∈ rows then (runRow qz S (u' i) (t' i) (tp' i) (place' i)).number else none := by
    funext i
    by_cases hi : i ∈ rows
    · rw [if_pos hi, if_pos hi, h i hi]
    · rw [if_neg hi, if_neg hi]
  unfold solveRows
  simp only [h1, h2, h3, h4]

theorem batchRun_congr (qz : Solver) (S : Setting) {n : ℕ} (u t : ℕ → ℕ → Option ℝ) (place : ℕ → Option Place) {v v' : ℕ → Option ℝ}
    (h : ∀ i, i < n → v i = v' i) (s : Trop.Scratch) (o : ℕ → ℕ → ℕ → Trop.Cell) :
    batchRun qz S n u t place (some v) s o = batchRun qz S n u t place (some v') s o := by
  have hv : ∀ i, i < n → (validRow S u t place (some v) i ↔ validRow S u t place (some v') i) := fun i hi => by
    unfold validRow
    simp only [Option.some.injEq, forall_eq', h i hi]
  have h1 : (∃ i, i < n ∧ validRow S u t place (some v) i ∧ ∃ a x, some v = some a ∧ a i = some x ∧ (x ≤ 0 ∨ x ≥ S.bottom)) ↔
      ∃ i, i < n ∧ validRow S u t place (some v') i ∧ ∃ a x, some v' = some a ∧ a i = some x ∧ (x ≤ 0 ∨ x ≥ S.bottom) :=
    exists_congr fun i => and_congr_right fun hi => and_congr (hv i hi) (by
      constructor
      · rintro ⟨a, x, e, g, k⟩
        cases e
        exact ⟨v', x, rfl, by rw [← h i hi]; exact g, k⟩
      · rintro ⟨a, x, e, g, k⟩
        cases e
        exact ⟨v, x, rfl, by rw [h i hi]; exact g, k⟩)
  have h2 : (∃ i, i < n ∧ validRow S u t place (some v) i ∧ ∃ j, j < S.np ∧ ∃ x, t i j = some x ∧ x ≤ 0) ↔
      ∃ i, i < n ∧ validRow S u t place (some v') i ∧ ∃ j, j < S.np ∧ ∃ x, t i j = some x ∧ x ≤ 0 :=
    exists_congr fun i => and_congr_right fun hi => and_congr (hv i hi) Iff.rfl
  have h3 : ((List.range n).filter fun i => decide (validRow S u t place (some v) i)) = (List.range n).filter fun i => decide (validRow S u t place (some v') i) :=
    List.filter_congr fun i hi => decide_eq_decide.mpr (hv i (List.mem_range.mp hi))
  unfold batchRun findTrops
  dsimp only
  rw [h3]
  have h4 : (((List.range n).filter fun i => decide (validRow S u t place (some v') i)).filter fun i => decide (v i ≠ none)) =
      ((List.range n).filter fun i => decide (validRow S u t place (some v') i)).filter fun i => decide (v' i ≠ none) :=
    List.filter_congr fun i hi => by rw [h i (List.mem_range.mp (List.mem_of_mem_filter hi))]
  rw [h4]
  have h5 := solveRows_congr qz S n (u := u) (t := t) (u' := u) (t' := t) (place := place) (place' := place) (tp := v) (tp' := v')
    (rows := ((List.range n).filter fun i => decide (validRow S u t place (some v') i)).filter fun i => decide (v' i ≠ none))
    (fun i hi => by rw [h i (List.mem_range.mp (List.mem_of_mem_filter (List.mem_of_mem_filter hi)))]) fun _ _ => rfl
  rw [h5]
  simp only [h1, h2]

/-- C185: tropopause pressures may be given in hPa or in Pa, if they are above 20 hPa. -/
theorem C185_tropopause {trop : NDArr (Option ℝ)} (h : Spec.ClearTropopause trop) (qz : Solver) (u t pressure : NDArr (Option ℝ))
    (lat : Option (NDArr (Option ℝ))) (bounds : Option (List ℝ)) (lon : Option (NDArr (Option ℝ))) (mode method : String) (levels window : Option ℤ)
    (w : Trop.Work) (s : Trop.Scratch) (o : ℕ → ℕ → ℕ → Trop.Cell) :
    barocGrowth qz u t pressure lat bounds lon mode method (some (Spec.hundredfold trop)) levels window w s o =
      barocGrowth qz u t pressure lat bounds lon mode method (some trop) levels window w s o := by
  have hone : ∀ S u t lat b, oneProfile qz S u t lat b (some (Spec.hundredfold trop)) w = oneProfile qz S u t lat b (some trop) w := by
    intro S u t lat b
    unfold oneProfile
    rw [tropOf_units h]
  have hmany : ∀ S um tm lat b, manyProfiles qz S um tm lat b (some (Spec.hundredfold trop)) s o = manyProfiles qz S um tm lat b (some trop) s o := by
    intro S um tm lat b
    unfold manyProfiles
    simp only [Except.bind, bind]
    rcases tropsOf_units h (n := max um.1 tm.1) with ⟨e, h1, h2⟩ | ⟨v, v', h1, h2, hv⟩
    · rw [h1, h2]
    · rw [h1, h2]
      simp only [batchRun_congr qz S _ _ _ hv]
  have hd : ∀ S u t lat b, dispatch qz S u t lat b (some (Spec.hundredfold trop)) w s o = dispatch qz S u t lat b (some trop) w s o := by
    intro S u t lat b
    unfold dispatch
    simp only [hone, hmany]
  unfold barocGrowth
  simp only [hd]

/-! ### Where the guess is wrong -/

/-- 1000 and 10 hPa, tropopause pressure `x`. -/
noncomputable def high (x : ℝ) : Spec.Call := { iso 2 .high with p := fun i => if i = 1 then 1000 else 10, trop := some x }

theorem high_units (x : ℝ) : ∀ j, 1 ≤ j → j ≤ (high x).n → (high x).p j ≤ 2000 := by
  intro j _ _
  simp only [high]
  split <;> norm_num

theorem high_pa (x : ℝ) (i : ℕ) : (high x).pa i = if i = 1 then 100000 else 1000 := by
  unfold Spec.Call.pa
  rw [if_pos (high_units x)]
  simp only [high]
  split <;> norm_num

theorem high_bottom (x : ℝ) : (high x).bottom = 100000 := by
  unfold Spec.Call.bottom
  rw [high_pa, high_pa, if_pos rfl, if_neg (by simp [high, iso])]
  norm_num

theorem high_valid (x : ℝ) : (high x).Valid where
  two := le_rfl
  strict := Or.inr fun i h1 h2 => by
    have : i = 1 := by simp only [high, iso] at h2; omega
    subst this
    simp [high]
    norm_num
  pos i _ _ := by
    simp only [high, iso]
    constructor
    · split <;> norm_num
    · norm_num
  small i _ _ := by
    have := spvl_huge
    rw [high_pa]
    simp only [high, iso]
    refine ⟨?_, by linarith, by linarith⟩
    split <;> linarith
  waves := trivial
  levels := by simp [high, iso]
  window := by simp [high, iso]

/-- C185, the general claim is false: a tropopause at 15 hPa and at 1500 Pa is the same height, and the calls differ, because the value 1500 is read as hPa. -/
theorem C185_tropopause_false (qz : Solver) (w : Trop.Work) (s : Trop.Scratch) (o : ℕ → ℕ → ℕ → Trop.Cell) :
    (high 15).run qz w s o = .error (.runtime [1]) ∧ (high (15 * 100)).run qz w s o = .error .value := by
  refine ⟨C182_two_levels (high_valid 15) rfl (tp := 1500) ?_ ⟨?_, ?_⟩ qz s o, ?_⟩
  · simp only [Spec.Call.Tropopause, high]
    norm_num
  · rw [high_pa, high_pa, if_pos rfl, if_neg (by simp [high, iso])]
    norm_num
  · rw [high_bottom]
    norm_num
  · have h := high_valid (15 * 100)
    rw [run_one h.two h.strict (fun i a b => (h.pos i a b).1) h.waves h.levels h.window]
    have e : oneProfile qz (high (15 * 100)).setting (fun i => some ((high (15 * 100)).u (i + 1))) (fun i => some ((high (15 * 100)).t (i + 1)))
        (high (15 * 100)).place.lat (high (15 * 100)).place.ends ((high (15 * 100)).trop.map fun x => ⟨[], fun _ => some x⟩) w = .error .value := by
      unfold oneProfile
      rw [if_neg (by
        rintro ⟨i, hi, g | g | g⟩
        · cases g
        · cases g
        · cases g), if_neg (by
        rintro ⟨i, hi, x, hx, h0⟩
        have := (h.pos (i + 1) (by omega) hi).2
        rw [Option.some.inj hx] at this
        linarith)]
      have ht : tropOf (high (15 * 100)).setting (fun i => some ((high (15 * 100)).t (i + 1)))
          ((high (15 * 100)).trop.map fun x => ⟨[], fun _ => some x⟩) w = .ok (some 150000) := by
        simp only [tropOf, high, Option.map_some, profileVector, Except.map]
        norm_num
      rw [ht]
      have hb : (high (15 * 100)).setting.bottom = 100000 := high_bottom _
      simp only [Except.bind, bind, solveOne]
      rw [hb, if_pos (by norm_num)]
    rw [e]
    rfl

/-- 20 and 5 hPa times `k`, tropopause pressure 600. -/
noncomputable def strato (k : ℝ) : Spec.Call := { iso 2 .high with p := fun i => if i = 1 then 20 * k else 5 * k, trop := some 600 }

theorem strato_pa {k : ℝ} (hk : 0 < k) (h : k ≤ 100) (i : ℕ) : (strato k).pa i = if i = 1 then 2000 * k else 500 * k := by
  have : ∀ j, 1 ≤ j → j ≤ (strato k).n → (strato k).p j ≤ 2000 := by
    intro j _ _
    simp only [strato]
    split <;> linarith
  unfold Spec.Call.pa
  rw [if_pos this]
  simp only [strato]
  split <;> ring

theorem strato_valid {k : ℝ} (hk : 0 < k) (h : k ≤ 100) : (strato k).Valid where
  two := le_rfl
  strict := Or.inr fun i h1 h2 => by
    have : i = 1 := by simp only [strato, iso] at h2; omega
    subst this
    simp [strato]
    linarith
  pos i _ _ := by
    simp only [strato, iso]
    constructor
    · split <;> linarith
    · norm_num
  small i _ _ := by
    have := spvl_huge
    rw [strato_pa hk h]
    simp only [strato, iso]
    refine ⟨?_, by linarith, by linarith⟩
    split <;> linarith
  waves := trivial
  levels := by simp [strato, iso]
  window := by simp [strato, iso]

/-- C185, the general claim is false for the levels as well: a profile between 20 and 5 hPa, given as 2000 and 500 Pa, is read as a profile between 2000 and
500 hPa. -/
theorem C185_pressure_false (qz : Solver) (w : Trop.Work) (s : Trop.Scratch) (o : ℕ → ℕ → ℕ → Trop.Cell) :
    (strato 1).run qz w s o = .error .value ∧ (strato 100).run qz w s o = .error (.runtime [1]) := by
  constructor
  · have h := strato_valid (k := 1) (by norm_num) (by norm_num)
    rw [run_one h.two h.strict (fun i a b => (h.pos i a b).1) h.waves h.levels h.window]
    have e : oneProfile qz (strato 1).setting (fun i => some ((strato 1).u (i + 1))) (fun i => some ((strato 1).t (i + 1)))
        (strato 1).place.lat (strato 1).place.ends ((strato 1).trop.map fun x => ⟨[], fun _ => some x⟩) w = .error .value := by
      unfold oneProfile
      rw [if_neg (by
        rintro ⟨i, hi, g | g | g⟩
        · cases g
        · cases g
        · cases g), if_neg (by
        rintro ⟨i, hi, x, hx, h0⟩
        have := (h.pos (i + 1) (by omega) hi).2
        rw [Option.some.inj hx] at this
        linarith)]
      have ht : tropOf (strato 1).setting (fun i => some ((strato 1).t (i + 1)))
          ((strato 1).trop.map fun x => ⟨[], fun _ => some x⟩) w = .ok (some 60000) := by
        simp only [tropOf, strato, Option.map_some, profileVector, Except.map]
        norm_num
      rw [ht]
      have hb : (strato 1).setting.bottom = 2000 := by
        show (strato 1).bottom = 2000
        unfold Spec.Call.bottom
        rw [strato_pa (by norm_num) (by norm_num), strato_pa (by norm_num) (by norm_num), if_pos rfl, if_neg (by simp [strato, iso])]
        norm_num
      simp only [Except.bind, bind, solveOne]
      rw [hb, if_pos (by norm_num)]
    rw [e]
    rfl
  · refine C182_two_levels (strato_valid (by norm_num) (by norm_num)) rfl (tp := 60000) ?_ ⟨?_, ?_⟩ qz s o
    · simp only [Spec.Call.Tropopause, strato]
      norm_num
    · rw [strato_pa (by norm_num) (by norm_num), strato_pa (by norm_num) (by norm_num), if_pos rfl, if_neg (by simp [strato, iso])]
      norm_num
    · unfold Spec.Call.bottom
      rw [strato_pa (by norm_num) (by norm_num), strato_pa (by norm_num) (by norm_num), if_pos rfl, if_neg (by simp [strato, iso])]
      norm_num

example : Spec.ClearPressure (Spec.array (iso 2 .high).n (iso 2 .high).p) :=
  ⟨2, rfl, fun i hi x hx => by
    have := iso_units 2 .high (i + 1) (by omega) hi
    rwa [show x = (iso 2 .high).p (i + 1) from (Option.some.inj hx).symm], 0, 1000, by norm_num, by simp [Spec.array, iso], by norm_num⟩

example : Spec.ClearTropopause ⟨[2], fun idx => if idx.getD 0 0 = 0 then some 200 else some 150⟩ := by
  intro idx x hx
  dsimp only at hx
  split at hx <;> cases hx <;> norm_num

end Skyborn.Growth
