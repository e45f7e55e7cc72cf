/-
The layouts of the arrays of `baroc_growth_rate` and short profiles of `barot_growth_rate` (core.py:71-151, 434-523, 794-1111).
-/
import Verif.Growth.Band

namespace Skyborn.Growth

open Classical

/-- The array with its axes in reverse order (`numpy.transpose`). -/
def Spec.transposed (a : NDArr (Option ℝ)) : NDArr (Option ℝ) := ⟨a.shape.reverse, fun idx => a.get idx.reverse⟩

/-- One profile repeated `m` times. -/
def Spec.repeated (m : ℕ) (a : NDArr (Option ℝ)) : NDArr (Option ℝ) := ⟨m :: a.shape, fun idx => a.get (idx.drop 1)⟩

theorem axes_two (x y n : ℕ) : axesOf [x, y] n = (if x = n then [0] else []) ++ if y = n then [1] else [] := by
  unfold axesOf
  by_cases h : x = n <;> by_cases k : y = n <;> simp [List.range_succ, List.filter_cons, h, k]

theorem coerce_transposed {a : NDArr (Option ℝ)} {x y : ℕ} (h : a.shape = [x, y]) (hne : x ≠ y) (np : ℕ) : coerce (Spec.transposed a) np = coerce a np := by
  have h' : (Spec.transposed a).shape = [y, x] := by simp [Spec.transposed, h]
  unfold coerce
  rw [h, h']
  dsimp only
  rw [axes_two, axes_two]
  by_cases k : x = np <;> by_cases l : y = np
  · omega
  · simp only [if_pos k, if_neg l, List.append_nil, List.nil_append]
    rfl
  · simp only [if_neg k, if_pos l, List.append_nil, List.nil_append]
    rfl
  · simp only [if_neg k, if_neg l, List.append_nil]

theorem dispatch_congr {S : Setting} {u t u' t' : NDArr (Option ℝ)} (hu : coerce u' S.np = coerce u S.np) (ht : coerce t' S.np = coerce t S.np)
    (lu : u'.shape.length = u.shape.length) (lt : t'.shape.length = t.shape.length) (qz : Solver) (lat : Option (NDArr (Option ℝ)))
    (b : Option (ℝ × ℝ)) (trop : Option (NDArr (Option ℝ))) (w : Trop.Work) (s : Trop.Scratch) (o : ℕ → ℕ → ℕ → Trop.Cell) :
    dispatch qz S u' t' lat b trop w s o = dispatch qz S u t lat b trop w s o := by
  unfold dispatch
  rw [hu, ht, lu, lt]

/-- A call with arrays of at most two axes. -/
theorem baroc_two {u t : NDArr (Option ℝ)} (hu : u.shape.length ≤ 2) (ht : t.shape.length ≤ 2) (qz : Solver) (pressure : NDArr (Option ℝ))
    (lat : Option (NDArr (Option ℝ))) (bounds : Option (List ℝ)) (lon : Option (NDArr (Option ℝ))) (mode method : String) (trop : Option (NDArr (Option ℝ)))
    (levels window : Option ℤ) (w : Trop.Work) (s : Trop.Scratch) (o : ℕ → ℕ → ℕ → Trop.Cell) :
    barocGrowth qz u t pressure lat bounds lon mode method trop levels window w s o =
      (boundsOf bounds).bind fun b => (settings pressure lon mode method levels window).bind fun S => dispatch qz S u t lat b trop w s o := by
  unfold barocGrowth
  simp only [bind, Except.bind]
  cases boundsOf bounds with
  | error e => rfl
  | ok b =>
    dsimp only
    cases settings pressure lon mode method levels window with
    | error e => rfl
    | ok S =>
      dsimp only
      cases b with
      | none => rfl
      | some b =>
        dsimp only
        unfold reduceBand
        rw [if_pos (max_lt (by omega) (by omega))]

/-- C189. The level axis of a two-dimensional array may come first or last. -/
theorem C189_transpose {u t : NDArr (Option ℝ)} {x y : ℕ} (hu : u.shape = [x, y]) (hne : x ≠ y) (ht : t.shape.length ≤ 2) (qz : Solver) (pressure : NDArr (Option ℝ))
    (lat : Option (NDArr (Option ℝ))) (bounds : Option (List ℝ)) (lon : Option (NDArr (Option ℝ))) (mode method : String) (trop : Option (NDArr (Option ℝ)))
    (levels window : Option ℤ) (w : Trop.Work) (s : Trop.Scratch) (o : ℕ → ℕ → ℕ → Trop.Cell) :
    barocGrowth qz (Spec.transposed u) t pressure lat bounds lon mode method trop levels window w s o =
        barocGrowth qz u t pressure lat bounds lon mode method trop levels window w s o ∧
      barocGrowth qz t (Spec.transposed u) pressure lat bounds lon mode method trop levels window w s o =
        barocGrowth qz t u pressure lat bounds lon mode method trop levels window w s o := by
  have l1 : u.shape.length = 2 := by rw [hu]; rfl
  have l2 : (Spec.transposed u).shape.length = u.shape.length := by simp [Spec.transposed]
  rw [baroc_two (by omega) ht, baroc_two (by omega) ht, baroc_two ht (by omega), baroc_two ht (by omega)]
  have c := fun np => coerce_transposed hu hne np
  constructor
  · congr 1
    funext b
    congr 1
    funext S
    exact dispatch_congr (c _) rfl l2 rfl _ _ _ _ _ _ _
  · congr 1
    funext b
    congr 1
    funext S
    exact dispatch_congr rfl (c _) rfl l2 _ _ _ _ _ _ _

theorem settings_np {pressure : NDArr (Option ℝ)} {np : ℕ} (hp : pressure.shape = [np]) {lon : Option (NDArr (Option ℝ))} {mode method : String} {levels window : Option ℤ}
    {S : Setting} (h : settings pressure lon mode method levels window = .ok S) : S.np = np := by
  unfold settings as1d at h
  rw [hp] at h
  simp only [bind, Except.bind] at h
  split_ifs at h
  repeat' split at h
  all_goals first
    | cases h
      rfl
    | cases h

/-- C189. A square array, whose level axis cannot be told, is refused. -/
theorem C189_square {u t pressure : NDArr (Option ℝ)} {n : ℕ} (hp : pressure.shape = [n]) (hu : u.shape = [n, n] ∨ t.shape = [n, n]) (hu2 : u.shape.length ≤ 2)
    (ht2 : t.shape.length ≤ 2) (qz : Solver) (lat : Option (NDArr (Option ℝ))) (bounds : Option (List ℝ)) {lon : Option (NDArr (Option ℝ))} {mode method : String}
    {levels window : Option ℤ} {S : Setting} (hS : settings pressure lon mode method levels window = .ok S)
    (trop : Option (NDArr (Option ℝ))) (w : Trop.Work) (s : Trop.Scratch) (o : ℕ → ℕ → ℕ → Trop.Cell) :
    barocGrowth qz u t pressure lat bounds lon mode method trop levels window w s o = .error .value := by
  rw [baroc_two hu2 ht2, hS]
  have hc : ∀ a : NDArr (Option ℝ), a.shape = [n, n] → coerce a S.np = .error .value := by
    intro a ha
    rw [settings_np hp hS]
    unfold coerce
    rw [ha]
    dsimp only
    rw [axes_two, if_pos rfl, if_pos rfl]
    rfl
  have hv : ∀ a : NDArr (Option ℝ), a.shape.length ≤ 2 → ∀ e, coerce a S.np = .error e → e = .value := by
    intro a ha e he
    unfold coerce at he
    repeat' split at he
    all_goals first
      | cases he
        rfl
      | cases he
  have hb : boundsOf bounds = .error .value ∨ ∃ b, boundsOf bounds = .ok b := by
    unfold boundsOf
    split
    · exact Or.inr ⟨_, rfl⟩
    · exact Or.inr ⟨_, rfl⟩
    · exact Or.inl rfl
  rcases hb with e | ⟨b, e⟩
  · rw [e]
    rfl
  rw [e]
  simp only [Except.bind]
  unfold dispatch
  by_cases h1 : lat.isNone = true ∧ b.isNone = true
  · rw [if_pos h1]
  rw [if_neg h1]
  by_cases h2 : lat.isSome = true ∧ b.isSome = true
  · rw [if_pos h2]
  rw [if_neg h2]
  · simp only [bind, Except.bind]
    cases hcu : coerce u S.np with
    | error e => rw [hv u hu2 e hcu]
    | ok um =>
      dsimp only
      rcases hu with k | k
      · rw [hc u k] at hcu
        cases hcu
      · rw [hc t k]

/-- C189. One profile of temperature (or wind) stands for as many equal profiles as the other array has. -/
theorem C189_climatology {a c pressure : NDArr (Option ℝ)} {m n : ℕ} (hp : pressure.shape = [n]) (hm : 1 ≤ m) (hne : m ≠ n) (ha : a.shape = [m, n]) (hc : c.shape = [n])
    (qz : Solver) (lat : Option (NDArr (Option ℝ))) (bounds : Option (List ℝ)) (lon : Option (NDArr (Option ℝ))) (mode method : String) (trop : Option (NDArr (Option ℝ)))
    (levels window : Option ℤ) (w : Trop.Work) (s : Trop.Scratch) (o : ℕ → ℕ → ℕ → Trop.Cell) :
    barocGrowth qz a c pressure lat bounds lon mode method trop levels window w s o =
        barocGrowth qz a (Spec.repeated m c) pressure lat bounds lon mode method trop levels window w s o ∧
      barocGrowth qz c a pressure lat bounds lon mode method trop levels window w s o =
        barocGrowth qz (Spec.repeated m c) a pressure lat bounds lon mode method trop levels window w s o := by
  have la : a.shape.length = 2 := by rw [ha]; rfl
  have lc : c.shape.length = 1 := by rw [hc]; rfl
  have lr : (Spec.repeated m c).shape.length = 2 := by simp [Spec.repeated, lc]
  rw [baroc_two (by omega) (by omega), baroc_two (by omega) (by omega), baroc_two (by omega) (by omega), baroc_two (by omega) (by omega)]
  have ca : coerce a n = .ok (m, fun i j => a.get [i, j]) := by
    unfold coerce
    rw [ha]
    dsimp only
    rw [axes_two, if_neg hne, if_pos rfl]
    rfl
  have cc : coerce c n = .ok (1, fun _ j => c.get [j]) := by
    unfold coerce
    rw [hc]
    dsimp only
    rw [if_neg (by simp)]
  have cr : coerce (Spec.repeated m c) n = .ok (m, fun _ j => c.get [j]) := by
    unfold coerce
    rw [show (Spec.repeated m c).shape = [m, n] by simp [Spec.repeated, hc]]
    dsimp only
    rw [axes_two, if_neg hne, if_pos rfl]
    rfl
  have e1 : max m 1 = m := by omega
  have e2 : max 1 m = m := by omega
  have bc : broadcast (1, fun _ j => c.get [j]) m = .ok fun _ j => c.get [j] := by
    unfold broadcast
    by_cases k : 1 = m
    · rw [if_pos k]
    · rw [if_neg k, if_pos rfl]
  have br : broadcast (m, fun _ j => c.get [j]) m = .ok fun _ j => c.get [j] := by
    unfold broadcast
    rw [if_pos rfl]
  have key : ∀ (f g : Option (ℝ × ℝ) → Setting → Except Err Out), (∀ b S, S.np = n → f b S = g b S) →
      ((boundsOf bounds).bind fun b => (settings pressure lon mode method levels window).bind fun S => f b S) =
        (boundsOf bounds).bind fun b => (settings pressure lon mode method levels window).bind fun S => g b S := by
    intro f g h
    congr 1
    funext b
    cases hS : settings pressure lon mode method levels window with
    | error e => rfl
    | ok S => exact h b S (settings_np hp hS)
  constructor
  · refine key _ _ fun b S hS => ?_
    unfold dispatch
    rw [hS, ca, cc, cr, la, lc, lr]
    simp only [bind, Except.bind, OfNat.ofNat_ne_one, false_and, and_false, if_false]
    unfold manyProfiles
    simp only [e1, max_self, bc, br]
  · refine key _ _ fun b S hS => ?_
    unfold dispatch
    rw [hS, ca, cc, cr, la, lc, lr]
    simp only [bind, Except.bind, OfNat.ofNat_ne_one, false_and, and_false, if_false]
    unfold manyProfiles
    simp only [e2, max_self, bc, br]

/-- C189. One latitude (or tropopause pressure), as a number or as an array of one element, stands for as many equal ones as there are profiles. -/
theorem C189_scalar {u t pressure : NDArr (Option ℝ)} {m n : ℕ} (hp : pressure.shape = [n]) (hne : m ≠ n) (hu : u.shape = [m, n]) (ht : t.shape = [m, n])
    {x : Option ℝ} {one : List ℕ} (hone : one = [] ∨ one = [1]) (qz : Solver) (lat : Option (NDArr (Option ℝ))) (bounds : Option (List ℝ)) (lon : Option (NDArr (Option ℝ)))
    (mode method : String) (trop : Option (NDArr (Option ℝ))) (levels window : Option ℤ) (w : Trop.Work) (s : Trop.Scratch) (o : ℕ → ℕ → ℕ → Trop.Cell) :
    barocGrowth qz u t pressure (some ⟨one, fun _ => x⟩) bounds lon mode method trop levels window w s o =
        barocGrowth qz u t pressure (some ⟨[m], fun _ => x⟩) bounds lon mode method trop levels window w s o ∧
      barocGrowth qz u t pressure lat bounds lon mode method (some ⟨one, fun _ => x⟩) levels window w s o =
        barocGrowth qz u t pressure lat bounds lon mode method (some ⟨[m], fun _ => x⟩) levels window w s o := by
  have lu : u.shape.length = 2 := by rw [hu]; rfl
  have lt : t.shape.length = 2 := by rw [ht]; rfl
  rw [baroc_two (by omega) (by omega), baroc_two (by omega) (by omega), baroc_two (by omega) (by omega), baroc_two (by omega) (by omega)]
  have cc : ∀ a : NDArr (Option ℝ), a.shape = [m, n] → coerce a n = .ok (m, fun i j => a.get [i, j]) := by
    intro a ha
    unfold coerce
    rw [ha]
    dsimp only
    rw [axes_two, if_neg hne, if_pos rfl]
    rfl
  have pv : profileVector ⟨one, fun _ => x⟩ m = profileVector ⟨[m], fun _ => x⟩ m := by
    have e : profileVector ⟨[m], fun _ => x⟩ m = .ok fun _ => x := by
      unfold profileVector
      dsimp only
      rw [if_pos rfl]
    rw [e]
    rcases hone with rfl | rfl
    · rfl
    · unfold profileVector
      dsimp only
      by_cases k : 1 = m
      · rw [if_pos k]
      · rw [if_neg k, if_pos rfl]
  have key : ∀ (f g : Option (ℝ × ℝ) → Setting → Except Err Out), (∀ b S, S.np = n → f b S = g b S) →
      ((boundsOf bounds).bind fun b => (settings pressure lon mode method levels window).bind fun S => f b S) =
        (boundsOf bounds).bind fun b => (settings pressure lon mode method levels window).bind fun S => g b S := by
    intro f g h
    congr 1
    funext b
    cases hS : settings pressure lon mode method levels window with
    | error e => rfl
    | ok S => exact h b S (settings_np hp hS)
  constructor
  · refine key _ _ fun b S hS => ?_
    unfold dispatch
    rw [hS, cc u hu, cc t ht, lu]
    cases b with
    | some b => rfl
    | none =>
      simp only [bind, Except.bind]
      unfold manyProfiles
      simp only [max_self, placesOf, pv]
      rfl
  · refine key _ _ fun b S hS => ?_
    unfold dispatch
    rw [hS, cc u hu, cc t ht, lu]
    simp only [bind, Except.bind, OfNat.ofNat_ne_one, false_and, if_false]
    unfold manyProfiles
    simp only [max_self, tropsOf, pv]

/-- C189. A barotropic profile of one or two latitudes raises (the docstring promises NaN), and so does an empty one. -/
theorem C189_short {n : ℕ} (hn : n < 3) {lat : ℕ → ℝ} (h : Spec.Strict n lat) (u : ℕ → ℝ) (qz : Solver) :
    barotGrowth qz (Spec.array n u) (Spec.array n lat) 6371000 7.292e-5 = if n = 0 then .error .index else .error (.runtime [1]) := by
  unfold barotGrowth
  rw [if_neg (by norm_num)]
  simp only [as1d, Spec.array, bind, Except.bind]
  rw [if_neg (by simp)]
  unfold barotSolve
  rw [if_neg (by simp), if_neg (show ¬¬ Monotone1 n fun i => some (lat ([i].getD 0 0 + 1)) from not_not.mpr (monotone_some h))]
  split_ifs
  · rfl
  all_goals
    unfold dbarot
    extract_lets rev
    rw [if_pos hn]
    rfl

example : (⟨[4, 2], fun _ => some (1 : ℝ)⟩ : NDArr (Option ℝ)).shape = [4, 2] ∧ (4 : ℕ) ≠ 2 ∧ 1 ≤ 4 := by decide

example : Spec.Strict 2 fun i => (i : ℝ) := Or.inl fun i _ _ => by push_cast; linarith

end Skyborn.Growth
