/-
Which levels count.
-/
import Verif.Gpi.Holes

namespace Skyborn.Gpi

open Classical

/-! ### Specification -/

/-- Of the first `n` levels (counted from 1), `k` is the first that is nearest to 50 mb. -/
def Spec.Nearest50 (p : NDArr (Option ℝ)) (n k : ℕ) : Prop :=
  1 ≤ k ∧ k ≤ n ∧ (∀ j, 1 ≤ j → j ≤ n → |(p.get [k - 1]).getD undef - 50| ≤ |(p.get [j - 1]).getD undef - 50|) ∧
    ∀ j, 1 ≤ j → j < k → |(p.get [k - 1]).getD undef - 50| < |(p.get [j - 1]).getD undef - 50|

/-- The first `m` levels of a profile. -/
def Spec.take (m : ℕ) (a : NDArr (Option ℝ)) : NDArr (Option ℝ) := ⟨[m], a.get⟩

/-! ### Proofs -/

theorem nearest_spec (p : ℕ → ℝ) : ∀ n, 1 ≤ n → (∀ j, 1 ≤ j → j ≤ n → |p (nearest p n) - 50| ≤ |p j - 50|) ∧ ∀ j, 1 ≤ j → j < nearest p n → |p (nearest p n) - 50| < |p j - 50| := by
  intro n
  match n with
  | 0 => intro h; omega
  | 1 =>
    intro _
    refine ⟨fun j a b => ?_, fun j a b => ?_⟩
    · obtain rfl : j = 1 := by omega
      exact le_rfl
    · change j < 1 at b
      omega
  | n + 2 =>
    intro _
    obtain ⟨h1, h2⟩ := nearest_spec p (n + 1) (by omega)
    have hb := nearest_bounds p (n + 1)
    rw [nearest]
    by_cases c : |p (n + 2) - 50| < |p (nearest p (n + 1)) - 50|
    · rw [if_pos c]
      refine ⟨fun j a b => ?_, fun j a b => ?_⟩
      · by_cases e : j = n + 2
        · rw [e]
        · exact c.le.trans (h1 j a (by omega))
      · exact c.trans_le (h1 j a (by omega))
    · rw [if_neg c]
      push Not at c
      refine ⟨fun j a b => ?_, fun j a b => h2 j a b⟩
      by_cases e : j = n + 2
      · rw [e]; exact c
      · exact h1 j a (by omega)

theorem nearest_unique {p : NDArr (Option ℝ)} {n k : ℕ} (hn : 1 ≤ n) (h : Spec.Nearest50 p n k) : nearest (fun i => (p.get [i - 1]).getD undef) n = k := by
  obtain ⟨a, b, c, d⟩ := h
  obtain ⟨e, f⟩ := nearest_spec (fun i => (p.get [i - 1]).getD undef) n hn
  have hb := nearest_bounds (fun i => (p.get [i - 1]).getD undef) n
  generalize nearest (fun i => (p.get [i - 1]).getD undef) n = m at *
  rcases lt_trichotomy m k with g | g | g
  · have := d m hb.1 g
    have := e k a b
    linarith
  · exact g
  · have := f k a g
    have := c m hb.1 (by omega)
    linarith

/-- The arrays of a profile with the surface first. -/
theorem prepare_first {p t r : NDArr (Option ℝ)} {n : ℕ} (hp : p.shape = [n]) (ht : t.shape = [n]) (hr : r.shape = [n]) (hf : Spec.SurfaceFirst p) (actual : Option ℤ)
    (h1 : 1 ≤ actual.getD n) (h2 : actual.getD n ≤ n) : prepareProfile p t r actual =
      .ok (fun i => (p.get [i - 1]).getD undef, fun i => (t.get [i - 1]).getD undef, fun i => (r.get [i - 1]).getD undef, (actual.getD n).toNat) := by
  unfold prepareProfile
  unfold Spec.SurfaceFirst at hf
  rw [hp]
  dsimp only
  rw [ht, hr, if_neg (by simp), if_neg (by simp), if_neg (by simp), if_neg (by omega), if_neg hf, if_neg hf, if_neg hf]
  rfl

theorem profile_first {sst psl p t r : NDArr (Option ℝ)} {n : ℕ} (hp : p.shape = [n]) (ht : t.shape = [n]) (hr : r.shape = [n]) (hf : Spec.SurfaceFirst p) (actual : Option ℤ)
    (h1 : 1 ≤ actual.getD n) (h2 : actual.getD n ≤ n) {s q : ℝ} (hs : scalar sst = .ok s) (hq : scalar psl = .ok q) (source : ℕ) (ckcd : ℝ) : profileCall sst psl p t r actual source ckcd =
      match profile s q (fun i => (p.get [i - 1]).getD undef) (fun i => (t.get [i - 1]).getD undef) (fun i => (r.get [i - 1]).getD undef) (actual.getD n).toNat source ckcd with
      | none => .error .unmodelled
      | some res => .ok res := by
  unfold profileCall
  rw [hs, hq, prepare_first hp ht hr hf actual h1 h2]
  rfl

/-- C199: of the levels that are used, temperature and humidity at the level nearest to 50 mb and above have no influence on the result (except at the lowest level). So the
uppermost level never has any. -/
theorem C199_above {sst psl p t r t' r' : NDArr (Option ℝ)} {n k : ℕ} (hp : p.shape = [n]) (ht : t.shape = [n]) (hr : r.shape = [n]) (ht' : t'.shape = [n]) (hr' : r'.shape = [n])
    (hf : Spec.SurfaceFirst p) (actual : Option ℤ) (order : List (List ℕ)) (h1 : 1 ≤ actual.getD n) (h2 : actual.getD n ≤ n) (hk : Spec.Nearest50 p (actual.getD n).toNat k)
    (et : ∀ l, l = 1 ∨ 1 ≤ l ∧ l < k → t.get [l - 1] = t'.get [l - 1]) (er : ∀ l, l = 1 ∨ 1 ≤ l ∧ l < k → r.get [l - 1] = r'.get [l - 1]) :
    potentialIntensity sst psl p t r actual order = potentialIntensity sst psl p t' r' actual order := by
  unfold potentialIntensity
  rw [if_pos (by rw [ht]; rfl), if_pos (by rw [ht']; rfl)]
  have key : profileCall sst psl p t r actual 0 0.9 = profileCall sst psl p t' r' actual 0 0.9 := by
    cases hs : scalar sst with
    | error e =>
      unfold profileCall
      rw [hs]
      rfl
    | ok s =>
    cases hq : scalar psl with
    | error e =>
      unfold profileCall
      rw [hs, hq]
      rfl
    | ok q =>
    rw [profile_first hp ht hr hf actual h1 h2 hs hq, profile_first hp ht' hr' hf actual h1 h2 hs hq]
    have : profile s q (fun i => (p.get [i - 1]).getD undef) (fun i => (t.get [i - 1]).getD undef) (fun i => (r.get [i - 1]).getD undef) (actual.getD n).toNat 0 0.9 =
        profile s q (fun i => (p.get [i - 1]).getD undef) (fun i => (t'.get [i - 1]).getD undef) (fun i => (r'.get [i - 1]).getD undef) (actual.getD n).toNat 0 0.9 := by
      unfold profile
      have hnear := nearest_unique (by omega) hk
      rw [core_congr (c := ⟨(actual.getD n).toNat, fun i => (t.get [i - 1]).getD undef, fun i => (p.get [i - 1]).getD undef, fun i => (r.get [i - 1]).getD undef, s, q * 0.01, 0, 0.9⟩)
        (c' := ⟨(actual.getD n).toNat, fun i => (t'.get [i - 1]).getD undef, fun i => (p.get [i - 1]).getD undef, fun i => (r'.get [i - 1]).getD undef, s, q * 0.01, 0, 0.9⟩)
        rfl (fun _ _ _ => rfl) ?_ ?_ rfl rfl rfl rfl]
      · intro i a b
        dsimp only at b ⊢
        rw [hnear] at b
        rw [et i (by omega)]
      · intro i a b
        dsimp only at b ⊢
        rw [hnear] at b
        rw [er i (by omega)]
    rw [this]
  rw [key]

/-- C199 applies: the third of three levels at 971, 970 and 50 mb. -/
example : Spec.Nearest50 (prof 3 (windy 0 0.9).p) 3 3 ∧ Spec.SurfaceFirst (prof 3 (windy 0 0.9).p) := by
  refine ⟨⟨by norm_num, le_rfl, fun j a b => ?_, fun j a b => ?_⟩, not_upside (by norm_num) (by show (50 : ℝ) ≤ 971; norm_num)⟩
  · show |(50 : ℝ) - 50| ≤ _
    rw [sub_self, abs_zero]
    exact abs_nonneg _
  · show |(50 : ℝ) - 50| < |(if j - 1 + 1 = 1 then (971 : ℝ) else if j - 1 + 1 = 2 then 970 else 50) - 50|
    have : j = 1 ∨ j = 2 := by omega
    rcases this with rfl | rfl <;> norm_num

/-- C199: `actual_levels` = the call with the arrays cut off after so many levels, if these too begin at the surface. -/
theorem C199_actual {sst psl p t r : NDArr (Option ℝ)} {n m : ℕ} (hp : p.shape = [n]) (ht : t.shape = [n]) (hr : r.shape = [n]) (hf : Spec.SurfaceFirst p)
    (hf' : Spec.SurfaceFirst (Spec.take m p)) (h1 : 1 ≤ m) (h2 : m ≤ n) (order : List (List ℕ)) :
    potentialIntensity sst psl p t r (some m) order = potentialIntensity sst psl (Spec.take m p) (Spec.take m t) (Spec.take m r) none order := by
  unfold potentialIntensity
  rw [if_pos (by rw [ht]; rfl), if_pos (show (Spec.take m t).shape.length = 1 from rfl)]
  have key : profileCall sst psl p t r (some m) 0 0.9 = profileCall sst psl (Spec.take m p) (Spec.take m t) (Spec.take m r) none 0 0.9 := by
    cases hs : scalar sst with
    | error e =>
      unfold profileCall
      rw [hs]
      rfl
    | ok s =>
    cases hq : scalar psl with
    | error e =>
      unfold profileCall
      rw [hs, hq]
      rfl
    | ok q =>
    rw [profile_first hp ht hr hf (some m) (by simp only [Option.getD_some]; omega) (by simp only [Option.getD_some]; omega) hs hq,
      profile_first (n := m) rfl rfl rfl hf' none (by simp only [Option.getD_none]; omega) (by simp only [Option.getD_none]; omega) hs hq]
    rfl
  rw [key]

example : Spec.SurfaceFirst (Spec.take 2 (prof 3 (windy 0 0.9).p)) := by
  rintro ⟨_, h⟩
  change (971 : ℝ) < 970 at h
  norm_num at h

/-- C199: the number of levels must be between 1 and that of the profile, and is ignored on grids. -/
theorem C199_refused {sst psl p t r : NDArr (Option ℝ)} {n : ℕ} {m : ℤ} (hp : p.shape = [n]) (ht : t.shape.length = 1) (h : m < 1 ∨ (n : ℤ) < m) (order : List (List ℕ)) :
    ∃ e, potentialIntensity sst psl p t r (some m) order = .error e := by
  unfold potentialIntensity
  rw [if_pos ht]
  have : ∃ e, profileCall sst psl p t r (some m) 0 0.9 = .error e := by
    unfold profileCall
    cases scalar sst with
    | error e => exact ⟨e, rfl⟩
    | ok s =>
    cases scalar psl with
    | error e => exact ⟨e, rfl⟩
    | ok q =>
    have : ∃ e, prepareProfile p t r (some m) = .error e := by
      unfold prepareProfile
      rw [hp]
      dsimp only
      by_cases c1 : r.shape = []
      · exact ⟨_, if_pos c1⟩
      rw [if_neg c1]
      by_cases c2 : t.shape.getD 0 0 ≠ n ∨ r.shape.getD 0 0 ≠ n
      · exact ⟨_, if_pos c2⟩
      rw [if_neg c2]
      by_cases c3 : t.shape ≠ r.shape
      · exact ⟨_, if_pos c3⟩
      rw [if_neg c3]
      exact ⟨_, if_pos h⟩
    obtain ⟨e, he⟩ := this
    rw [he]
    exact ⟨e, rfl⟩
  obtain ⟨e, he⟩ := this
  rw [he]
  exact ⟨e, rfl⟩

theorem C199_ignored {sst psl p t r : NDArr (Option ℝ)} (ht : t.shape.length ≠ 1) (actual actual' : Option ℤ) (order : List (List ℕ)) :
    potentialIntensity sst psl p t r actual order = potentialIntensity sst psl p t r actual' order := by
  unfold potentialIntensity
  rw [if_neg ht, if_neg ht]

end Skyborn.Gpi
