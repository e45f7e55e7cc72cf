/-
Missing data of gridded calls.
-/
import Verif.Gpi.Reverse

namespace Skyborn.Gpi

open Classical

/-! ### Specification -/

/-- The array without its first `k` levels. -/
def Spec.drop (k : ℕ) (a : NDArr (Option ℝ)) : NDArr (Option ℝ) := ⟨[a.shape.headD 0 - k], fun i => a.get [i.headD 0 + k]⟩

/-- A number that is not the missing value. -/
def Spec.Known (x : Option ℝ) : Prop := ∃ v, x = some v ∧ v ≠ undef

/-! ### Lemmas -/

theorem known_iff (x : Option ℝ) : Spec.Known x ↔ x.getD undef ≠ undef := by
  cases x with
  | none =>
    constructor
    · rintro ⟨v, h, _⟩
      cases h
    · exact fun h => absurd rfl h
  | some v =>
    constructor
    · rintro ⟨w, h, hw⟩
      cases h
      exact hw
    · exact fun h => ⟨v, rfl, h⟩

theorem inb_insert {s i : List ℕ} {a l : ℕ} (h : InB (s.eraseIdx a) i) (hl : l < s.getD a 0) : InB s (i.insertIdx a l) := by
  induction s generalizing i a with
  | nil => simp at hl
  | cons n s ih =>
    cases a with
    | zero => exact ⟨hl, h⟩
    | succ a =>
      cases i with
      | nil => exact h.elim
      | cons b i => exact ⟨h.1, ih h.2 hl⟩

theorem validStart_at {t r : ℕ → ℝ} {k : ℕ} (hk : t k ≠ undef ∧ r k ≠ undef) (left : ℕ) : ∀ j, j ≤ k → k < j + left →
    (∀ i, j ≤ i → i < k → ¬ (t i ≠ undef ∧ r i ≠ undef)) → validStart t r left j = k := by
  induction left with
  | zero => intro j a b; omega
  | succ m ih =>
    intro j a b c
    unfold validStart
    by_cases e : j = k
    · rw [e, if_pos hk]
    · rw [if_neg (c j le_rfl (by omega))]
      exact ih (j + 1) (by omega) (by omega) fun i x y => c i (by omega) y

theorem validStart_none {t r : ℕ → ℝ} (left : ℕ) : ∀ j, (∀ i, j ≤ i → i < j + left → ¬ (t i ≠ undef ∧ r i ≠ undef)) → validStart t r left j = j + left := by
  induction left with
  | zero => intro j _; rfl
  | succ m ih =>
    intro j h
    unfold validStart
    rw [if_neg (h j le_rfl (by omega)), ih (j + 1) fun i a b => h i (by omega) (by omega)]
    omega

/-- The profile call of arrays whose first `k` levels are left out. -/
theorem drop_call {p t r : NDArr (Option ℝ)} {n k : ℕ} (hp : p.shape = [n]) (ht : t.shape = [n]) (hr : r.shape = [n]) (hk : k < n) (hf : Spec.SurfaceFirst (Spec.drop k p)) (s q : ℝ)
    (source : ℕ) (ckcd : ℝ) : profileCall (num s) (num q) (Spec.drop k p) (Spec.drop k t) (Spec.drop k r) none source ckcd =
      match profile s q (fun i => (p.get [i - 1 + k]).getD undef) (fun i => (t.get [i - 1 + k]).getD undef) (fun i => (r.get [i - 1 + k]).getD undef) (n - k) source ckcd with
      | none => .error .unmodelled
      | some res => .ok res := by
  unfold profileCall
  have e1 : ∀ x, scalar (num x) = .ok x := fun x => rfl
  have e2 : prepareProfile (Spec.drop k p) (Spec.drop k t) (Spec.drop k r) none =
      .ok (fun i => (p.get [i - 1 + k]).getD undef, fun i => (t.get [i - 1 + k]).getD undef, fun i => (r.get [i - 1 + k]).getD undef, n - k) := by
    unfold prepareProfile
    have s1 : (Spec.drop k p).shape = [n - k] := by
      show [p.shape.headD 0 - k] = _
      rw [hp]
      rfl
    have s2 : (Spec.drop k t).shape = [n - k] := by
      show [t.shape.headD 0 - k] = _
      rw [ht]
      rfl
    have s3 : (Spec.drop k r).shape = [n - k] := by
      show [r.shape.headD 0 - k] = _
      rw [hr]
      rfl
    rw [s1]
    dsimp only
    unfold Spec.SurfaceFirst at hf
    rw [s2, s3, if_neg (by simp), if_neg (by simp), if_neg (by simp), if_neg (by simp only [Option.getD_none]; omega), if_neg hf, if_neg hf, if_neg hf]
    rfl
  rw [e1, e1, e2]
  rfl

/-- C197: on a grid, levels next to the surface at which temperature or mixing ratio are missing are left out: the values of the point are those of the profile call for
the levels above, if these are complete. -/
theorem C197_gap {sst psl p t r : NDArr (Option ℝ)} {actual : Option ℤ} {order : List (List ℕ)} {out : Intensity} (hd : t.shape.length ≠ 1)
    (hs : t.shape.length = 4 → Spec.Schedule (surface t.shape) order) (h : potentialIntensity sst psl p t r actual order = .ok out) {n : ℕ} (hp : p.shape = [n])
    (hf : Spec.SurfaceFirst p) {idx : List ℕ} (hi : InB out.shape idx) {s q : ℝ} (hsst : sst.get idx = some s) (hne : s ≠ undef) (hq : psl.get idx = some q)
    {k : ℕ} (hk : k < n) (hf' : Spec.SurfaceFirst (Spec.drop k p))
    (low : ∀ l, l < k → ¬ Spec.Known ((Spec.slice t idx).get [l]) ∨ ¬ Spec.Known ((Spec.slice r idx).get [l]))
    (high : ∀ l, k ≤ l → l < n → Spec.Known ((Spec.slice t idx).get [l]) ∧ Spec.Known ((Spec.slice r idx).get [l])) :
    ∃ out', potentialIntensity (num s) (num q) (Spec.drop k p) (Spec.drop k (Spec.slice t idx)) (Spec.drop k (Spec.slice r idx)) none [] = .ok out' ∧
      out.pmin idx = out'.pmin [] ∧ out.vmax idx = out'.vmax [] := by
  obtain ⟨g, hg, e1, h34, e2, _⟩ := call_inv hd hs h
  rw [e1] at hi
  obtain ⟨res, f, hpt, k1, k2⟩ := e2 idx hi
  obtain ⟨n', g1, g2, g3, g4, g5, rfl⟩ := grid_fields hg
  rw [hp] at g1
  obtain rfl : n = n' := by simpa using g1
  have st : (Spec.slice t idx).shape = [n] := by
    show [t.shape.getD _ 0] = [n]
    rw [g2]
  have sr : (Spec.slice r idx).shape = [n] := by
    show [r.shape.getD _ 0] = [n]
    rw [← g5, g2]
  have hl : idx.length + 1 = t.shape.length := by rw [InB.len hi, surface_len h34]
  have hdrop := drop_call (p := p) (t := Spec.slice t idx) (r := Spec.slice r idx) hp st sr hk hf' s q 0 0.9
  have cT : ∀ i, (clean t).get (column idx i) = ((Spec.slice t idx).get [i - 1]).getD undef := by
    intro i
    unfold column
    rw [hl]
    rfl
  have cR : ∀ i, (clean r).get (column idx i) = ((Spec.slice r idx).get [i - 1]).getD undef := by
    intro i
    unfold column
    rw [hl, g5]
    rfl
  have es : (clean sst).get idx = s := by
    show (sst.get idx).getD undef = s
    rw [hsst]; rfl
  have eq : (clean psl).get idx = q := by
    show (psl.get idx).getD undef = q
    rw [hq]; rfl
  have lowT : ∀ i, 1 ≤ i → i < k + 1 → ¬ ((clean t).get (column idx i) ≠ undef ∧ (clean r).get (column idx i) ≠ undef) := by
    rintro i a b ⟨c, d⟩
    rw [cT, ← known_iff] at c
    rw [cR, ← known_iff] at d
    rcases low (i - 1) (by omega) with x | x
    · exact x c
    · exact x d
  have highT : ∀ i, k + 1 ≤ i → i ≤ n → ((clean t).get (column idx i) ≠ undef ∧ (clean r).get (column idx i) ≠ undef) := by
    intro i a b
    rw [cT, cR, ← known_iff, ← known_iff]
    exact high _ (by omega) (by omega)
  have key : profile s q (fun i => (p.get [i - 1 + k]).getD undef) (fun i => ((Spec.slice t idx).get [i - 1 + k]).getD undef)
      (fun i => ((Spec.slice r idx).get [i - 1 + k]).getD undef) (n - k) 0 0.9 = some res := by
    unfold Spec.SurfaceFirst at hf
    unfold Grid.point at hpt
    dsimp only at hpt
    rw [if_neg hf, if_neg hf, if_neg hf, es, eq] at hpt
    unfold profile
    by_cases hm : decide (hasMissing (clean sst) ∨ hasMissing (clean psl) ∨ hasMissing (clean p) ∨ hasMissing (clean t) ∨ hasMissing (clean r)) = true
    · rw [if_pos hm] at hpt
      unfold pointMissing at hpt
      rw [if_neg hne] at hpt
      by_cases c : s + -273.15 ≤ 5
      · rw [if_pos c] at hpt ⊢
        cases hpt
        rfl
      · rw [if_neg c] at hpt ⊢
        have hv : validStart (fun k => (clean t).get (column idx k)) (fun k => (clean r).get (column idx k)) n 1 = k + 1 :=
          validStart_at (highT (k + 1) le_rfl (by omega)) n 1 (by omega) (by omega) lowT
        rw [hv, if_neg (by omega)] at hpt
        dsimp only at hpt
        rw [← (core_same (c := ⟨n - (k + 1) + 1, fun i => maskT (fun k => (clean t).get (column idx k)) (fun k => (clean r).get (column idx k)) (i + (k + 1) - 1),
          fun i => (clean p).get [i + (k + 1) - 1 - 1], fun i => maskR (fun k => (clean t).get (column idx k)) (fun k => (clean r).get (column idx k)) (i + (k + 1) - 1), s, q * 0.01, 0, 0.9⟩)
          (c' := ⟨n - k, fun i => ((Spec.slice t idx).get [i - 1 + k]).getD undef, fun i => (p.get [i - 1 + k]).getD undef,
            fun i => ((Spec.slice r idx).get [i - 1 + k]).getD undef, s, q * 0.01, 0, 0.9⟩) (by show n - (k + 1) + 1 = n - k; omega) ?_ ?_ ?_ rfl rfl rfl rfl)]
        · cases hc : core (⟨n - (k + 1) + 1, fun i => maskT (fun k => (clean t).get (column idx k)) (fun k => (clean r).get (column idx k)) (i + (k + 1) - 1),
            fun i => (clean p).get [i + (k + 1) - 1 - 1], fun i => maskR (fun k => (clean t).get (column idx k)) (fun k => (clean r).get (column idx k)) (i + (k + 1) - 1), s, q * 0.01, 0, 0.9⟩) with
          | none =>
            rw [hc] at hpt
            cases hpt
          | some x =>
            rw [hc] at hpt
            cases hpt
            rfl
        · intro i a b
          show (p.get [i + (k + 1) - 1 - 1]).getD undef = (p.get [i - 1 + k]).getD undef
          rw [show i + (k + 1) - 1 - 1 = i - 1 + k by omega]
        · intro i a b
          change i ≤ n - (k + 1) + 1 at b
          dsimp only
          unfold maskT
          rw [if_pos (highT _ (by omega) (by omega))]
          dsimp only
          rw [cT, show i + (k + 1) - 1 - 1 = i - 1 + k by omega]
        · intro i a b
          change i ≤ n - (k + 1) + 1 at b
          dsimp only
          unfold maskR
          rw [if_pos (highT _ (by omega) (by omega))]
          dsimp only
          rw [cR, show i + (k + 1) - 1 - 1 = i - 1 + k by omega]
    · rw [if_neg hm] at hpt
      obtain rfl : k = 0 := by
        by_contra h0
        apply hm
        rw [decide_eq_true_eq]
        rcases low 0 (by omega) with x | x
        · refine Or.inr (Or.inr (Or.inr (Or.inl ⟨_, inb_insert (s := t.shape) (l := 0) hi (by rw [g2]; omega), ?_⟩)))
          rw [known_iff, not_not] at x
          exact x
        · refine Or.inr (Or.inr (Or.inr (Or.inr ⟨idx.insertIdx (levelAxis r.shape.length) 0, ?_, ?_⟩)))
          · show InB r.shape _
            rw [← g5]
            exact inb_insert (s := t.shape) (l := 0) hi (by rw [g2]; omega)
          · rw [known_iff, not_not] at x
            exact x
      unfold pointPlain at hpt
      by_cases c : s + -273.15 ≤ 5
      · rw [if_pos c] at hpt ⊢
        cases hpt
        rfl
      · rw [if_neg c] at hpt ⊢
        rw [← (core_same (c := ⟨n, fun i => (clean t).get (column idx i), fun i => (clean p).get [i - 1], fun i => (clean r).get (column idx i), s, q * 0.01, 0, 0.9⟩)
          (c' := ⟨n - 0, fun i => ((Spec.slice t idx).get [i - 1 + 0]).getD undef, fun i => (p.get [i - 1 + 0]).getD undef,
            fun i => ((Spec.slice r idx).get [i - 1 + 0]).getD undef, s, q * 0.01, 0, 0.9⟩) rfl (fun i _ _ => rfl) (fun i _ _ => cT i) (fun i _ _ => cR i) rfl rfl rfl rfl)]
        cases hc : core (⟨n, fun i => (clean t).get (column idx i), fun i => (clean p).get [i - 1], fun i => (clean r).get (column idx i), s, q * 0.01, 0, 0.9⟩) with
        | none =>
          rw [hc] at hpt
          cases hpt
        | some x =>
          rw [hc] at hpt
          cases hpt
          rfl
  rw [key] at hdrop
  refine ⟨⟨[], fun _ => post res.pmin, fun _ => post res.vmax, res.flag⟩, ?_, k1, k2⟩
  unfold potentialIntensity
  rw [if_pos (show (Spec.drop k (Spec.slice t idx)).shape.length = 1 from rfl), hdrop]
  rfl

/-- C197: a point above which no level has both temperature and mixing ratio has no value. -/
theorem C197_empty {sst psl p t r : NDArr (Option ℝ)} {actual : Option ℤ} {order : List (List ℕ)} {out : Intensity} (hd : t.shape.length ≠ 1)
    (hs : t.shape.length = 4 → Spec.Schedule (surface t.shape) order) (h : potentialIntensity sst psl p t r actual order = .ok out) {n : ℕ} (hp : p.shape = [n])
    {idx : List ℕ} (hi : InB out.shape idx) (hall : ∀ l, l < n → ¬ Spec.Known ((Spec.slice t idx).get [l]) ∨ ¬ Spec.Known ((Spec.slice r idx).get [l])) :
    out.pmin idx = none ∧ out.vmax idx = none := by
  obtain ⟨g, hg, e1, h34, e2, _⟩ := call_inv hd hs h
  rw [e1] at hi
  obtain ⟨res, f, hpt, k1, k2⟩ := e2 idx hi
  obtain ⟨n', g1, g2, g3, g4, g5, rfl⟩ := grid_fields hg
  rw [hp] at g1
  obtain rfl : n = n' := by simpa using g1
  have hl : idx.length + 1 = t.shape.length := by rw [InB.len hi, surface_len h34]
  have hax : levelAxis t.shape.length ≤ idx.length := by
    rw [InB.len hi]
    exact axis_le h34
  -- no level of the prepared arrays is complete
  have hno : ∀ i, 1 ≤ i → i < 1 + n → ¬ ((if upside (clean p) then flipAxis (levelAxis t.shape.length) (clean t) else clean t).get (column idx i) ≠ undef ∧
      (if upside (clean p) then flipAxis (levelAxis t.shape.length) (clean r) else clean r).get (column idx i) ≠ undef) := by
    rintro i a b ⟨c, d⟩
    by_cases u : upside (clean p)
    · rw [if_pos u] at c d
      have hT := flip_slice t idx i hl hax
      have hR := flip_slice r idx i (by rw [← g5]; exact hl) (by rw [← g5]; exact hax)
      rw [← g5] at hR
      rw [hT] at c
      rw [hR] at d
      change ((Spec.slice t idx).get [t.shape.getD (levelAxis t.shape.length) 0 - 1 - (i - 1)]).getD undef ≠ undef at c
      change ((Spec.slice r idx).get [r.shape.getD (levelAxis r.shape.length) 0 - 1 - (i - 1)]).getD undef ≠ undef at d
      rw [← known_iff, g2] at c
      rw [← known_iff, ← g5, g2] at d
      rcases hall (n - 1 - (i - 1)) (by omega) with x | x
      · exact x c
      · exact x d
    · rw [if_neg u] at c d
      have hT := clean_slice t idx i hl
      have hR := clean_slice r idx i (by rw [← g5]; exact hl)
      rw [hT] at c
      rw [hR] at d
      change ((Spec.slice t idx).get [i - 1]).getD undef ≠ undef at c
      change ((Spec.slice r idx).get [i - 1]).getD undef ≠ undef at d
      rw [← known_iff] at c d
      rcases hall (i - 1) (by omega) with x | x
      · exact x c
      · exact x d
  suffices hr : res = skipped (lnRatio 0.9) 0 by
    rw [k1, k2, hr]
    exact ⟨post_undef, post_undef⟩
  unfold Grid.point at hpt
  dsimp only at hpt
  by_cases hm : decide (hasMissing (clean sst) ∨ hasMissing (clean psl) ∨ hasMissing (clean p) ∨ hasMissing (clean t) ∨ hasMissing (clean r)) = true
  · rw [if_pos hm] at hpt
    unfold pointMissing at hpt
    by_cases c1 : (clean sst).get idx = undef
    · rw [if_pos c1] at hpt
      cases hpt
      rfl
    rw [if_neg c1] at hpt
    by_cases c2 : (clean sst).get idx + -273.15 ≤ 5
    · rw [if_pos c2] at hpt
      cases hpt
      rfl
    rw [if_neg c2, validStart_none n 1 hno, if_pos (by omega)] at hpt
    cases hpt
    rfl
  · rw [if_neg hm] at hpt
    unfold pointPlain at hpt
    by_cases c2 : (clean sst).get idx + -273.15 ≤ 5
    · rw [if_pos c2] at hpt
      cases hpt
      rfl
    · exfalso
      rcases Nat.eq_zero_or_pos n with rfl | hn
      · rw [if_neg c2] at hpt
        unfold core at hpt
        rw [if_pos (Or.inl rfl)] at hpt
        cases hpt
      · apply hm
        rw [decide_eq_true_eq]
        rcases hall 0 hn with x | x
        · refine Or.inr (Or.inr (Or.inr (Or.inl ⟨_, inb_insert (s := t.shape) (l := 0) hi (by rw [g2]; omega), ?_⟩)))
          rw [known_iff, not_not] at x
          exact x
        · refine Or.inr (Or.inr (Or.inr (Or.inr ⟨idx.insertIdx (levelAxis r.shape.length) 0, ?_, ?_⟩)))
          · show InB r.shape _
            rw [← g5]
            exact inb_insert (s := t.shape) (l := 0) hi (by rw [g2]; omega)
          · rw [known_iff, not_not] at x
            exact x

end Skyborn.Gpi
