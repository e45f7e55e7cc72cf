/-
C35 and the pointwise meaning of the bilinear kernel.
-/
import Verif.Regrid.ConsProps

namespace Skyborn.Regrid

open Skyborn

section
variable {K : Type} [Field K] [LinearOrder K]

theorem bracketLoop_spec (n : ℕ) (values : ℕ → K) (x : K) : ∀ (k lo hi : ℕ), hi - lo = k → lo < hi → hi < n → values lo ≤ x →
    x < values hi → ∃ l, bracketLoop n values x lo hi = some l ∧ l + 1 < n ∧ values l ≤ x ∧ x < values (l + 1) := by
  intro k
  induction k using Nat.strong_induction_on with
  | _ k ih =>
    intro lo hi hk h1 h2 h3 h4
    unfold bracketLoop
    by_cases h : hi - lo > 1
    · rw [if_pos h]
      dsimp only
      rw [rd0_ok (show lo + (hi - lo) / 2 < n by omega)]
      simp only [Option.bind_eq_bind, Option.bind_some]
      by_cases hv : values (lo + (hi - lo) / 2) ≤ x
      · rw [if_pos hv]
        exact ih (hi - (lo + (hi - lo) / 2)) (by omega) _ _ rfl (by omega) h2 hv h4
      · rw [if_neg hv]
        exact ih (lo + (hi - lo) / 2 - lo) (by omega) _ _ rfl (by omega) (by omega) h3 (not_le.mp hv)
    · rw [if_neg h]
      have : hi = lo + 1 := by omega
      subst this
      exact ⟨lo, rfl, h2, h3, h4⟩

variable [IsStrictOrderedRing K]

/-- C35: on an axis with at least two strictly increasing points the search returns a pair of neighbouring positions inside the
axis and a fraction between 0 and 1 which reproduces the target, moved to the nearest end of the axis when it lies outside. -/
theorem C35_bracket {n : ℕ} (hn : 2 ≤ n) {values : ℕ → K} (h : Spec.StrictInc n values) (x : K) :
    ∃ l f, bracketClamped x n values = some (some (l, f)) ∧ l + 1 < n ∧ 0 ≤ f ∧ f ≤ 1 ∧
      values l + f * (values (l + 1) - values l) = max (values 0) (min (values (n - 1)) x) := by
  unfold bracketClamped
  rw [if_neg (by omega), rd0_ok (show 0 < n by omega)]
  simp only [Option.bind_eq_bind, Option.bind_some]
  have h01 : values 0 < values (n - 1) := h 0 (n - 1) (by omega) (by omega)
  by_cases h1 : x ≤ values 0
  · rw [if_pos h1]
    refine ⟨0, 0, rfl, by omega, le_rfl, zero_le_one, ?_⟩
    rw [min_eq_right (h1.trans h01.le), max_eq_left h1]; ring
  · rw [if_neg h1, rd0_ok (show n - 1 < n by omega)]
    simp only [Option.bind_some]
    by_cases h2 : x ≥ values (n - 1)
    · rw [if_pos h2]
      refine ⟨n - 2, 1, rfl, by omega, zero_le_one, le_rfl, ?_⟩
      rw [min_eq_left h2, max_eq_right h01.le, show n - 2 + 1 = n - 1 by omega]; ring
    · rw [if_neg h2]
      push Not at h1 h2
      obtain ⟨l, e, hl, ha, hb⟩ := bracketLoop_spec n values x (n - 1 - 0) 0 (n - 1) rfl (by omega) (by omega) h1.le h2
      rw [e]
      simp only [Option.bind_some]
      rw [rd0_ok hl, rd0_ok (show l < n by omega)]
      simp only [Option.bind_some]
      have hd : 0 < values (l + 1) - values l := by linarith
      rw [if_neg (not_le.mpr hd)]
      refine ⟨l, _, rfl, hl, div_nonneg (by linarith) hd.le, ?_, ?_⟩
      · rw [div_le_one hd]; linarith
      · rw [min_eq_right h2.le, max_eq_right h1.le]
        field_simp
        ring

/-- C35: an axis with one point: position 0, fraction 0. -/
theorem C35_single {n : ℕ} (hn : n ≤ 1) (values : ℕ → K) (x : K) : bracketClamped x n values = some (some (0, 0)) := by
  unfold bracketClamped; rw [if_pos hn]

example : bracketClamped (7 / 2 : ℚ) 4 (fun i => (i : ℚ) ^ 2) = some (some (1, 5 / 6)) := by
  have h : bracketClamped (7 / 2 : ℚ) 4 (fun i => (i : ℚ) ^ 2) = some (some (1, 5 / 6)) := by
    unfold bracketClamped bracketLoop
    norm_num [rd0]
    unfold bracketLoop
    norm_num [rd0]
    unfold bracketLoop
    norm_num [rd0]
  exact h

/-- The search, in the vocabulary of the specification. -/
theorem bracket_of {n : ℕ} (hn : 1 ≤ n) {values : ℕ → K} (h : Spec.StrictInc n values) (x : K) :
    ∃ l f, bracketClamped x n values = some (some (l, f)) ∧ l < n ∧ Spec.Bracket n values x l (if n > 1 then l + 1 else l) f := by
  rcases Nat.lt_or_ge 1 n with h1 | h1
  · obtain ⟨l, f, e, h2, h3, h4, h5⟩ := C35_bracket h1 h x
    exact ⟨l, f, e, by omega, by rw [if_pos h1]; exact ⟨h2, Or.inl rfl, h3, h4, h5⟩⟩
  · have : n = 1 := by omega
    subst this
    refine ⟨0, 0, C35_single (by omega) values x, by omega, ?_⟩
    rw [if_neg (by omega)]
    refine ⟨by omega, Or.inr ⟨rfl, rfl, rfl⟩, le_rfl, zero_le_one, ?_⟩
    rw [Nat.sub_self, max_eq_left (min_le_left _ _)]; ring

/-- What the kernel computes for one target point: the corners of the cell and the fractions it uses. -/
def PointSpec (n m : ℕ) (x y : ℕ → K) (f : ℕ → ℕ → Option K) (s t : K) (v : Option K) : Prop :=
  ∃ l r a p q b, l < n ∧ p < m ∧ Spec.Bracket n x s l r a ∧ Spec.Bracket m y t p q b ∧
    v = lerp b (lerp a (f l p) (f r p)) (lerp a (f l q) (f r q))

theorem bilinearCore_spec {fsize foff osize ooff nsl nsa : ℕ} {field : ℕ → Option K} {srcLon srcLat : ℕ → K} {ntl nta : ℕ}
    {tgtLon tgtLat : ℕ → K} (h1 : 1 ≤ nsl) (h2 : 1 ≤ nsa) (hlon : Spec.StrictInc nsl srcLon) (hlat : Spec.StrictInc nsa srcLat)
    (hf : foff + nsl * nsa ≤ fsize) (ho : ooff + ntl * nta ≤ osize) (out : ℕ → Option K) :
    ∃ out', bilinearCore fsize foff osize ooff nsl nsa field srcLon srcLat ntl nta tgtLon tgtLat out = some (some out') ∧
      (∀ i j, i < ntl → j < nta → PointSpec nsl nsa srcLon srcLat (fun c d => field (foff + (c * nsa + d))) (tgtLon i) (tgtLat j)
        (out' (ooff + (i * nta + j)))) ∧
      ∀ p, (∀ i j, i < ntl → j < nta → ooff + (i * nta + j) ≠ p) → out' p = out p := by
  unfold bilinearCore
  obtain ⟨st, e, o, hst, h3, h4⟩ := forM_inv (Nat.zero_le ntl) (s := (some out : Option (ℕ → Option K)))
    (f := fun ilon (st : Option (ℕ → Option K)) => match st with
    | none => some none
    | some out => do
      let tl ← rd0 ntl tgtLon ilon
      match ← bracketClamped tl nsl srcLon with
      | none => return none
      | some (lonLeft, lonFrac) =>
        let lonRight := if nsl > 1 then lonLeft + 1 else lonLeft
        forM 0 nta (some out) fun ilat st => match st with
          | none => some none
          | some out => do
            let ta ← rd0 nta tgtLat ilat
            match ← bracketClamped ta nsa srcLat with
            | none => return none
            | some (latLeft, latFrac) =>
              let latRight := if nsa > 1 then latLeft + 1 else latLeft
              let v00 ← rd0 fsize field (foff + (lonLeft * nsa + latLeft))
              let v10 ← rd0 fsize field (foff + (lonRight * nsa + latLeft))
              let v01 ← rd0 fsize field (foff + (lonLeft * nsa + latRight))
              let v11 ← rd0 fsize field (foff + (lonRight * nsa + latRight))
              let v0 := lerp lonFrac v00 v10
              let v1 := lerp lonFrac v01 v11
              let out ← wr0 osize out (ooff + (ilon * nta + ilat)) (lerp latFrac v0 v1)
              return some out)
    (fun r st => ∃ o, st = some o ∧ (∀ i j, i < r → j < nta →
        PointSpec nsl nsa srcLon srcLat (fun c d => field (foff + (c * nsa + d))) (tgtLon i) (tgtLat j) (o (ooff + (i * nta + j)))) ∧
      ∀ p, (∀ i j, i < r → j < nta → ooff + (i * nta + j) ≠ p) → o p = out p)
    ⟨out, rfl, by intro i j h; omega, by intros; rfl⟩
    (by
      rintro r st - hr ⟨o, rfl, g1, g2⟩
      obtain ⟨l, a, el, hl, hb⟩ := bracket_of h1 hlon (tgtLon r)
      obtain ⟨R, hR⟩ : ∃ R, R = if nsl > 1 then l + 1 else l := ⟨_, rfl⟩
      rw [← hR] at hb
      beta_reduce
      simp only [rd0_ok hr, Option.bind_eq_bind, Option.bind_some, el]
      rw [← hR]
      obtain ⟨st', e', o', hst', h5, h6⟩ := forM_inv (Nat.zero_le nta) (s := (some o : Option (ℕ → Option K)))
        (f := fun ilat (st : Option (ℕ → Option K)) => match st with
          | none => some none
          | some out => do
            let ta ← rd0 nta tgtLat ilat
            match ← bracketClamped ta nsa srcLat with
            | none => return none
            | some (latLeft, latFrac) =>
              let latRight := if nsa > 1 then latLeft + 1 else latLeft
              let v00 ← rd0 fsize field (foff + (l * nsa + latLeft))
              let v10 ← rd0 fsize field (foff + (R * nsa + latLeft))
              let v01 ← rd0 fsize field (foff + (l * nsa + latRight))
              let v11 ← rd0 fsize field (foff + (R * nsa + latRight))
              let v0 := lerp a v00 v10
              let v1 := lerp a v01 v11
              let out ← wr0 osize out (ooff + (r * nta + ilat)) (lerp latFrac v0 v1)
              return some out)
        (fun q st => ∃ o', st = some o' ∧ (∀ j, j < q → PointSpec nsl nsa srcLon srcLat (fun c d => field (foff + (c * nsa + d)))
            (tgtLon r) (tgtLat j) (o' (ooff + (r * nta + j)))) ∧ ∀ p, (∀ j, j < q → ooff + (r * nta + j) ≠ p) → o' p = o p)
        ⟨o, rfl, by intro j h; omega, by intros; rfl⟩
        (by
          rintro q st - hq ⟨o', rfl, k1, k2⟩
          obtain ⟨p, b, ep, hp, hpb⟩ := bracket_of h2 hlat (tgtLat q)
          obtain ⟨Q, hQ⟩ : ∃ Q, Q = if nsa > 1 then p + 1 else p := ⟨_, rfl⟩
          rw [← hQ] at hpb
          have hRn := hb.1
          have hQn := hpb.1
          have b1 := flat_lt hl hp
          have b2 := flat_lt hRn hp
          have b3 := flat_lt hl hQn
          have b4 := flat_lt hRn hQn
          have b5 := flat_lt hr hq
          beta_reduce
          simp only [rd0_ok hq, Option.bind_eq_bind, Option.bind_some, ep]
          rw [← hQ]
          rw [rd0_ok (show foff + (l * nsa + p) < fsize by omega), rd0_ok (show foff + (R * nsa + p) < fsize by omega),
            rd0_ok (show foff + (l * nsa + Q) < fsize by omega), rd0_ok (show foff + (R * nsa + Q) < fsize by omega)]
          simp only [Option.bind_some]
          rw [wr0_ok (show ooff + (r * nta + q) < osize by omega)]
          refine ⟨_, rfl, _, rfl, ?_, ?_⟩
          · intro j hj
            rcases Nat.lt_succ_iff_lt_or_eq.mp hj with g | g
            · rw [Function.update_of_ne (by omega)]
              exact k1 j g
            · subst g
              rw [Function.update_self]
              exact ⟨l, R, a, p, Q, b, hl, hp, hb, hpb, rfl⟩
          · intro pp hpp
            rw [Function.update_of_ne (hpp q (by omega)).symm]
            exact k2 pp fun j hj => hpp j (by omega))
      refine ⟨st', e', o', hst', ?_, ?_⟩
      · intro i j hi hj
        rcases Nat.lt_succ_iff_lt_or_eq.mp hi with g | g
        · rw [h6]
          · exact g1 i j g hj
          · intro k hk e
            have := flat_inj (m := nta) (i := r) (i' := i) hk hj (by omega)
            omega
        · subst g
          exact h5 j hj
      · intro p hp
        rw [h6 p fun j hj => hp r j (by omega) hj]
        exact g2 p fun i j hi hj => hp i j (by omega) hj)
  subst hst
  exact ⟨o, e, h3, h4⟩

end
end Skyborn.Regrid
