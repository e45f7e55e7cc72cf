/-
The two ways of visiting the rows (directly, or in north/south pairs) fill the same grid.
-/
import Verif.RedGauss.Synthesis

namespace Skyborn.RedGauss

open Skyborn

/-- The packed point `p` lies in row `j`. -/
def inRow (pl : ℕ → ℕ) (j p : ℕ) : Prop := Spec.rowStart pl j < p ∧ p ≤ Spec.rowStart pl j + pl j

instance (pl : ℕ → ℕ) (j p : ℕ) : Decidable (inRow pl j p) := by unfold inRow; infer_instance

theorem inRow_unique {pl : ℕ → ℕ} {j j' p : ℕ} (h1 : 1 ≤ j) (h1' : 1 ≤ j') (h : inRow pl j p) (h' : inRow pl j' p) : j = j' := by
  obtain ⟨i, rfl⟩ : ∃ i, p = Spec.rowStart pl j + i := ⟨p - Spec.rowStart pl j, by have := h.1; omega⟩
  obtain ⟨i', e⟩ : ∃ i', Spec.rowStart pl j + i = Spec.rowStart pl j' + i' := ⟨Spec.rowStart pl j + i - Spec.rowStart pl j', by have := h'.1; omega⟩
  unfold inRow at h h'
  exact (row_unique pl h1 h1' (by omega) (by omega) (by omega) (by omega) e).1

/-- Direct path. -/
theorem rows_direct {σ ι : Type*} {E : Env} (hE : E.ok) {nlat nt : ℕ} {pl : ℕ → ℕ} (get : σ → ℕ → ℕ → ι → ℝ) (val : ℕ → ℕ → ℕ → ι → ℝ)
    (f : ℕ → σ → σ) (s : σ) (hf : ∀ j, 1 ≤ j → j ≤ nlat → ∀ s p k c, get (f j s) p k c =
      if (1 ≤ k ∧ k ≤ nt) ∧ inRow pl j p then val j (p - Spec.rowStart pl j) k c else get s p k c) :
    ∀ j i k c, 1 ≤ j → j ≤ nlat → 1 ≤ i → i ≤ pl j → 1 ≤ k → k ≤ nt →
      get (parLoop E 1 nlat s f) (Spec.rowStart pl j + i) k c = val j i k c := by
  intro j i k c h1 h2 h3 h4 h5 h6
  have key := (parLoop_own hE (lo := 1) (hi := nlat) (s := s) (f := f) (P := ℕ × ℕ × ι) (V := ℝ) (get := fun s p => get s p.1 p.2.1 p.2.2)
    (own := fun j p => (1 ≤ p.2.1 ∧ p.2.1 ≤ nt) ∧ inRow pl j p.1) (upd := fun j p _ => val j (p.1 - Spec.rowStart pl j) p.2.1 p.2.2)
    (by
      intro j hj1 hj2 s p
      refine ⟨fun h => ?_, fun h => ?_⟩
      · rw [hf j hj1 hj2, if_pos h]
      · rw [hf j hj1 hj2, if_neg h])
    (by intro j j' p a1 _ a2 _ h h'; exact inRow_unique a1 a2 h.2 h'.2)).1 j (Spec.rowStart pl j + i, k, c) h1 h2
      ⟨⟨h5, h6⟩, by unfold inRow; dsimp only; omega⟩
  dsimp only at key
  rw [key]; congr 1; omega

/-- Path over pairs of rows, then the centre row. -/
theorem rows_pairs {σ ι : Type*} {E : Env} (hE : E.ok) {nlat nt : ℕ} {pl : ℕ → ℕ} (get : σ → ℕ → ℕ → ι → ℝ) (val : ℕ → ℕ → ℕ → ι → ℝ)
    (f : ℕ → σ → σ) (s : σ)
    (hf : ∀ j, 1 ≤ j → j ≤ nlat / 2 → ∀ s p k c, get (f j s) p k c =
      if (1 ≤ k ∧ k ≤ nt) ∧ inRow pl j p then val j (p - Spec.rowStart pl j) k c
      else if (1 ≤ k ∧ k ≤ nt) ∧ inRow pl (nlat - j + 1) p then val (nlat - j + 1) (p - Spec.rowStart pl (nlat - j + 1)) k c
      else get s p k c) :
    (∀ j i k c, 1 ≤ j → j ≤ nlat → ¬ (2 * j = nlat + 1) → 1 ≤ i → i ≤ pl j → 1 ≤ k → k ≤ nt →
      get (parLoop E 1 (nlat / 2) s f) (Spec.rowStart pl j + i) k c = val j i k c) := by
  intro j i k c h1 h2 hne h3 h4 h5 h6
  have key := (parLoop_own hE (lo := 1) (hi := nlat / 2) (s := s) (f := f) (P := ℕ × ℕ × ι) (V := ℝ)
    (get := fun s p => get s p.1 p.2.1 p.2.2)
    (own := fun j p => (1 ≤ p.2.1 ∧ p.2.1 ≤ nt) ∧ (inRow pl j p.1 ∨ inRow pl (nlat - j + 1) p.1))
    (upd := fun j p _ => if inRow pl j p.1 then val j (p.1 - Spec.rowStart pl j) p.2.1 p.2.2
      else val (nlat - j + 1) (p.1 - Spec.rowStart pl (nlat - j + 1)) p.2.1 p.2.2)
    (by
      intro j hj1 hj2 s p
      refine ⟨fun h => ?_, fun h => ?_⟩
      · rw [hf j hj1 hj2]
        by_cases hn : inRow pl j p.1
        · rw [if_pos ⟨h.1, hn⟩, if_pos hn]
        · have hs := h.2.resolve_left hn
          rw [if_neg (fun e => hn e.2), if_neg hn, if_pos ⟨h.1, hs⟩]
      · rw [hf j hj1 hj2, if_neg (fun e => h ⟨e.1, Or.inl e.2⟩), if_neg (fun e => h ⟨e.1, Or.inr e.2⟩)])
    (by
      intro j j' p a1 b1 a2 b2 h h'
      rcases h.2 with h | h <;> rcases h'.2 with h' | h'
      · exact inRow_unique a1 a2 h h'
      · have := inRow_unique a1 (by omega) h h'; omega
      · have := inRow_unique (by omega) a2 h h'; omega
      · have := inRow_unique (by omega) (by omega) h h'; omega)).1
  have hin : inRow pl j (Spec.rowStart pl j + i) := by unfold inRow; omega
  by_cases hj : j ≤ nlat / 2
  · have k1 := key j (Spec.rowStart pl j + i, k, c) h1 hj ⟨⟨h5, h6⟩, Or.inl hin⟩
    dsimp only at k1
    rw [k1, if_pos hin]; congr 1; omega
  · have e : nlat - (nlat - j + 1) + 1 = j := by omega
    have hj1 : 1 ≤ nlat - j + 1 := by omega
    have hj2 : nlat - j + 1 ≤ nlat / 2 := by omega
    have k1 := key (nlat - j + 1) (Spec.rowStart pl j + i, k, c) hj1 hj2 ⟨⟨h5, h6⟩, Or.inr (by rw [e]; exact hin)⟩
    dsimp only at k1
    rw [e] at k1
    rw [k1, if_neg fun h => by have := inRow_unique hj1 h1 h hin; omega]; congr 1; omega

/-- The grid after the pairs and the centre row (when there is one). -/
theorem rows_symmetric {σ ι : Type*} {E : Env} (hE : E.ok) {nlat nt : ℕ} {pl : ℕ → ℕ} (get : σ → ℕ → ℕ → ι → ℝ) (val : ℕ → ℕ → ℕ → ι → ℝ)
    (f g : ℕ → σ → σ) (s : σ)
    (hf : ∀ j, 1 ≤ j → j ≤ nlat / 2 → ∀ s p k c, get (f j s) p k c =
      if (1 ≤ k ∧ k ≤ nt) ∧ inRow pl j p then val j (p - Spec.rowStart pl j) k c
      else if (1 ≤ k ∧ k ≤ nt) ∧ inRow pl (nlat - j + 1) p then val (nlat - j + 1) (p - Spec.rowStart pl (nlat - j + 1)) k c
      else get s p k c)
    (hg : ∀ s p k c, get (g ((nlat + 1) / 2) s) p k c =
      if (1 ≤ k ∧ k ≤ nt) ∧ inRow pl ((nlat + 1) / 2) p then val ((nlat + 1) / 2) (p - Spec.rowStart pl ((nlat + 1) / 2)) k c else get s p k c) :
    ∀ j i k c, 1 ≤ j → j ≤ nlat → 1 ≤ i → i ≤ pl j → 1 ≤ k → k ≤ nt →
      get (if (nlat + 1) / 2 > nlat / 2 then parLoop E ((nlat + 1) / 2) ((nlat + 1) / 2) (parLoop E 1 (nlat / 2) s f) g
        else parLoop E 1 (nlat / 2) s f) (Spec.rowStart pl j + i) k c = val j i k c := by
  intro j i k c h1 h2 h3 h4 h5 h6
  have hpairs := rows_pairs hE get val f s hf j i k c h1 h2
  by_cases hodd : (nlat + 1) / 2 > nlat / 2
  · rw [if_pos hodd]
    have hord : ∀ t : σ, parLoop E ((nlat + 1) / 2) ((nlat + 1) / 2) t g = g ((nlat + 1) / 2) t := by
      intro t
      unfold parLoop
      rw [show (nlat + 1) / 2 + 1 - (nlat + 1) / 2 = 1 by omega]
      have : E.order (List.range' ((nlat + 1) / 2) 1) = [(nlat + 1) / 2] := List.perm_singleton.mp (hE _)
      rw [this]; rfl
    rw [hord, hg]
    by_cases e : 2 * j = nlat + 1
    · have ej : (nlat + 1) / 2 = j := by omega
      rw [ej, if_pos ⟨⟨h5, h6⟩, by unfold inRow; omega⟩]; congr 1; omega
    · rw [if_neg, hpairs e h3 h4 h5 h6]
      rintro ⟨-, h⟩
      have := inRow_unique (by omega) h1 h (show inRow pl j (Spec.rowStart pl j + i) by unfold inRow; omega)
      omega
  · rw [if_neg hodd]; exact hpairs (by omega) h3 h4 h5 h6

/-- Rows of a pair do not overlap. -/
theorem pair_sep {pl : ℕ → ℕ} {nlat j : ℕ} (h1 : 1 ≤ j) (h2 : j ≤ nlat / 2) : Spec.rowStart pl j + pl j ≤ Spec.rowStart pl (nlat - j + 1) := by
  rw [← rowStart_succ pl h1]; exact rowStart_mono pl (by omega)

/-- **The synthesis.** -/
theorem spectogrd_eq {E : Env} (hE : E.ok) {c : Option FftCache} (hc : CacheGood c) (spec : ℕ → ℕ → ℂ) {pl : ℕ → ℕ}
    {basis : ℕ → ℕ → ℝ} {ngptot nlat T nt : ℕ} (h3 : 3 ≤ nlat) (hT : T ≤ nlat - 1) (hnt : 1 ≤ nt)
    (hpl : ∀ j, 1 ≤ j → j ≤ nlat → 1 ≤ pl j) (htot : Spec.rowStart pl (nlat + 1) = ngptot)
    (hpar : ∀ j, 1 ≤ j → j ≤ nlat / 2 → mirror T 1 (basis j) (basis (nlat - j + 1))) :
    ∃ out c', spectogrd E c spec pl basis (nmDim T) nlat T nt ngptot = .ok (out, c') ∧ CacheGood (some c') ∧
      ∀ j i k, 1 ≤ j → j ≤ nlat → 1 ≤ i → i ≤ pl j → 1 ≤ k → k ≤ nt → out (Spec.rowStart pl j + i) k =
        fourSeries (pl j) T (cosC T (fun nm => spec nm k) (basis j)) (sinC T (fun nm => spec nm k) (basis j)) (lam (pl j) i) := by
  obtain ⟨offs, hs, ho⟩ := scanRows_ok (nlat := nlat) (pl := pl) (good := fun _ => true) fun j h1 h2 => ⟨hpl j h1 h2, rfl⟩
  obtain ⟨hplan, hcache⟩ := prepare_plan hc nlat pl
  unfold spectogrd
  rw [if_neg (by omega), if_neg (by omega), if_neg (by simp), if_neg (by omega), hs]
  dsimp only
  rw [if_neg (by simpa using htot)]
  refine ⟨_, _, rfl, hcache, ?_⟩
  have hrow : ∀ j, 1 ≤ j → j ≤ nlat → ∀ (s : ℕ → ℕ → ℝ) p k (_ : Unit),
      synRow E ((prepare c nlat pl).plan j) (pl j) (offs j) T nt spec (basis j) (E.junk j) s p k =
      if (1 ≤ k ∧ k ≤ nt) ∧ inRow pl j p then fourSeries (pl j) T (cosC T (fun nm => spec nm k) (basis j))
        (sinC T (fun nm => spec nm k) (basis j)) (lam (pl j) (p - Spec.rowStart pl j)) else s p k := by
    intro j h1 h2 s p k _
    rw [synRow_eq (hplan j h1 h2), ho j h1 (by omega)]; rfl
  intro j i k h1 h2 h4 h5 h6 h7
  by_cases hsym : symmetricPl nlat pl = true
  · rw [if_pos hsym]
    have hsym' := symmetricPl_iff.mp hsym
    refine rows_symmetric (ι := Unit) hE (fun (s : ℕ → ℕ → ℝ) p k _ => s p k) (fun j i k _ => fourSeries (pl j) T (cosC T (fun nm => spec nm k) (basis j))
      (sinC T (fun nm => spec nm k) (basis j)) (lam (pl j) i)) _ _ _ ?_ ?_ j i k () h1 h2 h4 h5 h6 h7
    · intro j hj1 hj2 s p k _
      rw [synPair_eq (hplan j hj1 (by omega)) (by rw [ho j hj1 (by omega), ho _ (by omega) (by omega)]; exact pair_sep hj1 hj2)
        spec (hpar j hj1 hj2), ho j hj1 (by omega), ho _ (by omega) (by omega)]
      have e : pl (nlat - j + 1) = pl j := (hsym' j hj1 hj2).symm
      have e2 : inRow pl (nlat - j + 1) p ↔ Spec.rowStart pl (nlat - j + 1) < p ∧ p ≤ Spec.rowStart pl (nlat - j + 1) + pl j := by
        unfold inRow; rw [e]
      simp only [e2, e]; rfl
    · intro s p k u; exact hrow _ (by omega) (by omega) s p k u
  · rw [if_neg hsym]
    exact rows_direct (ι := Unit) hE (fun (s : ℕ → ℕ → ℝ) p k _ => s p k) (fun j i k _ => fourSeries (pl j) T (cosC T (fun nm => spec nm k) (basis j))
      (sinC T (fun nm => spec nm k) (basis j)) (lam (pl j) i)) _ _ (fun j h1 h2 s p k u => hrow j h1 h2 s p k u) j i k () h1 h2 h4 h5 h6 h7

end Skyborn.RedGauss
