import Verif.Regrid.LonProps

namespace Skyborn.Regrid

open Skyborn

variable {K : Type} [Field K] [LinearOrder K]

/-- What the row scan guarantees: a range inside the row outside which no weight is positive. -/
def RowRange (nsrc : ℕ) (row : ℕ → K) (a b : ℕ) : Prop :=
  a ≤ b ∧ b ≤ nsrc ∧ ∀ s, s < nsrc → ¬ (a ≤ s ∧ s < b) → ¬ row s > 0

theorem scanRows_spec (ntgt nsrc : ℕ) (w : ℕ → K) (start stop : ℕ → ℕ) :
    ∃ a b, scanRows ntgt nsrc w start stop = some (a, b) ∧
      ∀ t, t < ntgt → RowRange nsrc (fun s => w (t * nsrc + s)) (a t) (b t) := by
  obtain ⟨⟨a, b⟩, e, h⟩ := forM_inv (Nat.zero_le ntgt) (s := (start, stop)) (f := fun itgt (st : (ℕ → ℕ) × (ℕ → ℕ)) => do
      let r ← forM 0 nsrc (nsrc, 0) fun isrc (r : ℕ × ℕ) => do
        let x ← rd0 (ntgt * nsrc) w (itgt * nsrc + isrc)
        if x > 0 then return (if r.1 = nsrc then isrc else r.1, isrc + 1) else return r
      let r := if r.1 = nsrc then (0, nsrc) else r
      let a ← wr0 ntgt st.1 itgt r.1
      let b ← wr0 ntgt st.2 itgt r.2
      return (a, b))
    (fun r st => ∀ t, t < r → RowRange nsrc (fun s => w (t * nsrc + s)) (st.1 t) (st.2 t))
    (by intro t ht; omega)
    (by
      rintro r ⟨a, b⟩ - hr h
      obtain ⟨⟨p, q⟩, ei, hi⟩ := forM_inv (Nat.zero_le nsrc) (s := ((nsrc, 0) : ℕ × ℕ)) (f := fun isrc (r' : ℕ × ℕ) => do
          let x ← rd0 (ntgt * nsrc) w (r * nsrc + isrc)
          if x > 0 then return (if r'.1 = nsrc then isrc else r'.1, isrc + 1) else return r')
        (fun k (r' : ℕ × ℕ) => (r'.1 = nsrc ∧ ∀ s, s < k → ¬ w (r * nsrc + s) > 0) ∨
          (r'.1 < r'.2 ∧ r'.2 ≤ k ∧ ∀ s, s < k → ¬ (r'.1 ≤ s ∧ s < r'.2) → ¬ w (r * nsrc + s) > 0))
        (Or.inl ⟨rfl, by intro s hs; omega⟩)
        (by
          rintro k ⟨p, q⟩ - hk hpq
          simp only [rd0_ok (flat_lt hr hk), Option.bind_eq_bind, Option.bind_some]
          by_cases hx : w (r * nsrc + k) > 0
          · rw [if_pos hx]
            refine ⟨_, rfl, Or.inr ?_⟩
            dsimp only at hpq ⊢
            rcases hpq with ⟨h1, h2⟩ | ⟨h1, h2, h3⟩
            · rw [if_pos h1]
              refine ⟨by omega, by omega, fun s hs hn => h2 s (by omega)⟩
            · rw [if_neg (by omega)]
              refine ⟨by omega, by omega, fun s hs hn => h3 s (by omega) (by omega)⟩
          · rw [if_neg hx]
            refine ⟨_, rfl, ?_⟩
            dsimp only at hpq ⊢
            rcases hpq with ⟨h1, h2⟩ | ⟨h1, h2, h3⟩
            · refine Or.inl ⟨h1, fun s hs => ?_⟩
              rcases Nat.lt_succ_iff_lt_or_eq.mp hs with h5 | h5
              · exact h2 s h5
              · subst h5; exact hx
            · refine Or.inr ⟨h1, by omega, fun s hs hn => ?_⟩
              rcases Nat.lt_succ_iff_lt_or_eq.mp hs with h5 | h5
              · exact h3 s h5 hn
              · subst h5; exact hx)
      refine ⟨_, by
        beta_reduce
        rw [ei]
        simp only [Option.bind_eq_bind, Option.bind_some, wr0_ok hr]
        rfl, ?_⟩
      intro t ht
      rcases Nat.lt_succ_iff_lt_or_eq.mp ht with h5 | h5
      · simp only [Function.update_of_ne (show t ≠ r by omega)]
        exact h t h5
      · subst h5
        simp only [Function.update_self]
        dsimp only at hi
        by_cases hp : p = nsrc
        · rw [if_pos hp]
          exact ⟨Nat.zero_le _, le_rfl, fun s hs hn => absurd ⟨Nat.zero_le _, hs⟩ hn⟩
        · rw [if_neg hp]
          rcases hi with ⟨h1, -⟩ | ⟨h1, h2, h3⟩
          · exact absurd h1 hp
          · exact ⟨h1.le, h2, h3⟩)
  exact ⟨a, b, e, h⟩

variable [IsStrictOrderedRing K]

/-- Restricting a weighted sum to the scanned range changes nothing when the weights are non-negative. -/
theorem sum_rowRange {nsrc : ℕ} {row : ℕ → K} {a b : ℕ} (h : RowRange nsrc row a b) (hnn : ∀ s, s < nsrc → 0 ≤ row s) (v : ℕ → K) :
    ∑ s ∈ Finset.Ico a b, row s * v s = ∑ s ∈ Finset.range nsrc, row s * v s := by
  apply Finset.sum_subset
  · intro s hs
    rw [Finset.mem_Ico] at hs
    rw [Finset.mem_range]
    have := h.2.1
    omega
  · intro s hs hn
    rw [Finset.mem_range] at hs
    rw [Finset.mem_Ico] at hn
    have : row s = 0 := le_antisymm (not_lt.mp (h.2.2 s hs hn)) (hnn s hs)
    rw [this, zero_mul]

/-- 1 for a present value, 0 for a missing one. -/
def present {α : Type} (o : Option α) : K := if o.isSome then 1 else 0

theorem reduceLat_spec {size off nsl nsa nta : ℕ} {field : ℕ → Option K} {latW : ℕ → K} {la lb : ℕ → ℕ}
    (hsize : off + nsl * nsa ≤ size) (hnn : ∀ t s, t < nta → s < nsa → 0 ≤ latW (t * nsa + s))
    (hr : ∀ t, t < nta → RowRange nsa (fun s => latW (t * nsa + s)) (la t) (lb t)) (tmp : (ℕ → K) × (ℕ → K)) :
    ∃ t c, reduceLat size off nsl nsa nta field latW la lb tmp = some (t, c) ∧ ∀ i j, i < nsl → j < nta →
      t (i * nta + j) = ∑ d ∈ Finset.range nsa, latW (j * nsa + d) * (field (off + (i * nsa + d))).getD 0 ∧
      c (i * nta + j) = ∑ d ∈ Finset.range nsa, latW (j * nsa + d) * present (field (off + (i * nsa + d))) := by
  obtain ⟨T, hT⟩ : ∃ T : ℕ → ℕ → K, T = fun i j => ∑ d ∈ Finset.range nsa, latW (j * nsa + d) * (field (off + (i * nsa + d))).getD 0 :=
    ⟨_, rfl⟩
  obtain ⟨C, hC⟩ : ∃ C : ℕ → ℕ → K, C = fun i j => ∑ d ∈ Finset.range nsa, latW (j * nsa + d) * present (field (off + (i * nsa + d))) :=
    ⟨_, rfl⟩
  have inner : ∀ i j, i < nsl → j < nta → (forM (la j) (lb j) ((0 : K), (0 : K)) fun isa (r : K × K) => do
      let value ← rd0 size field (off + (i * nsa + isa))
      let weight ← rd0 (nta * nsa) latW (j * nsa + isa)
      match value with
      | some v => return (r.1 + weight * v, r.2 + weight)
      | none => return r) = some (T i j, C i j) := by
    intro i j hi hj
    obtain ⟨h1, h2, h3⟩ := hr j hj
    have := forM_sum (M := K × K) h1 (0, 0) (f := fun isa (r : K × K) => do
      let value ← rd0 size field (off + (i * nsa + isa))
      let weight ← rd0 (nta * nsa) latW (j * nsa + isa)
      match value with
      | some v => return (r.1 + weight * v, r.2 + weight)
      | none => return r)
      (fun d => (latW (j * nsa + d) * (field (off + (i * nsa + d))).getD 0, latW (j * nsa + d) * present (field (off + (i * nsa + d)))))
      (by
        intro d hd1 hd2 r
        have hd : d < nsa := by omega
        have := flat_lt hi hd
        simp only [rd0_ok (show off + (i * nsa + d) < size by omega), rd0_ok (flat_lt hj hd), Option.bind_eq_bind, Option.bind_some]
        cases hv : field (off + (i * nsa + d)) with
        | none => simp [present]
        | some v => simp [present, Prod.add_def])
    rw [this]
    congr 1
    rw [hT, hC]
    beta_reduce
    rw [← sum_rowRange (hr j hj) (fun s hs => hnn j s hj hs) fun d => (field (off + (i * nsa + d))).getD 0,
      ← sum_rowRange (hr j hj) (fun s hs => hnn j s hj hs) fun d => present (field (off + (i * nsa + d)))]
    ext
    · simp [Prod.fst_sum]
    · simp [Prod.snd_sum]
  obtain ⟨⟨t, c⟩, e, h⟩ := forM_inv (Nat.zero_le nsl) (s := tmp) (f := fun isl tmp => forM 0 nta tmp fun ita (tmp : (ℕ → K) × (ℕ → K)) => do
      let b ← rd0 nta la ita
      let e ← rd0 nta lb ita
      let r ← forM b e ((0 : K), (0 : K)) fun isa (r : K × K) => do
        let value ← rd0 size field (off + (isl * nsa + isa))
        let weight ← rd0 (nta * nsa) latW (ita * nsa + isa)
        match value with
        | some v => return (r.1 + weight * v, r.2 + weight)
        | none => return r
      let t ← wr0 (nsl * nta) tmp.1 (isl * nta + ita) r.1
      let c ← wr0 (nsl * nta) tmp.2 (isl * nta + ita) r.2
      return (t, c))
    (fun r st => ∀ i j, i < r → j < nta → st.1 (i * nta + j) = T i j ∧ st.2 (i * nta + j) = C i j)
    (by intro i j h; omega)
    (by
      rintro r st - hr' h
      obtain ⟨st', e', h'⟩ := forM_inv (Nat.zero_le nta) (s := st) (f := fun ita (tmp : (ℕ → K) × (ℕ → K)) => do
          let b ← rd0 nta la ita
          let e ← rd0 nta lb ita
          let r' ← forM b e ((0 : K), (0 : K)) fun isa (r' : K × K) => do
            let value ← rd0 size field (off + (r * nsa + isa))
            let weight ← rd0 (nta * nsa) latW (ita * nsa + isa)
            match value with
            | some v => return (r'.1 + weight * v, r'.2 + weight)
            | none => return r'
          let t ← wr0 (nsl * nta) tmp.1 (r * nta + ita) r'.1
          let c ← wr0 (nsl * nta) tmp.2 (r * nta + ita) r'.2
          return (t, c))
        (fun q s => (∀ i j, i < r → j < nta → s.1 (i * nta + j) = T i j ∧ s.2 (i * nta + j) = C i j) ∧
          ∀ j, j < q → s.1 (r * nta + j) = T r j ∧ s.2 (r * nta + j) = C r j)
        ⟨h, by intro j hj; omega⟩
        (by
          rintro q s - hq ⟨g1, g2⟩
          refine ⟨_, by
            beta_reduce
            rw [rd0_ok hq, rd0_ok hq]
            simp only [Option.bind_eq_bind, Option.bind_some]
            have := inner r q hr' hq
            simp only [Option.bind_eq_bind] at this
            rw [this]
            simp only [Option.bind_some, wr0_ok (flat_lt hr' hq)]
            rfl, ?_, ?_⟩
          · intro i j hi hj
            have : i * nta + j ≠ r * nta + q := fun e => by have := flat_inj hj hq e; omega
            simp only [Function.update_of_ne this]
            exact g1 i j hi hj
          · intro j hj
            rcases Nat.lt_succ_iff_lt_or_eq.mp hj with h5 | h5
            · simp only [Function.update_of_ne (show r * nta + j ≠ r * nta + q by omega)]
              exact g2 j h5
            · subst h5; simp)
      refine ⟨st', e', ?_⟩
      intro i j hi hj
      rcases Nat.lt_succ_iff_lt_or_eq.mp hi with h5 | h5
      · exact h'.1 i j h5 hj
      · subst h5; exact h'.2 j hj)
  refine ⟨t, c, e, fun i j hi hj => ?_⟩
  have := h i j hi hj
  rw [hT, hC] at this
  exact this

theorem reduceLon_spec {size off nsl ntl nta : ℕ} {lonW : ℕ → K} {la lb : ℕ → ℕ}
    (hsize : off + ntl * nta ≤ size) (hnn : ∀ t s, t < ntl → s < nsl → 0 ≤ lonW (t * nsl + s))
    (hr : ∀ t, t < ntl → RowRange nsl (fun s => lonW (t * nsl + s)) (la t) (lb t)) (tmp : (ℕ → K) × (ℕ → K)) (out : ℕ → Option K) :
    ∃ out', reduceLon size off nsl ntl nta lonW la lb tmp out = some out' ∧ (∀ i j, i < ntl → j < nta →
      out' (off + (i * nta + j)) =
        if (∑ c ∈ Finset.range nsl, lonW (i * nsl + c) * tmp.2 (c * nta + j)) > 0 then
          some ((∑ c ∈ Finset.range nsl, lonW (i * nsl + c) * tmp.1 (c * nta + j)) /
            ∑ c ∈ Finset.range nsl, lonW (i * nsl + c) * tmp.2 (c * nta + j))
        else none) ∧
      ∀ p, (∀ i j, i < ntl → j < nta → off + (i * nta + j) ≠ p) → out' p = out p := by
  have inner : ∀ i j, i < ntl → j < nta → (forM (la i) (lb i) ((0 : K), (0 : K)) fun isl (r : K × K) => do
        let weight ← rd0 (ntl * nsl) lonW (i * nsl + isl)
        let t ← rd0 (nsl * nta) tmp.1 (isl * nta + j)
        let c ← rd0 (nsl * nta) tmp.2 (isl * nta + j)
        return (r.1 + weight * t, r.2 + weight * c)) =
      some (∑ c ∈ Finset.range nsl, lonW (i * nsl + c) * tmp.1 (c * nta + j), ∑ c ∈ Finset.range nsl, lonW (i * nsl + c) * tmp.2 (c * nta + j)) := by
    intro i j hi hj
    obtain ⟨h1, h2, h3⟩ := hr i hi
    have := forM_sum (M := K × K) h1 (0, 0) (f := fun isl (r : K × K) => do
        let weight ← rd0 (ntl * nsl) lonW (i * nsl + isl)
        let t ← rd0 (nsl * nta) tmp.1 (isl * nta + j)
        let c ← rd0 (nsl * nta) tmp.2 (isl * nta + j)
        return (r.1 + weight * t, r.2 + weight * c))
      (fun c => (lonW (i * nsl + c) * tmp.1 (c * nta + j), lonW (i * nsl + c) * tmp.2 (c * nta + j)))
      (by
        intro d hd1 hd2 r
        have hd : d < nsl := by omega
        simp only [rd0_ok (flat_lt hi hd), rd0_ok (flat_lt hd hj), Option.bind_eq_bind, Option.bind_some]
        rfl)
    rw [this]
    congr 1
    rw [← sum_rowRange (hr i hi) (fun s hs => hnn i s hi hs) fun c => tmp.1 (c * nta + j),
      ← sum_rowRange (hr i hi) (fun s hs => hnn i s hi hs) fun c => tmp.2 (c * nta + j)]
    ext
    · simp [Prod.fst_sum]
    · simp [Prod.snd_sum]
  unfold reduceLon
  have flat : ∀ i, i < ntl → ∀ out : ℕ → Option K, (do
      let b ← rd0 ntl la i
      let e ← rd0 ntl lb i
      forM 0 nta out fun ita out => do
        let r ← forM b e ((0 : K), (0 : K)) fun isl (r : K × K) => do
          let weight ← rd0 (ntl * nsl) lonW (i * nsl + isl)
          let t ← rd0 (nsl * nta) tmp.1 (isl * nta + ita)
          let c ← rd0 (nsl * nta) tmp.2 (isl * nta + ita)
          return (r.1 + weight * t, r.2 + weight * c)
        wr0 size out (off + (i * nta + ita)) (if r.2 > 0 then some (r.1 / r.2) else none)) =
      (forM 0 nta out fun ita out => (do
        let r ← forM (la i) (lb i) ((0 : K), (0 : K)) fun isl (r : K × K) => do
          let weight ← rd0 (ntl * nsl) lonW (i * nsl + isl)
          let t ← rd0 (nsl * nta) tmp.1 (isl * nta + ita)
          let c ← rd0 (nsl * nta) tmp.2 (isl * nta + ita)
          return (r.1 + weight * t, r.2 + weight * c)
        wr0 size out (off + (i * nta + ita)) (if r.2 > 0 then some (r.1 / r.2) else none))) := by
    intro i hi out
    rw [rd0_ok hi, rd0_ok hi]
    rfl
  rw [forM_congr (fun i _ hi out => flat i hi out)]
  apply forM2_write
  intro i j hi hj b _
  rw [inner i j hi hj]
  have := flat_lt hi hj
  simp only [Option.bind_eq_bind, Option.bind_some]
  rw [wr0_ok (by omega)]

end Skyborn.Regrid
