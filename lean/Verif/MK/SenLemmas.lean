import Verif.MK.MedianLemmas

namespace Skyborn.MK

open Skyborn Finset Spec

variable {K : Type} [Field K] [LinearOrder K]

theorem band_step {n lag : ℕ} (h1 : 1 ≤ lag) (h2 : lag < n) :
    lag * (2 * n - (lag + 1)) / 2 = (lag - 1) * (2 * n - lag) / 2 + (n - lag) := by
  obtain ⟨k, rfl⟩ : ∃ k, lag = k + 1 := ⟨lag - 1, by omega⟩
  obtain ⟨d, rfl⟩ : ∃ d, n = k + 1 + d := ⟨n - k - 1, by omega⟩
  rw [show 2 * (k + 1 + d) - (k + 1 + 1) = k + 2 * d by omega, show 2 * (k + 1 + d) - (k + 1) = k + 1 + 2 * d by omega,
    show k + 1 + d - (k + 1) = d by omega, show k + 1 - 1 = k by omega]
  rw [show (k + 1) * (k + 2 * d) = k * (k + 1 + 2 * d) + d * 2 by ring]
  rw [Nat.add_mul_div_right _ _ (by omega)]

theorem band_le {n lag : ℕ} (h2 : lag ≤ n) : (lag - 1) * (2 * n - lag) / 2 ≤ n * (n - 1) / 2 := by
  apply Nat.div_le_div_right
  rcases Nat.eq_zero_or_pos lag with rfl | h1
  · simp
  obtain ⟨k, rfl⟩ : ∃ k, lag = k + 1 := ⟨lag - 1, by omega⟩
  obtain ⟨d, rfl⟩ : ∃ d, n = k + 1 + d := ⟨n - k - 1, by omega⟩
  rw [show 2 * (k + 1 + d) - (k + 1) = k + 1 + 2 * d by omega, show k + 1 + d - 1 = k + d by omega, show k + 1 - 1 = k by omega]
  nlinarith [Nat.zero_le (d*d), Nat.zero_le d]

theorem band_next_le {n lag : ℕ} (h1 : 1 ≤ lag) (h2 : lag < n) :
    (lag - 1) * (2 * n - lag) / 2 + (n - lag) ≤ n * (n - 1) / 2 := by
  rw [← band_step h1 h2]
  have := band_le (n := n) (lag := lag + 1) (by omega)
  simpa using this

theorem coe_append_singleton {β : Type} (l : List β) (v : β) :
    ((l ++ [v] : List β) : Multiset β) = (l : Multiset β) + {v} := by
  rw [← Multiset.coe_add]; rfl

theorem sum_Icc_succ_last {M : Type*} [AddCommMonoid M] (f : ℕ → M) {i : ℕ} (h : 1 ≤ i) :
    ∑ k ∈ Icc 1 i, f k = ∑ k ∈ Icc 1 (i - 1), f k + f i := by
  obtain ⟨j, rfl⟩ : ∃ j, i = j + 1 := ⟨i - 1, by omega⟩
  rw [Nat.add_sub_cancel, Finset.sum_Icc_succ_top (by omega)]

/-- slope of the pair `(i, i+lag)` as computed by the kernels -/
def kslope (y : ℕ → K) (i lag : ℕ) : K := (y (i + lag) - y i) * invLag lag

theorem map_pairs_eq_sum {β : Type} (n : ℕ) (f : ℕ × ℕ → β) :
    (pairs n).val.map f = ∑ p ∈ pairs n, ({f p} : Multiset β) := by
  rw [Finset.sum]
  have e : (fun p => ({f p} : Multiset β)) = (fun x => ({x} : Multiset β)) ∘ f := rfl
  rw [e, ← Multiset.map_map, Multiset.sum_map_singleton]

theorem lag_slopes_eq [IsStrictOrderedRing K] (n : ℕ) (y : ℕ → K) :
    ∑ lag ∈ Icc 1 (n - 1), ∑ i ∈ Icc 1 (n - lag), ({kslope y i lag} : Multiset K) = pairSlopes n y := by
  have h := sum_lags n (fun i j => ({(y j - y i) * invLag (j - i)} : Multiset K))
  simp only [Nat.add_sub_cancel_left] at h
  unfold kslope
  rw [h, pairSlopes, map_pairs_eq_sum]
  apply Finset.sum_congr rfl
  rintro ⟨i, j⟩ hp
  rw [mem_pairs] at hp
  simp only [invLag]
  rw [Nat.cast_sub hp.2.1.le, mul_one_div]

/-- one lag band -/
theorem fill_band {σ : Type} {n lag : ℕ} (y : ℕ → K) (h1 : 1 ≤ lag) (h2 : lag < n) (st : σ)
    (work : σ → ℕ → K) (body : ℕ → σ → Option σ) (Q : ℕ → σ → Prop)
    (hbody : ∀ i s, 1 ≤ i → i ≤ n - lag → Q i s → ∃ s', body i s = some s' ∧ Q (i + 1) s' ∧
      work s' = Function.update (work s) ((lag - 1) * (2 * n - lag) / 2 + i) (kslope y i lag))
    (A : Multiset K) (hA : (bufList ((lag - 1) * (2 * n - lag) / 2) (work st) : Multiset K) = A) (hQ : Q 1 st) :
    ∃ s', doLoopM 1 (n - lag) st body = some s' ∧ Q (n - lag + 1) s' ∧
      (bufList (lag * (2 * n - (lag + 1)) / 2) (work s') : Multiset K) =
        A + ∑ i ∈ Icc 1 (n - lag), ({kslope y i lag} : Multiset K) := by
  obtain ⟨s', e, p⟩ := doLoopM_inv (lo := 1) (hi := n - lag) (by omega) (s := st) (f := body)
    (fun i s => Q i s ∧ (bufList ((lag - 1) * (2 * n - lag) / 2 + (i - 1)) (work s) : Multiset K) =
        A + ∑ k ∈ Icc 1 (i - 1), ({kslope y k lag} : Multiset K))
    ⟨hQ, by simpa using hA⟩
    (by
      intro i s i1 i2 ⟨q, hb⟩
      obtain ⟨s', e, q', w⟩ := hbody i s i1 i2 q
      refine ⟨s', e, q', ?_⟩
      rw [w, Nat.add_sub_cancel, sum_Icc_succ_last _ i1, ← add_assoc, ← hb,
        show (lag - 1) * (2 * n - lag) / 2 + i = (lag - 1) * (2 * n - lag) / 2 + (i - 1) + 1 by omega,
        bufList_update_succ, coe_append_singleton])
  refine ⟨s', e, p.1, ?_⟩
  rw [band_step h1 h2]
  simpa using p.2

/-- generic lag-band fill: whatever else the scan accumulates in its state -/
theorem fill_all [IsStrictOrderedRing K] {σ : Type} {n : ℕ} (y : ℕ → K) (hn : 1 ≤ n) (st : σ)
    (work : σ → ℕ → K) (outer : ℕ → σ → Option σ) (body : ℕ → ℕ → σ → Option σ) (Q : ℕ → ℕ → σ → Prop)
    (houter : ∀ lag s, 1 ≤ lag → lag < n → outer lag s = doLoopM 1 (n - lag) s (body lag))
    (hbody : ∀ lag i s, 1 ≤ lag → lag < n → 1 ≤ i → i ≤ n - lag → Q lag i s →
      ∃ s', body lag i s = some s' ∧ Q lag (i + 1) s' ∧
        work s' = Function.update (work s) ((lag - 1) * (2 * n - lag) / 2 + i) (kslope y i lag))
    (hnext : ∀ lag s, 1 ≤ lag → lag < n → Q lag (n - lag + 1) s → Q (lag + 1) 1 s)
    (hQ : Q 1 1 st) :
    ∃ s', doLoopM 1 (n - 1) st outer = some s' ∧ Q n 1 s' ∧
      (bufList (n * (n - 1) / 2) (work s') : Multiset K) = pairSlopes n y := by
  obtain ⟨s', e, p⟩ := doLoopM_inv (lo := 1) (hi := n - 1) (by omega) (s := st) (f := outer)
    (fun lag s => Q lag 1 s ∧ (bufList ((lag - 1) * (2 * n - lag) / 2) (work s) : Multiset K) =
        ∑ l ∈ Icc 1 (lag - 1), ∑ i ∈ Icc 1 (n - l), ({kslope y i l} : Multiset K))
    ⟨hQ, by simp [bufList]⟩
    (by
      intro lag s l1 l2 ⟨q, hb⟩
      obtain ⟨s', e, q', hb'⟩ := fill_band y l1 (by omega) s work (body lag) (Q lag)
        (fun i s i1 i2 hq => hbody lag i s l1 (by omega) i1 i2 hq) _ hb q
      refine ⟨s', by rw [houter lag s l1 (by omega), e], hnext lag s' l1 (by omega) q', ?_⟩
      rw [Nat.add_sub_cancel, hb', sum_Icc_succ_last _ l1])
  rw [Nat.sub_add_cancel hn] at p
  refine ⟨s', e, p.1, ?_⟩
  rw [← lag_slopes_eq, ← p.2]
  rw [show (n - 1) * (2 * n - n) = n * (n - 1) by rw [show 2 * n - n = n by omega, Nat.mul_comm]]

theorem senFill_ok [IsStrictOrderedRing K] {n : ℕ} (hn : 1 ≤ n) (y work : ℕ → K) :
    ∃ w, senFill n y work = some w ∧ (bufList (n * (n - 1) / 2) w : Multiset K) = pairSlopes n y := by
  unfold senFill
  obtain ⟨s, e, -, h⟩ := fill_all (σ := ℕ → K) y hn work id
    (fun lag work => do
      let factor ← rd (n - 1) (invLag (K := K)) lag
      let bandStart := 1 + (lag - 1) * (2 * n - lag) / 2
      doLoopM 1 (n - lag) work fun i work => do
        let y2 ← rd n y (i + lag)
        let y1 ← rd n y i
        wr (n * (n - 1) / 2) work (bandStart + i - 1) ((y2 - y1) * factor))
    (fun lag i work => do
        let y2 ← rd n y (i + lag)
        let y1 ← rd n y i
        wr (n * (n - 1) / 2) work (1 + (lag - 1) * (2 * n - lag) / 2 + i - 1) ((y2 - y1) * invLag lag))
    (fun _ _ _ => True)
    (by
      intro lag s l1 l2
      rw [rd_ok l1 (by omega)]
      rfl)
    (by
      intro lag i s l1 l2 i1 i2 _
      have hb := band_next_le l1 l2
      rw [rd_ok (by omega : 1 ≤ i + lag) (by omega), rd_ok i1 (by omega)]
      refine ⟨_, ?_, trivial, rfl⟩
      simp only [Option.bind_eq_bind, Option.bind_some]
      rw [wr_ok (by omega) (by omega)]
      rw [show 1 + (lag - 1) * (2 * n - lag) / 2 + i - 1 = (lag - 1) * (2 * n - lag) / 2 + i by omega]
      rfl)
    (fun _ _ _ _ _ => trivial) trivial
  exact ⟨s, e, h⟩

theorem senSlope_ok [IsStrictOrderedRing K] {n : ℕ} (hn : 2 ≤ n) (y work : ℕ → K) :
    senSlope n y work = some (some (median (pairSlopes n y))) := by
  unfold senSlope
  obtain ⟨w, e, h⟩ := senFill_ok (show 1 ≤ n by omega) y work
  have h1 : 1 ≤ n * (n - 1) / 2 := by
    have : 2 ≤ n * (n - 1) := by
      calc 2 ≤ n := hn
        _ = n * 1 := by ring
        _ ≤ n * (n - 1) := Nat.mul_le_mul_left _ (by omega)
    omega
  rw [if_neg (by omega), e]
  simp only [Option.bind_eq_bind, Option.bind_some]
  rw [medianByselect_ok _ h1, h]
  rfl

theorem count_cast (dy : K) (s : ℤ) [IsStrictOrderedRing K] :
    (((if dy > 0 then s + 1 else if dy < 0 then s - 1 else s : ℤ)) : K) = (s : K) + sgn dy := by
  have := step_sgn (0 : K) dy (s : K)
  rw [sub_zero] at this
  rw [← this]
  split_ifs <;> push_cast <;> rfl

theorem sValueAndSenSlope_ok [IsStrictOrderedRing K] {n : ℕ} (hn : 2 ≤ n) (y work : ℕ → K) :
    sValueAndSenSlope n y work = some (score n y, some (median (pairSlopes n y))) := by
  unfold sValueAndSenSlope
  rw [if_neg (by omega)]
  set sg : ℕ → ℕ → K := fun lag i => sgn (y (i + lag) - y i) with hsg
  obtain ⟨s, e, hq, h⟩ := fill_all (σ := (ℕ → K) × ℤ) (n := n) y (by omega) (work, 0) Prod.fst
    (fun lag (st : (ℕ → K) × ℤ) => do
      let factor ← rd (n - 1) (invLag (K := K)) lag
      let bandStart := 1 + (lag - 1) * (2 * n - lag) / 2
      doLoopM 1 (n - lag) st fun i (st : (ℕ → K) × ℤ) => do
        let y2 ← rd n y (i + lag)
        let y1 ← rd n y i
        let dy := y2 - y1
        let w ← wr (n * (n - 1) / 2) st.1 (bandStart + i - 1) (dy * factor)
        return (w, if dy > 0 then st.2 + 1 else if dy < 0 then st.2 - 1 else st.2))
    (fun lag i (st : (ℕ → K) × ℤ) => do
        let y2 ← rd n y (i + lag)
        let y1 ← rd n y i
        let dy := y2 - y1
        let w ← wr (n * (n - 1) / 2) st.1 (1 + (lag - 1) * (2 * n - lag) / 2 + i - 1) (dy * invLag lag)
        return (w, if dy > 0 then st.2 + 1 else if dy < 0 then st.2 - 1 else st.2))
    (fun lag i st => (st.2 : K) = ∑ l ∈ Icc 1 (lag - 1), ∑ k ∈ Icc 1 (n - l), sg l k + ∑ k ∈ Icc 1 (i - 1), sg lag k)
    (by
      intro lag s l1 l2
      rw [rd_ok l1 (by omega)]
      rfl)
    (by
      intro lag i s l1 l2 i1 i2 hq
      have hb := band_next_le l1 l2
      rw [rd_ok (by omega : 1 ≤ i + lag) (by omega), rd_ok i1 (by omega)]
      simp only [Option.bind_eq_bind, Option.bind_some]
      rw [wr_ok (by omega) (by omega)]
      refine ⟨_, rfl, ?_, ?_⟩
      · simp only
        rw [count_cast, hq, Nat.add_sub_cancel, sum_Icc_succ_last _ i1, add_assoc]
      · simp only
        rw [show 1 + (lag - 1) * (2 * n - lag) / 2 + i - 1 = (lag - 1) * (2 * n - lag) / 2 + i by omega]
        rfl)
    (by
      intro lag s l1 l2 hq
      simp only [Nat.add_sub_cancel] at hq ⊢
      rw [hq, sum_Icc_succ_last _ l1]
      simp)
    (by simp)
  have h1 : 1 ≤ n * (n - 1) / 2 := by
    have : 2 ≤ n * (n - 1) := by
      calc 2 ≤ n := hn
        _ = n * 1 := by ring
        _ ≤ n * (n - 1) := Nat.mul_le_mul_left _ (by omega)
    omega
  have hsc : (s.2 : K) = score n y := by
    rw [hq, hsg]
    simp only [le_refl, Nat.sub_self, show Icc 1 0 = (∅ : Finset ℕ) from rfl, Finset.sum_empty, add_zero]
    exact sum_lags n (fun i j => sgn (y j - y i))
  simp only [Option.bind_eq_bind] at e ⊢
  rw [e]
  simp only [Option.bind_some]
  rw [medianByselect_ok _ h1, h]
  simp [hsc]

end Skyborn.MK
