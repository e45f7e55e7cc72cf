import Verif.Spectral.Model
import Mathlib.Data.Finset.Prod

namespace Skyborn.Spectral

open Skyborn

/-- offset `nmstrt` at the start of wave `m` (1-based) -/
def start (T1 m : ℕ) : ℕ := ∑ k ∈ Finset.range (m - 1), (T1 - k)

/-- position of `(m, n)` in the packed array -/
def pos (T1 m n : ℕ) : ℕ := start T1 m + n - m + 1

theorem start_one (T1 : ℕ) : start T1 1 = 0 := by simp [start]

theorem start_succ {T1 m : ℕ} (h1 : 1 ≤ m) (h2 : m ≤ T1) : start T1 (m + 1) = start T1 m + T1 - m + 1 := by
  obtain ⟨m, rfl⟩ : ∃ k, m = k + 1 := ⟨m - 1, by omega⟩
  simp only [start, Nat.add_sub_cancel, Finset.sum_range_succ]
  omega

theorem start_two (T1 m : ℕ) (h1 : 1 ≤ m) (h2 : m ≤ T1 + 1) : 2 * start T1 m + (m - 1) * (m - 2) = 2 * (m - 1) * T1 := by
  obtain ⟨m, rfl⟩ : ∃ k, m = k + 1 := ⟨m - 1, by omega⟩
  induction m with
  | zero => simp [start]
  | succ m ih =>
    have ih := ih (by omega) (by omega)
    rw [start_succ (by omega) (by omega)]
    simp only [Nat.add_sub_cancel] at ih ⊢
    cases m with
    | zero => simp at ih ⊢; omega
    | succ k =>
      simp only [show k + 1 + 1 + 1 - 2 = k + 1 by omega, show k + 1 + 1 - 2 = k by omega] at ih ⊢
      have : start T1 (k + 1 + 1) + T1 - (k + 1 + 1) + 1 = start T1 (k + 1 + 1) + (T1 - (k + 1)) := by omega
      rw [this]
      obtain ⟨d, rfl⟩ : ∃ d, T1 = k + 1 + d := ⟨T1 - (k + 1), by omega⟩
      rw [Nat.add_sub_cancel_left]
      nlinarith

/-- number of entries of the triangle -/
theorem start_end (T1 : ℕ) : start T1 (T1 + 1) = T1 * (T1 + 1) / 2 := by
  have := start_two T1 (T1 + 1) (by omega) le_rfl
  simp only [Nat.add_sub_cancel] at this
  cases T1 with
  | zero => simp [start]
  | succ k =>
    simp only [show k + 1 + 1 - 2 = k by omega] at this
    symm
    apply Nat.div_eq_of_eq_mul_left two_pos
    nlinarith

theorem start_mono {T1 m m' : ℕ} (h : m ≤ m') : start T1 m ≤ start T1 m' := by
  unfold start
  exact Finset.sum_le_sum_of_subset (Finset.range_mono (by omega))

theorem pos_lt_next {T1 m n : ℕ} (h1 : 1 ≤ m) (h2 : m ≤ n) (h3 : n ≤ T1) : pos T1 m n ≤ start T1 (m + 1) := by
  rw [start_succ h1 (by omega)]; unfold pos; omega

theorem pos_pos (T1 m n : ℕ) (h : m ≤ n) : start T1 m < pos T1 m n := by unfold pos; omega

theorem pos_le {T1 m n : ℕ} (h1 : 1 ≤ m) (h2 : m ≤ n) (h3 : n ≤ T1) : pos T1 m n ≤ T1 * (T1 + 1) / 2 := by
  rw [← start_end]
  exact (pos_lt_next h1 h2 h3).trans (start_mono (by omega))

theorem pos_inj {T1 m n m' n' : ℕ} (h1 : 1 ≤ m) (h2 : m ≤ n) (h3 : n ≤ T1) (h1' : 1 ≤ m') (h2' : m' ≤ n') (h3' : n' ≤ T1)
    (h : pos T1 m n = pos T1 m' n') : m = m' ∧ n = n' := by
  rcases lt_trichotomy m m' with hl | rfl | hl
  · have a := pos_lt_next h1 h2 h3
    have b := start_mono (T1 := T1) (show m + 1 ≤ m' by omega)
    have c := pos_pos T1 m' n' h2'
    omega
  · unfold pos at h; omega
  · have a := pos_lt_next h1' h2' h3'
    have b := start_mono (T1 := T1) (show m' + 1 ≤ m by omega)
    have c := pos_pos T1 m n h2
    omega

theorem pos_surj {T1 k : ℕ} (h1 : 1 ≤ k) (h2 : k ≤ T1 * (T1 + 1) / 2) : ∃ m n, 1 ≤ m ∧ m ≤ n ∧ n ≤ T1 ∧ pos T1 m n = k := by
  rw [← start_end] at h2
  have key : ∀ j, k ≤ start T1 (j + 1) → j ≤ T1 → ∃ m n, 1 ≤ m ∧ m ≤ n ∧ n ≤ T1 ∧ pos T1 m n = k := by
    intro j
    induction j with
    | zero => intro h _; simp [start] at h; omega
    | succ j ih =>
      intro h hj
      by_cases hk : k ≤ start T1 (j + 1)
      · exact ih hk (by omega)
      · rw [start_succ (by omega) (by omega)] at h
        refine ⟨j + 1, k - start T1 (j + 1) + (j + 1) - 1, by omega, by omega, by omega, ?_⟩
        unfold pos; omega
  exact key T1 h2 le_rfl

/-- the index triples `(i, m, n)` visited by the loops -/
def Tri (nt T1 : ℕ) : Finset (ℕ × ℕ × ℕ) :=
  (Finset.Icc 1 nt ×ˢ Finset.Icc 1 T1 ×ˢ Finset.Icc 1 T1).filter fun t => t.2.1 ≤ t.2.2

theorem mem_Tri {nt T1 i m n : ℕ} : (i, m, n) ∈ Tri nt T1 ↔ (1 ≤ i ∧ i ≤ nt) ∧ 1 ≤ m ∧ m ≤ n ∧ n ≤ T1 := by
  simp only [Tri, Finset.mem_filter, Finset.mem_product, Finset.mem_Icc]
  constructor
  · rintro ⟨⟨h1, h2, h3⟩, h4⟩; exact ⟨h1, h2.1, h4, h3.2⟩
  · rintro ⟨h1, h2, h3, h4⟩; exact ⟨⟨h1, ⟨h2, by omega⟩, by omega, h4⟩, h3⟩

/-- Invariant rule of the shared loop nest: every triple of the triangle is visited exactly once. -/
theorem triScan_inv {σ : Type} {nt T1 : ℕ} {s : σ} {body : ℕ → ℕ → ℕ → ℕ → σ → Option σ} (Q : Finset (ℕ × ℕ × ℕ) → σ → Prop)
    (h0 : Q ∅ s)
    (hs : ∀ S s i m n, S ⊆ Tri nt T1 → (i, m, n) ∈ Tri nt T1 → (i, m, n) ∉ S → Q S s →
      ∃ s', body i m n (pos T1 m n) s = some s' ∧ Q (insert (i, m, n) S) s') :
    ∃ s', triScan nt T1 s body = some s' ∧ Q (Tri nt T1) s' := by
  set V : ℕ → ℕ → ℕ → Finset (ℕ × ℕ × ℕ) := fun i m n =>
    (Tri nt T1).filter fun t => t.1 < i ∨ (t.1 = i ∧ (t.2.1 < m ∨ (t.2.1 = m ∧ t.2.2 < n))) with hV
  have memV : ∀ i m n a b c, (a, b, c) ∈ V i m n ↔ ((1 ≤ a ∧ a ≤ nt) ∧ 1 ≤ b ∧ b ≤ c ∧ c ≤ T1) ∧
      (a < i ∨ (a = i ∧ (b < m ∨ (b = m ∧ c < n)))) := by
    intro i m n a b c; simp only [hV, Finset.mem_filter, mem_Tri]
  have extV : ∀ A B : Finset (ℕ × ℕ × ℕ), (∀ a b c, (a, b, c) ∈ A ↔ (a, b, c) ∈ B) → A = B := by
    intro A B h; ext ⟨a, b, c⟩; exact h a b c
  obtain ⟨s', e, p⟩ := doLoopM_inv (lo := 1) (hi := nt) (by omega) (s := s)
    (f := fun i s => do
      let r ← doLoopM 1 T1 (s, 0) fun m (st : σ × ℕ) => do
        let s' ← doLoopM m T1 st.1 fun n s => body i m n (st.2 + n - m + 1) s
        return (s', st.2 + T1 - m + 1)
      return r.1)
    (fun i s => Q (V i 0 0) s)
    (by rw [show V 1 0 0 = ∅ from extV _ _ fun a b c => by rw [memV]; simp; omega]; exact h0)
    (by
      intro i s hi1 hi2 hq
      obtain ⟨r, e, p⟩ := doLoopM_inv (lo := 1) (hi := T1) (by omega) (s := (s, 0))
        (f := fun m (st : σ × ℕ) => do
          let s' ← doLoopM m T1 st.1 fun n s => body i m n (st.2 + n - m + 1) s
          return (s', st.2 + T1 - m + 1))
        (fun m st => st.2 = start T1 m ∧ Q (V i m 0) st.1)
        (⟨(start_one T1).symm, by
          rw [show V i 1 0 = V i 0 0 from extV _ _ fun a b c => by rw [memV, memV]; omega]; exact hq⟩)
        (by
          rintro m ⟨s, st⟩ hm1 hm2 ⟨hst, hq⟩
          simp only at hst hq
          subst hst
          obtain ⟨s', e, p⟩ := doLoopM_inv (lo := m) (hi := T1) (by omega) (s := s)
            (f := fun n s => body i m n (start T1 m + n - m + 1) s)
            (fun n s => Q (V i m n) s)
            (by rw [show V i m m = V i m 0 from extV _ _ fun a b c => by rw [memV, memV]; omega]; exact hq)
            (by
              intro n s hn1 hn2 hq
              obtain ⟨s', e, p⟩ := hs (V i m n) s i m n (Finset.filter_subset _ _) (mem_Tri.mpr ⟨⟨hi1, hi2⟩, hm1, hn1, hn2⟩)
                (by rw [memV]; omega) hq
              refine ⟨s', e, ?_⟩
              rwa [show V i m (n + 1) = insert (i, m, n) (V i m n) from extV _ _ fun a b c => by
                rw [Finset.mem_insert, memV, memV]; simp only [Prod.mk.injEq]; omega])
          refine ⟨(s', start T1 m + T1 - m + 1), by simp only [e, Option.bind_eq_bind, Option.bind_some]; rfl, ?_, ?_⟩
          · exact (start_succ hm1 hm2).symm
          · rwa [show V i (m + 1) 0 = V i m (T1 + 1) from extV _ _ fun a b c => by rw [memV, memV]; omega])
      refine ⟨r.1, by beta_reduce; rw [e]; rfl, ?_⟩
      rw [show V (i + 1) 0 0 = V i (T1 + 1) 0 from extV _ _ fun a b c => by rw [memV, memV]; omega]
      exact p.2)
  refine ⟨s', e, ?_⟩
  rwa [show V (nt + 1) 0 0 = Tri nt T1 from extV _ _ fun a b c => by rw [memV, mem_Tri]; omega] at p

/-- buffer `s` holds `g t` at address `ad t` for the visited triples, and `init` elsewhere -/
def Filled {ι α : Type} (ad : ℕ × ℕ × ℕ → ι) (g : ℕ × ℕ × ℕ → α) (init : ι → α) (S : Finset (ℕ × ℕ × ℕ)) (s : ι → α) : Prop :=
  (∀ t ∈ S, s (ad t) = g t) ∧ ∀ x, (∀ t ∈ S, ad t ≠ x) → s x = init x

theorem Filled.empty {ι α : Type} {ad : ℕ × ℕ × ℕ → ι} {g : ℕ × ℕ × ℕ → α} {init : ι → α} : Filled ad g init ∅ init := by
  simp [Filled]

theorem Filled.insert {ι α : Type} [DecidableEq ι] {ad : ℕ × ℕ × ℕ → ι} {g : ℕ × ℕ × ℕ → α} {init : ι → α}
    {S A : Finset (ℕ × ℕ × ℕ)} {s : ι → α} (h : Filled ad g init S s) (hA : S ⊆ A) (hinj : Set.InjOn ad A) {t : ℕ × ℕ × ℕ}
    (ht : t ∈ A) (hS : t ∉ S) : Filled ad g init (insert t S) (Function.update s (ad t) (g t)) := by
  constructor
  · intro u hu
    rcases Finset.mem_insert.mp hu with rfl | hu
    · simp
    · have hne : ad u ≠ ad t := fun e => hS (hinj (hA hu) ht e ▸ hu)
      rw [Function.update_of_ne hne]; exact h.1 u hu
  · intro x hx
    have hne : x ≠ ad t := fun e => hx t (Finset.mem_insert_self _ _) e.symm
    rw [Function.update_of_ne hne]
    exact h.2 x fun u hu => hx u (Finset.mem_insert_of_mem hu)

/-- address in the packed arrays -/
def adS (T1 : ℕ) (t : ℕ × ℕ × ℕ) : ℕ × ℕ := (pos T1 t.2.1 t.2.2, t.1)
/-- address in the 2-D coefficient arrays -/
def adG (t : ℕ × ℕ × ℕ) : ℕ × ℕ × ℕ := (t.2.1, t.2.2, t.1)

theorem adS_inj (nt T1 : ℕ) : Set.InjOn (adS T1) (Tri nt T1) := by
  rintro ⟨i, m, n⟩ h ⟨i', m', n'⟩ h' e
  rw [Finset.mem_coe, mem_Tri] at h h'
  simp only [adS, Prod.mk.injEq] at e
  obtain ⟨e1, rfl⟩ := e
  obtain ⟨rfl, rfl⟩ := pos_inj h.2.1 h.2.2.1 h.2.2.2 h'.2.1 h'.2.2.1 h'.2.2.2 e1
  rfl

theorem adG_inj (nt T1 : ℕ) : Set.InjOn adG (Tri nt T1) := by
  rintro ⟨i, m, n⟩ _ ⟨i', m', n'⟩ _ e
  simp only [adG, Prod.mk.injEq] at e
  obtain ⟨rfl, rfl, rfl⟩ := e
  rfl

theorem wrA_ok {ι α : Type} [DecidableEq ι] {inb : ι → Prop} [DecidablePred inb] {a : ι → α} {i : ι} {v : α} (h : inb i) :
    wrA inb a i v = some (Function.update a i v) := by simp [wrA, h]

theorem rdA_ok {ι α : Type} {inb : ι → Prop} [DecidablePred inb] {a : ι → α} {i : ι} (h : inb i) :
    rdA inb a i = some (a i) := by simp [rdA, h]

theorem inSpec_adS {nt T1 N i m n : ℕ} (h : (i, m, n) ∈ Tri nt T1) (hN : T1 * (T1 + 1) / 2 ≤ N) :
    inSpec N nt (pos T1 m n, i) := by
  rw [mem_Tri] at h
  refine ⟨by unfold pos; omega, ?_, h.1.1, h.1.2⟩
  exact (pos_le h.2.1 h.2.2.1 h.2.2.2).trans hN

theorem inGrid_adG {nt T1 nlat i m n : ℕ} (h : (i, m, n) ∈ Tri nt T1) (hN : T1 ≤ nlat) : inGrid nlat nt (m, n, i) := by
  rw [mem_Tri] at h
  simp only [inGrid]; omega

/-! ### truncation from the number of coefficients -/

theorem sqrt_arg (N : ℕ) : (9 : ℝ) - 8 * (1 - (N : ℝ)) = 8 * N + 1 := by ring

/-- `ntruncOf N` is the largest `T ≥ -1` with `(T+1)(T+2)/2 ≤ N`; as number of waves `T1 = T + 1`. -/
theorem waves_spec (N T1 : ℕ) (h1 : T1 * (T1 + 1) / 2 ≤ N) (h2 : N < (T1 + 1) * (T1 + 2) / 2) : ntruncOf N = (T1 : ℤ) - 1 := by
  have e1 : T1 * (T1 + 1) ≤ 2 * N := by
    have : 2 ∣ T1 * (T1 + 1) := (Nat.even_mul_succ_self T1).two_dvd
    omega
  have e2 : 2 * N < (T1 + 1) * (T1 + 2) := by
    have : 2 ∣ (T1 + 1) * (T1 + 2) := (Nat.even_mul_succ_self (T1 + 1)).two_dvd
    omega
  have r1 : (T1 : ℝ) * (T1 + 1) ≤ 2 * N := by exact_mod_cast e1
  have r2 : (2 : ℝ) * N < (T1 + 1) * (T1 + 2) := by exact_mod_cast e2
  unfold ntruncOf
  rw [sqrt_arg]
  set r := Real.sqrt (8 * (N : ℝ) + 1) with hr
  have l1 : 2 * (T1 : ℝ) + 1 ≤ r := by
    rw [hr]; apply Real.le_sqrt_of_sq_le; nlinarith
  have l2 : r < 2 * (T1 : ℝ) + 3 := by
    rw [hr, Real.sqrt_lt' (by positivity)]; nlinarith
  unfold truncToInt
  by_cases h0 : T1 = 0
  · subst h0
    have hN : N = 0 := by simpa using h2
    have : r = 1 := by rw [hr, hN]; simp
    rw [this]
    norm_num
  · have : (1 : ℝ) ≤ T1 := by exact_mod_cast Nat.one_le_iff_ne_zero.mpr h0
    rw [if_pos (by norm_num; linarith)]
    rw [Int.floor_eq_iff]
    push_cast
    constructor <;> norm_num <;> linarith

theorem exists_waves (N : ℕ) : ∃ T1, T1 * (T1 + 1) / 2 ≤ N ∧ N < (T1 + 1) * (T1 + 2) / 2 := by
  have h : ∃ k, N < (k + 1) * (k + 2) / 2 := ⟨N, by
    rw [Nat.lt_iff_add_one_le, Nat.le_div_iff_mul_le two_pos]; nlinarith⟩
  classical
  refine ⟨Nat.find h, ?_, Nat.find_spec h⟩
  rcases Nat.eq_zero_or_pos (Nat.find h) with h0 | h0
  · rw [h0]; simp
  · have := Nat.find_min h (show Nat.find h - 1 < Nat.find h by omega)
    rw [show Nat.find h - 1 + 1 = Nat.find h by omega, show Nat.find h - 1 + 2 = Nat.find h + 1 by omega] at this
    omega

theorem waves_eq {N T1 : ℕ} (h1 : T1 * (T1 + 1) / 2 ≤ N) (h2 : N < (T1 + 1) * (T1 + 2) / 2) : waves N = T1 := by
  unfold waves; rw [waves_spec N T1 h1 h2]; simp

theorem waves_le (N : ℕ) : waves N * (waves N + 1) / 2 ≤ N := by
  obtain ⟨T1, h1, h2⟩ := exists_waves N
  rw [waves_eq h1 h2]; exact h1

theorem waves_specLen (T : ℕ) : waves (specLen T) = T + 1 := by
  apply waves_eq
  · rfl
  · unfold specLen
    have a : 2 ∣ (T + 1) * (T + 2) := (Nat.even_mul_succ_self (T + 1)).two_dvd
    have b : 2 ∣ (T + 1 + 1) * (T + 1 + 2) := (Nat.even_mul_succ_self (T + 2)).two_dvd
    have : (T + 1) * (T + 2) < (T + 1 + 1) * (T + 1 + 2) := by nlinarith
    omega

end Skyborn.Spectral
