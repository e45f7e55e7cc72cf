/-
The loops over degrees of the vector analyses, in any order of the terms.
-/
import Verif.RedGauss.VecModel
import Verif.RedGauss.Synthesis

namespace Skyborn.RedGauss

open Skyborn

section

variable {V : Type*} [AddCommMonoid V]

/-- What one row (or pair of rows) adds to the accumulators of order `m`. -/
def addDeg (T m : ℕ) (t : ℕ → V) (acc : ℕ → V) : ℕ → V := fun n => if m ≤ n ∧ n ≤ T then acc n + t n else acc n

theorem rowLoop_eq {T m : ℕ} (hm : m ≤ T) (term : ℕ → V) (acc : ℕ → V) :
    rowLoop T m term acc = addDeg T m (fun n => term (nmOf T m n)) acc := by
  have key := doLoop_inv (lo := m) (hi := T) (by omega) (s := (specOff m T, acc))
    (f := fun n s => (s.1 + 1, accAdd s.2 n (term (s.1 + 1))))
    (fun q s => s.1 = specOff m T + (q - m) ∧ ∀ n, s.2 n = if m ≤ n ∧ n < q then acc n + term (nmOf T m n) else acc n)
    ⟨by simp, fun n => by rw [if_neg (by omega)]⟩
    (by
      rintro q ⟨nm, a⟩ h1 h2 ⟨e1, e2⟩
      dsimp only at e1 e2 ⊢
      refine ⟨by omega, fun n => ?_⟩
      unfold accAdd
      by_cases e : n = q
      · subst e
        rw [Function.update_self, e2, if_neg (by omega), if_pos (by omega), nmOf_off hm, e1]
      · rw [Function.update_of_ne e, e2]
        by_cases hh : m ≤ n ∧ n < q
        · rw [if_pos hh, if_pos (by omega)]
        · rw [if_neg hh, if_neg (by omega)])
  funext n
  unfold rowLoop addDeg
  refine (key.2 n).trans ?_
  by_cases hh : m ≤ n ∧ n ≤ T
  · rw [if_pos (by omega), if_pos hh]
  · rw [if_neg (by omega), if_neg hh]

theorem doStep_count {σ : Type*} {m T : ℕ} (s : σ) (f : ℕ → σ → σ) :
    doStep m (T : ℤ) 2 s f = (List.range ((T + 2 - m) / 2)).foldl (fun s q => f (m + q * 2) s) s := by
  unfold doStep
  congr 2
  push_cast
  omega

theorem foldl_range_inv {σ : Type*} (f : σ → ℕ → σ) (s : σ) (P : ℕ → σ → Prop) (h0 : P 0 s) :
    ∀ K, (∀ q s, q < K → P q s → P (q + 1) (f s q)) → P K ((List.range K).foldl f s) := by
  intro K
  induction K with
  | zero => intro _; simpa using h0
  | succ K ih =>
    intro h
    rw [List.range_succ, List.foldl_append]
    exact h K _ (by omega) (ih fun q s hq => h q s (by omega))

/-- The term of degree `n`: `even` when `n - m` is even. -/
def alt (T m : ℕ) (even odd : ℕ → V) (n : ℕ) : V := if (n - m) % 2 = 0 then even (nmOf T m n) else odd (nmOf T m n)

theorem pairTwo_eq {T m : ℕ} (hm : m ≤ T) (even odd : ℕ → V) (acc : ℕ → V) :
    pairTwo T m even odd acc = addDeg T m (alt T m even odd) acc := by
  have key := foldl_range_inv (fun acc q => accAdd (accAdd acc (m + q * 2) (even (specOff m T + (m + q * 2) - m + 1))) (m + q * 2 + 1)
      (odd (specOff m T + (m + q * 2) - m + 1 + 1))) acc
    (fun q s => ∀ n, s n = if m ≤ n ∧ n < m + q * 2 then acc n + alt T m even odd n else acc n)
    (fun n => by rw [if_neg (by omega)]) ((T + 1 - m) / 2)
    (by
      intro q s hq ih n
      unfold accAdd
      by_cases e : n = m + q * 2 + 1
      · subst e
        rw [Function.update_self, Function.update_of_ne (by omega), ih, if_neg (by omega), if_pos (by omega), alt, if_neg (by omega), nmOf_off hm]
        congr 2; omega
      · rw [Function.update_of_ne e]
        by_cases e' : n = m + q * 2
        · subst e'
          rw [Function.update_self, ih, if_neg (by omega), if_pos (by omega), alt, if_pos (by omega), nmOf_off hm]
          congr 2; omega
        · rw [Function.update_of_ne e', ih]
          by_cases hh : m ≤ n ∧ n < m + q * 2
          · rw [if_pos hh, if_pos (by omega)]
          · rw [if_neg hh, if_neg (by omega)])
  funext n
  unfold pairTwo addDeg
  dsimp only
  rw [doStep_two hm]
  by_cases hp : (T - m) % 2 = 0
  · rw [if_pos hp]
    unfold accAdd at key ⊢
    by_cases e : n = T
    · subst e
      rw [Function.update_self, key, if_neg (by omega), if_pos (by omega), alt, if_pos hp, nmOf_off hm]
      congr 2; omega
    · rw [Function.update_of_ne e, key]
      by_cases hh : m ≤ n ∧ n ≤ T
      · rw [if_pos (by omega), if_pos hh]
      · rw [if_neg (by omega), if_neg hh]
  · rw [if_neg hp, key]
    by_cases hh : m ≤ n ∧ n ≤ T
    · rw [if_pos (by omega), if_pos hh]
    · rw [if_neg (by omega), if_neg hh]

theorem pairParity_eq {T m : ℕ} (hm : m ≤ T) (even odd : ℕ → V) (acc : ℕ → V) :
    pairParity T m even odd acc = addDeg T m (alt T m even odd) acc := by
  have step : ∀ (lo : ℕ) (t : ℕ → V) (acc : ℕ → V), m ≤ lo →
      ∀ n, doStep lo (T : ℤ) 2 acc (fun n acc => accAdd acc n (t (specOff m T + n - m + 1))) n =
        if lo ≤ n ∧ n ≤ T ∧ (n - lo) % 2 = 0 then acc n + t (nmOf T m n) else acc n := by
    intro lo t acc hlo
    have key := foldl_range_inv (fun acc q => accAdd acc (lo + q * 2) (t (specOff m T + (lo + q * 2) - m + 1))) acc
      (fun q s => ∀ n, s n = if lo ≤ n ∧ n < lo + q * 2 ∧ (n - lo) % 2 = 0 then acc n + t (nmOf T m n) else acc n)
      (fun n => by rw [if_neg (by omega)]) ((T + 2 - lo) / 2)
      (by
        intro q s hq ih n
        unfold accAdd
        by_cases e : n = lo + q * 2
        · subst e
          rw [Function.update_self, ih, if_neg (by omega), if_pos (by omega), nmOf_off hm]
          congr 2; omega
        · rw [Function.update_of_ne e, ih]
          by_cases hh : lo ≤ n ∧ n < lo + q * 2 ∧ (n - lo) % 2 = 0
          · rw [if_pos hh, if_pos (by omega)]
          · rw [if_neg hh, if_neg (by omega)])
    intro n
    rw [doStep_count, key]
    by_cases hh : lo ≤ n ∧ n ≤ T ∧ (n - lo) % 2 = 0
    · rw [if_pos (by omega), if_pos hh]
    · rw [if_neg (by omega), if_neg hh]
  funext n
  unfold pairParity addDeg alt
  rw [step (m + 1) odd _ (by omega), step m even _ le_rfl]
  by_cases hh : m ≤ n ∧ n ≤ T
  · rw [if_pos hh]
    by_cases hp : (n - m) % 2 = 0
    · rw [if_neg (by omega), if_pos (by omega), if_pos hp]
    · rw [if_pos (by omega), if_neg (by omega), if_neg hp]
  · rw [if_neg (by omega), if_neg (by omega), if_neg hh]

/-- Adding over several rows. -/
theorem addDeg_loop {T m lo hi : ℕ} (act : ℕ → Prop) [DecidablePred act] (t : ℕ → ℕ → V) (f : ℕ → (ℕ → V) → ℕ → V) (acc : ℕ → V)
    (hle : lo ≤ hi + 1) (hf : ∀ j, lo ≤ j → j ≤ hi → ∀ a, f j a = if act j then addDeg T m (t j) a else a) :
    doLoop lo hi acc f = addDeg T m (fun n => ∑ j ∈ (Finset.Icc lo hi).filter act, t j n) acc := by
  have key := doLoop_inv (lo := lo) (hi := hi) hle (s := acc) (f := f)
    (fun q r => r = addDeg T m (fun n => ∑ j ∈ (Finset.Ico lo q).filter act, t j n) acc)
    (by funext n; simp [addDeg])
    (by
      intro q r h1 h2 ih
      have hq : Finset.Ico lo (q + 1) = insert q (Finset.Ico lo q) := by
        ext x; simp only [Finset.mem_Ico, Finset.mem_insert]; omega
      rw [hf q h1 h2, ih, hq]
      by_cases ha : act q
      · rw [if_pos ha]
        funext n
        unfold addDeg
        by_cases hh : m ≤ n ∧ n ≤ T
        · rw [if_pos hh, if_pos hh, if_pos hh, Finset.filter_insert, if_pos ha]
          beta_reduce
          rw [Finset.sum_insert (by simp), add_assoc, add_comm (t q n)]
        · rw [if_neg hh, if_neg hh, if_neg hh]
      · rw [if_neg ha, Finset.filter_insert, if_neg ha])
  have hset : Finset.Ico lo (hi + 1) = Finset.Icc lo hi := by
    ext x; simp only [Finset.mem_Ico, Finset.mem_Icc]; omega
  rw [hset] at key
  exact key

end

theorem firstFrom_spec {pairs : ℕ} {pl : ℕ → ℕ} {twom : ℕ} (j : ℕ) (hj : j ≤ pairs + 1) :
    j ≤ firstFrom pairs pl twom j ∧ firstFrom pairs pl twom j ≤ pairs + 1 ∧
      (∀ q, j ≤ q → q < firstFrom pairs pl twom j → pl q < twom) ∧
      (firstFrom pairs pl twom j ≤ pairs → twom ≤ pl (firstFrom pairs pl twom j)) := by
  induction hd : pairs + 1 - j generalizing j with
  | zero =>
    have : firstFrom pairs pl twom j = j := by rw [firstFrom, if_neg (by omega)]
    rw [this]
    exact ⟨le_rfl, hj, fun q h1 h2 => by omega, fun h => by omega⟩
  | succ d ih =>
    by_cases h : j ≤ pairs ∧ twom > pl j
    · rw [firstFrom, if_pos h]
      obtain ⟨a, b, c, e⟩ := ih (j + 1) (by omega) (by omega)
      refine ⟨by omega, b, fun q h1 h2 => ?_, e⟩
      by_cases eq : q = j
      · subst eq; exact h.2
      · exact c q (by omega) h2
    · have : firstFrom pairs pl twom j = j := by rw [firstFrom, if_neg h]
      rw [this]
      exact ⟨le_rfl, hj, fun q h1 h2 => by omega, fun h' => by omega⟩

end Skyborn.RedGauss
