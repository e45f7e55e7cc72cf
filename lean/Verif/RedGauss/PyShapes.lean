/-
`ReducedGaussianSpharmt`: arrays in and out.
-/
import Verif.RedGauss.PyTables
import Verif.RedGauss.Round
import Verif.Sphere.SpharmtLemmas

namespace Skyborn.RedGauss

open Skyborn

/-- Points on row `j = 1, 2, …`. -/
def Spec.row (pl : List ℕ) (j : ℕ) : ℕ := pl.getD (j - 1) 0

/-- `g` is a packed field with extra dimensions `extra`: the rows one after the other, `F e j i` at row `j`, point `i`
(both from 1), position `e` of the extra dimensions. -/
def Spec.IsPacked (pl : List ℕ) (extra : List ℕ) (g : NDArr ℝ) (F : List ℕ → ℕ → ℕ → ℝ) : Prop :=
  g.shape = pl.sum :: extra ∧
  ∀ e, InB extra e → ∀ j i, 1 ≤ j → j ≤ pl.length → 1 ≤ i → i ≤ Spec.row pl j → g.get (((pl.take (j - 1)).sum + (i - 1)) :: e) = F e j i

theorem Spec.IsPacked.congr {pl extra : List ℕ} {g : NDArr ℝ} {F G : List ℕ → ℕ → ℕ → ℝ} (h : Spec.IsPacked pl extra g F)
    (hFG : ∀ e, InB extra e → ∀ j i, 1 ≤ j → j ≤ pl.length → 1 ≤ i → i ≤ Spec.row pl j → F e j i = G e j i) : Spec.IsPacked pl extra g G :=
  ⟨h.1, fun e he j i h1 h2 h3 h4 => (h.2 e he j i h1 h2 h3 h4).trans (hFG e he j i h1 h2 h3 h4)⟩

/-- Every array of the right shape is a packed field. -/
theorem Spec.isPacked_self {pl extra : List ℕ} {g : NDArr ℝ} (h : g.shape = pl.sum :: extra) :
    Spec.IsPacked pl extra g fun e j i => g.get (((pl.take (j - 1)).sum + (i - 1)) :: e) := ⟨h, fun _ _ _ _ _ _ _ _ => rfl⟩

variable {lib : Lib} {c : Cfg}

theorem rowStart_take {pl : List ℕ} {j : ℕ} (h : j ≤ pl.length) : Spec.rowStart (Spec.row pl) (j + 1) = (pl.take j).sum := by
  induction j with
  | zero => simp [Spec.rowStart]
  | succ j ih =>
    have := ih (by omega)
    unfold Spec.rowStart at this ⊢
    rw [Finset.sum_Ico_succ_top (by omega), this, List.take_add_one, List.sum_append]
    have : j < pl.length := by omega
    simp [Spec.row, List.getD_eq_getElem?_getD, this]

theorem row_eq (c : Cfg) : c.row = Spec.row c.pl := rfl

theorem rowStart_total (c : Cfg) : Spec.rowStart c.row (c.nlat + 1) = c.npoints := by
  rw [row_eq]; unfold Cfg.nlat; rw [rowStart_take (le_refl c.pl.length)]
  simp [Cfg.npoints]

theorem row_ge (hc : c.Valid lib) {j : ℕ} (h1 : 1 ≤ j) (h2 : j ≤ c.nlat) : 4 ≤ c.row j := by
  have : j - 1 < c.pl.length := by unfold Cfg.nlat at h2; omega
  have : c.row j = c.pl[j - 1] := by simp [Cfg.row, List.getD_eq_getElem?_getD, this]
  rw [this]
  exact hc.h4 _ (List.getElem_mem _)

theorem rowStart_row {j i : ℕ} (h1 : 1 ≤ j) (h2 : j ≤ c.nlat) (h3 : 1 ≤ i) : Spec.rowStart c.row j + i = (c.pl.take (j - 1)).sum + (i - 1) + 1 := by
  have := rowStart_take (pl := c.pl) (j := j - 1) (by unfold Cfg.nlat at h2; omega)
  rw [show j - 1 + 1 = j by omega] at this
  rw [row_eq, this]; omega

theorem packed_lt {pl : List ℕ} {j i : ℕ} (h1 : 1 ≤ j) (h2 : j ≤ pl.length) (h3 : 1 ≤ i) (h4 : i ≤ Spec.row pl j) : (pl.take (j - 1)).sum + (i - 1) < pl.sum := by
  have a := rowStart_take (pl := pl) (j := j) h2
  have b := rowStart_take (pl := pl) (j := j - 1) (by omega)
  rw [show j - 1 + 1 = j by omega] at b
  have c : Spec.rowStart (Spec.row pl) (j + 1) = Spec.rowStart (Spec.row pl) j + Spec.row pl j := by
    unfold Spec.rowStart; rw [Finset.sum_Ico_succ_top h1]
  have d : (pl.take j).sum ≤ pl.sum := by
    conv_rhs => rw [← List.take_append_drop j pl, List.sum_append]
    omega
  omega

/-! ### Validation -/

theorem validateNtrunc_cases (h3 : 3 ≤ c.nlat) (t : Option ℤ) :
    (∃ T, validateNtrunc c t = .ok T ∧ T ≤ c.nlat - 1 ∧ Sphere.Spec.Truncation c.nlat t T) ∨
    (validateNtrunc c t = .error .validation ∧ ∀ T, ¬ Sphere.Spec.Truncation c.nlat t T) := by
  unfold validateNtrunc
  cases t with
  | none => exact .inl ⟨_, rfl, le_refl _, .inl ⟨rfl, rfl⟩⟩
  | some t =>
    dsimp only
    split_ifs with h
    · refine .inr ⟨rfl, ?_⟩
      rintro T (⟨h', _⟩ | ⟨h', h''⟩)
      · exact absurd h' (by simp)
      · simp only [Option.some.injEq] at h'; omega
    · push Not at h
      refine .inl ⟨_, rfl, by omega, .inr ⟨?_, by omega⟩⟩
      rw [Int.toNat_of_nonneg h.1]

theorem validateGrid_cases (c : Cfg) (x : NDArr ℝ) :
    (∃ extra y, x.shape = c.npoints :: extra ∧ validateGrid c x = .ok (extra, y) ∧
      ∀ e, InB extra e → ∀ p, p < c.npoints → toF y (p + 1) (ravel extra e + 1) = x.get (p :: e)) ∨
    (validateGrid c x = .error .validation ∧ ∀ extra, x.shape ≠ c.npoints :: extra) := by
  unfold validateGrid
  cases h : x.shape with
  | nil => exact .inr ⟨rfl, by simp⟩
  | cons p extra =>
    dsimp only
    by_cases hp : p ≠ c.npoints
    · rw [if_pos hp]; refine .inr ⟨rfl, fun ex h' => hp ?_⟩; simp at h'; exact h'.1
    · rw [if_neg hp]
      push Not at hp
      subst hp
      have hq : [c.npoints, extra.prod].prod = x.shape.prod := by rw [h]; simp [List.prod_cons]
      refine .inl ⟨extra, _, rfl, by rw [NDArr.reshape, if_pos hq], ?_⟩
      intro e he p hp
      show x.get (unravel x.shape (ravel [c.npoints, extra.prod] [p, ravel extra e])) = _
      rw [h, Sphere.unravel2 hp (ravel_lt he), unravel_ravel he]

theorem index_pos {T m n : ℕ} (h1 : m ≤ n) (h2 : n ≤ T) : Spectral.Spec.index T m n + 1 = Spec.pos T m n := by
  have hs : ∀ m, m ≤ T → Spectral.Spec.index T m m = ∑ k ∈ Finset.range m, (T + 1 - k) := by
    intro m
    induction m with
    | zero => intro _; simp [Spectral.Spec.index]
    | succ m ih =>
      intro hm
      rw [Finset.sum_range_succ, ← ih (by omega)]
      unfold Spectral.Spec.index
      obtain ⟨d, rfl⟩ : ∃ d, T = m + d := ⟨T - m, by omega⟩
      have e1 : 2 * (m + d) + 3 - m = m + 2 * d + 3 := by omega
      have e2 : 2 * (m + d) + 3 - (m + 1) = m + 2 * d + 2 := by omega
      rw [e1, e2]
      have e3 : (m + 1) * (m + 2 * d + 2) = m * (m + 2 * d + 3) + 2 * (d + 1) := by ring
      rw [e3]
      omega
  have := hs m (by omega)
  unfold Spec.pos
  rw [← this]
  unfold Spectral.Spec.index
  omega

theorem validateSpec_cases (c : Cfg) (s : NDArr ℂ) :
    (∃ T extra y, s.shape = (T + 1) * (T + 2) / 2 :: extra ∧ T < c.nlat ∧ validateSpec c s = .ok ((T : ℤ), extra, y) ∧
      ∀ e, InB extra e → ∀ p, p < (T + 1) * (T + 2) / 2 → toF y (p + 1) (ravel extra e + 1) = s.get (p :: e)) ∨
    ((validateSpec c s = .error .validation ∨ ∃ extra y, validateSpec c s = .ok (-1, extra, y)) ∧
      ∀ T extra, T < c.nlat → s.shape ≠ (T + 1) * (T + 2) / 2 :: extra) := by
  have hpos : ∀ T : ℕ, 1 ≤ (T + 1) * (T + 2) / 2 := fun T => by
    have : 1 * 2 ≤ (T + 1) * (T + 2) := Nat.mul_le_mul (by omega) (by omega)
    omega
  unfold validateSpec
  cases h : s.shape with
  | nil => exact .inr ⟨.inl rfl, by simp⟩
  | cons len extra =>
    dsimp only
    have hq : [len, extra.prod].prod = s.shape.prod := by rw [h]; simp [List.prod_cons]
    obtain ⟨T1, hT1, hlo, hhi⟩ := Spectral.C44_largest len
    by_cases ht : (Spectral.ntruncOf len + 1) * (Spectral.ntruncOf len + 2) / 2 ≠ (len : ℤ)
    · rw [if_pos ht]
      refine .inr ⟨.inl rfl, fun T ex hT h' => ht ?_⟩
      simp only [List.cons.injEq] at h'
      rw [h'.1, Spectral.C44_truncation T]
      push_cast
      rfl
    · rw [if_neg ht]
      push Not at ht
      by_cases hb : Spectral.ntruncOf len > (c.nlat : ℤ) - 1
      · rw [if_pos hb]
        refine .inr ⟨.inl rfl, fun T ex hT h' => ?_⟩
        simp only [List.cons.injEq] at h'
        rw [h'.1, Spectral.C44_truncation T] at hb
        omega
      · rw [if_neg hb]
        rw [NDArr.reshape, if_pos hq]
        dsimp only
        cases T1 with
        | zero =>
          refine .inr ⟨.inr ⟨extra, _, by rw [hT1]; rfl⟩, fun T ex hT h' => ?_⟩
          simp only [List.cons.injEq] at h'
          have := hpos T
          omega
        | succ T =>
          have e : Spectral.ntruncOf len = (T : ℤ) := by rw [hT1]; push_cast; ring
          rw [e] at ht hb ⊢
          have hlen : len = (T + 1) * (T + 2) / 2 := by
            have : (((T + 1) * (T + 2) / 2 : ℕ) : ℤ) = (len : ℤ) := by push_cast; exact ht
            exact_mod_cast this.symm
          refine .inl ⟨T, extra, _, by rw [hlen], by omega, rfl, ?_⟩
          intro e he p hp
          show s.get (unravel s.shape (ravel [len, extra.prod] [p, ravel extra e])) = _
          rw [h, Sphere.unravel2 (by omega) (ravel_lt he), unravel_ravel he]

/-- Output arrays. -/
theorem restore_ok {α : Type} [Zero α] (len : ℕ) (extra : List ℕ) (f : ℕ → ℕ → α) :
    ∃ r, restore len extra (ofF len extra.prod f) = .ok r ∧ r.shape = len :: extra ∧
      ∀ e, InB extra e → ∀ p, p < len → r.get (p :: e) = f (p + 1) (ravel extra e + 1) := by
  unfold restore
  by_cases hx : extra = []
  · subst hx
    refine ⟨_, if_pos rfl, rfl, ?_⟩
    intro e he p hp
    have : e = [] := by
      cases e with
      | nil => rfl
      | cons => simp [InB] at he
    subst this
    rfl
  · rw [if_neg hx]
    have hp : (len :: extra).prod = (ofF len extra.prod f).shape.prod := by simp [ofF, List.prod_cons]
    unfold NDArr.reshape
    rw [if_pos hp]
    refine ⟨_, rfl, rfl, ?_⟩
    intro e he p hp
    show (ofF len extra.prod f).get (unravel [len, extra.prod] _) = _
    rw [Sphere.ravel2, unravel_ravel (show InB [len, extra.prod] [p, ravel extra e] from ⟨hp, ravel_lt he, trivial⟩)]
    rfl

theorem restoreGrid (c : Cfg) (extra : List ℕ) (f : ℕ → ℕ → ℝ) :
    ∃ r, restore c.npoints extra (ofF c.npoints extra.prod f) = .ok r ∧
      Spec.IsPacked c.pl extra r fun e j i => f (Spec.rowStart c.row j + i) (ravel extra e + 1) := by
  obtain ⟨r, h1, h2, h3⟩ := restore_ok c.npoints extra f
  refine ⟨r, h1, h2, fun e he j i a1 a2 a3 a4 => ?_⟩
  beta_reduce
  rw [h3 e he _ (packed_lt a1 a2 a3 a4), rowStart_row a1 a2 a3]

theorem restoreSpec (T : ℕ) (extra : List ℕ) (f : ℕ → ℕ → ℂ) :
    ∃ r, restore (specLen T) extra (ofF (specLen T) extra.prod f) = .ok r ∧
      Sphere.Spec.IsSpectrum T extra r fun e m n => f (Spec.pos T m n) (ravel extra e + 1) := by
  obtain ⟨r, h1, h2, h3⟩ := restore_ok (specLen T) extra f
  refine ⟨r, h1, h2, fun e he m n a1 a2 => ?_⟩
  have hi : Spectral.Spec.index T m n < specLen T := (Spectral.C43_bijection T).1 (show (m, n) ∈ {p : ℕ × ℕ | p.1 ≤ p.2 ∧ p.2 ≤ T} from ⟨a1, a2⟩)
  rw [h3 e he _ hi, index_pos a1 a2]

end Skyborn.RedGauss
