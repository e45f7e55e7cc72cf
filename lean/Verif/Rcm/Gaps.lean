/-
The row filling of `rcm2rgrid`: only interior runs of at most two missing values are filled, linearly; the fast helper agrees with the
reference routine `dlinmsg` it replaces (C167).
-/
import Verif.Rcm.Model
import Mathlib.Tactic.Linarith
import Mathlib.Tactic.Ring
import Mathlib.Tactic.FieldSimp

namespace Skyborn.Rcm

open Classical

/-- `a` and `b` are the valid values next to the missing value at `i` on both sides. -/
def Spec.Neighbours (npts : ℕ) (xmsg : ℝ) (x : ℕ → ℝ) (a i b : ℕ) : Prop :=
  (1 ≤ a ∧ a < i ∧ i < b ∧ b ≤ npts) ∧ x a ≠ xmsg ∧ x b ≠ xmsg ∧ ∀ j, a < j → j < b → x j = xmsg

/-- `y` is the row `x` with the interior runs of at most `L` missing values replaced by linear interpolation in the index. -/
structure Spec.GapFilled (L npts : ℕ) (xmsg : ℝ) (x y : ℕ → ℝ) : Prop where
  /-- Values that are not missing stay. -/
  valid : ∀ i, 1 ≤ i → i ≤ npts → x i ≠ xmsg → y i = x i
  /-- Short runs between two values get the line through them. -/
  short : ∀ a i b, Spec.Neighbours npts xmsg x a i b → b - a - 1 ≤ L → y i = x a + (x b - x a) * ((i - a : ℝ) / (b - a))
  /-- Long runs stay missing. -/
  long : ∀ a i b, Spec.Neighbours npts xmsg x a i b → L < b - a - 1 → y i = xmsg
  /-- Runs at the beginning and at the end of the row stay missing. -/
  ends : ∀ i, 1 ≤ i → i ≤ npts → ((∀ j, 1 ≤ j → j ≤ i → x j = xmsg) ∨ ∀ j, i ≤ j → j ≤ npts → x j = xmsg) → y i = xmsg

theorem Spec.Neighbours.unique {npts : ℕ} {xmsg : ℝ} {x : ℕ → ℝ} {a i b a' b' : ℕ} (h : Spec.Neighbours npts xmsg x a i b)
    (h' : Spec.Neighbours npts xmsg x a' i b') : a = a' ∧ b = b' := by
  obtain ⟨⟨h1, h2, h3, h4⟩, h5, h6, h7⟩ := h
  obtain ⟨⟨g1, g2, g3, g4⟩, g5, g6, g7⟩ := h'
  constructor
  · rcases lt_trichotomy a a' with h | h | h
    · exact absurd (h7 a' h (by omega)) g5
    · exact h
    · exact absurd (g7 a h (by omega)) h5
  · rcases lt_trichotomy b b' with h | h | h
    · exact absurd (g7 b (by omega) h) h6
    · exact h
    · exact absurd (h7 b' (by omega) h) g6

/-- Every element of a row is valid, in an interior run, or in a run at one of the ends. -/
theorem cases3 (npts : ℕ) (xmsg : ℝ) (x : ℕ → ℝ) (i : ℕ) (h1 : 1 ≤ i) (h2 : i ≤ npts) :
    x i ≠ xmsg ∨ (∃ a b, Spec.Neighbours npts xmsg x a i b) ∨
      ((∀ j, 1 ≤ j → j ≤ i → x j = xmsg) ∨ ∀ j, i ≤ j → j ≤ npts → x j = xmsg) := by
  by_cases hx : x i = xmsg
  · right
    by_cases hl : ∀ j, 1 ≤ j → j ≤ i → x j = xmsg
    · exact Or.inr (Or.inl hl)
    · by_cases hr : ∀ j, i ≤ j → j ≤ npts → x j = xmsg
      · exact Or.inr (Or.inr hr)
      · left
        push Not at hl hr
        obtain ⟨a0, p1, p2, p3⟩ := hl
        have hr' : ∃ j, (i ≤ j ∧ j ≤ npts) ∧ x j ≠ xmsg := by
          obtain ⟨j, q1, q2, q3⟩ := hr; exact ⟨j, ⟨q1, q2⟩, q3⟩
        have hb := Nat.find_spec hr'
        have hbm : ∀ j, j < Nat.find hr' → ¬ ((i ≤ j ∧ j ≤ npts) ∧ x j ≠ xmsg) := fun j hj => Nat.find_min hr' hj
        obtain ⟨a, ha1, ha2⟩ : ∃ a, (1 ≤ a ∧ a ≤ i ∧ x a ≠ xmsg) ∧ ∀ j, a < j → j ≤ i → x j = xmsg := by
          have : ∃ d, d < i ∧ x (i - d) ≠ xmsg := ⟨i - a0, by omega, by rwa [show i - (i - a0) = a0 by omega]⟩
          have q := Nat.find_spec this
          refine ⟨i - Nat.find this, ⟨by omega, by omega, q.2⟩, fun j hj1 hj2 => ?_⟩
          by_contra hc
          exact Nat.find_min this (m := i - j) (by omega) ⟨by omega, by rwa [show i - (i - j) = j by omega]⟩
        refine ⟨a, Nat.find hr', ⟨ha1.1, ?_, ?_, hb.1.2⟩, ha1.2.2, hb.2, fun j h3 h4 => ?_⟩
        · rcases Nat.lt_or_eq_of_le ha1.2.1 with h | h
          · exact h
          · exact absurd (h ▸ hx) ha1.2.2
        · rcases Nat.lt_or_eq_of_le hb.1.1 with h | h
          · exact h
          · exact absurd (h ▸ hx) hb.2
        · by_cases h5 : j ≤ i
          · exact ha2 j h3 h5
          · by_contra hc
            exact hbm j h4 ⟨⟨by omega, by omega⟩, hc⟩
  · exact Or.inl hx

/-- The description determines the filled row. -/
theorem Spec.GapFilled.unique {L npts : ℕ} {xmsg : ℝ} {x y y' : ℕ → ℝ} (h : Spec.GapFilled L npts xmsg x y)
    (h' : Spec.GapFilled L npts xmsg x y') (i : ℕ) (h1 : 1 ≤ i) (h2 : i ≤ npts) : y i = y' i := by
  rcases cases3 npts xmsg x i h1 h2 with c | ⟨a, b, c⟩ | c
  · rw [h.valid i h1 h2 c, h'.valid i h1 h2 c]
  · by_cases hl : b - a - 1 ≤ L
    · rw [h.short a i b c hl, h'.short a i b c hl]
    · rw [h.long a i b c (by omega), h'.long a i b c (by omega)]
  · rw [h.ends i h1 h2 c, h'.ends i h1 h2 c]

/-- The description at one index. -/
structure GoodAt (L npts : ℕ) (xmsg : ℝ) (x y : ℕ → ℝ) (i : ℕ) : Prop where
  valid : x i ≠ xmsg → y i = x i
  short : ∀ a b, Spec.Neighbours npts xmsg x a i b → b - a - 1 ≤ L → y i = x a + (x b - x a) * ((i - a : ℝ) / (b - a))
  long : ∀ a b, Spec.Neighbours npts xmsg x a i b → L < b - a - 1 → y i = xmsg
  ends : ((∀ j, 1 ≤ j → j ≤ i → x j = xmsg) ∨ ∀ j, i ≤ j → j ≤ npts → x j = xmsg) → y i = xmsg

theorem gapFilled_of {L npts : ℕ} {xmsg : ℝ} {x y : ℕ → ℝ} (h : ∀ i, 1 ≤ i → i ≤ npts → GoodAt L npts xmsg x y i) :
    Spec.GapFilled L npts xmsg x y where
  valid i h1 h2 := (h i h1 h2).valid
  short a i b hn := (h i (by have := hn.1; omega) (by have := hn.1; omega)).short a b hn
  long a i b hn := (h i (by have := hn.1; omega) (by have := hn.1; omega)).long a b hn
  ends i h1 h2 := (h i h1 h2).ends

theorem Neighbours.missing {npts : ℕ} {xmsg : ℝ} {x : ℕ → ℝ} {a i b : ℕ} (h : Spec.Neighbours npts xmsg x a i b) : x i = xmsg :=
  h.2.2.2 i h.1.2.1 h.1.2.2.1

theorem good_valid {L npts : ℕ} {xmsg : ℝ} {x y : ℕ → ℝ} {i : ℕ} (h1 : 1 ≤ i) (h2 : i ≤ npts) (hx : x i ≠ xmsg) (hy : y i = x i) :
    GoodAt L npts xmsg x y i where
  valid _ := hy
  short a b h := absurd (Neighbours.missing h) hx
  long a b h := absurd (Neighbours.missing h) hx
  ends h := by
    rcases h with h | h
    · exact absurd (h i h1 le_rfl) hx
    · exact absurd (h i le_rfl h2) hx

theorem good_end {L npts : ℕ} {xmsg : ℝ} {x y : ℕ → ℝ} {i : ℕ} (hx : x i = xmsg) (hy : y i = xmsg)
    (h : (∀ j, 1 ≤ j → j ≤ i → x j = xmsg) ∨ ∀ j, i ≤ j → j ≤ npts → x j = xmsg) : GoodAt L npts xmsg x y i where
  valid h := absurd hx h
  short a b hn := by
    exfalso
    rcases h with h | h
    · exact hn.2.1 (h a hn.1.1 hn.1.2.1.le)
    · exact hn.2.2.1 (h b hn.1.2.2.1.le hn.1.2.2.2)
  long a b hn _ := hy
  ends _ := hy

theorem good_inner {L npts : ℕ} {xmsg : ℝ} {x y : ℕ → ℝ} {a i b : ℕ} (hn : Spec.Neighbours npts xmsg x a i b)
    (hs : b - a - 1 ≤ L → y i = x a + (x b - x a) * ((i - a : ℝ) / (b - a))) (hl : L < b - a - 1 → y i = xmsg) :
    GoodAt L npts xmsg x y i where
  valid h := absurd (Neighbours.missing hn) h
  short a' b' hn' := by
    obtain ⟨rfl, rfl⟩ := hn.unique hn'
    exact hs
  long a' b' hn' := by
    obtain ⟨rfl, rfl⟩ := hn.unique hn'
    exact hl
  ends h := by
    exfalso
    rcases h with h | h
    · exact hn.2.1 (h a hn.1.1 hn.1.2.1.le)
    · exact hn.2.2.1 (h b hn.1.2.2.1.le hn.1.2.2.2)

theorem GoodAt.congr {L npts : ℕ} {xmsg : ℝ} {x y y' : ℕ → ℝ} {i : ℕ} (h : GoodAt L npts xmsg x y i) (e : y' i = y i) :
    GoodAt L npts xmsg x y' i where
  valid := by rw [e]; exact h.valid
  short := by rw [e]; exact h.short
  long := by rw [e]; exact h.long
  ends := by rw [e]; exact h.ends

/-! ### The fast helper -/

theorem gapEnd_spec (x : ℕ → ℝ) (npts : ℕ) (xmsg : ℝ) (n : ℕ) (hn : n ≤ npts + 1) :
    gapEnd x npts xmsg n ≤ npts + 1 ∧ (∀ j, n ≤ j → j < gapEnd x npts xmsg n → x j = xmsg) ∧
      (gapEnd x npts xmsg n ≤ npts → x (gapEnd x npts xmsg n) ≠ xmsg) := by
  induction n using gapEnd.induct x npts xmsg with
  | case1 n h ih =>
    rw [gapEnd, if_pos h]
    obtain ⟨h1, h2, h3⟩ := ih (by omega)
    refine ⟨h1, fun j h4 h5 => ?_, h3⟩
    rcases Nat.eq_or_lt_of_le h4 with h6 | h6
    · rw [← h6]; exact h.2
    · exact h2 j (by omega) h5
  | case2 n h =>
    rw [gapEnd, if_neg h]
    exact ⟨hn, fun j h1 h2 => by omega, fun h1 h2 => h ⟨h1, h2⟩⟩

/-- One gap from `g` to `e - 1` with the value (or the beginning of the row) before it. -/
theorem fillGap_good {npts : ℕ} {xmsg : ℝ} {x x' : ℕ → ℝ} {g e : ℕ} (hg : 2 ≤ g) (hge : g < e) (hen : e ≤ npts + 1)
    (hgap : ∀ j, g ≤ j → j < e → x j = xmsg) (hval : e ≤ npts → x e ≠ xmsg) (hsame : ∀ j, g ≤ j → x' j = x j) (hl : x' (g - 1) = x (g - 1))
    (hstart : x (g - 1) = xmsg → g - 1 = 1) :
    (∀ j, g ≤ j → j < e → GoodAt 2 npts xmsg x (fillGap x' npts xmsg g e) j) ∧
      ∀ j, j < g ∨ e ≤ j → fillGap x' npts xmsg g e j = x' j := by
  have lead : x (g - 1) = xmsg → ∀ j, g ≤ j → j < e → ∀ i, 1 ≤ i → i ≤ j → x i = xmsg := by
    intro h j h1 h2 i h3 h4
    by_cases h5 : g ≤ i
    · exact hgap i h5 (by omega)
    · rw [show i = g - 1 by have := hstart h; omega]; exact h
  rw [fillGap]
  by_cases h1 : e > npts ∨ e - g > 2
  · rw [if_pos h1]
    refine ⟨fun j h2 h3 => ?_, fun _ _ => rfl⟩
    have hy : x' j = xmsg := by rw [hsame j h2, hgap j h2 h3]
    rcases h1 with h1 | h1
    · exact good_end (hgap j h2 h3) hy (Or.inr fun i h4 h5 => hgap i (by omega) (by omega))
    · by_cases h4 : e ≤ npts
      · by_cases h5 : x (g - 1) = xmsg
        · exact good_end (hgap j h2 h3) hy (Or.inl (lead h5 j h2 h3))
        · exact good_inner (a := g - 1) (b := e) ⟨⟨by omega, by omega, h3, h4⟩, h5, hval h4, fun i h6 h7 => hgap i (by omega) h7⟩
            (fun h => by omega) (fun _ => hy)
      · exact good_end (hgap j h2 h3) hy (Or.inr fun i h4 h5 => hgap i (by omega) (by omega))
  · rw [if_neg h1]
    have he : e ≤ npts := by omega
    have hev : x' e = x e := hsame e (by omega)
    by_cases h2 : x' (g - 1) = xmsg ∨ x' e = xmsg
    · rw [if_pos h2]
      refine ⟨fun j h3 h4 => ?_, fun _ _ => rfl⟩
      have hy : x' j = xmsg := by rw [hsame j h3, hgap j h3 h4]
      rcases h2 with h2 | h2
      · exact good_end (hgap j h3 h4) hy (Or.inl (lead (hl ▸ h2) j h3 h4))
      · exact absurd (hev ▸ h2) (hval he)
    · rw [if_neg h2]
      push Not at h2
      have ha : x (g - 1) ≠ xmsg := hl ▸ h2.1
      have hn : ∀ j, g ≤ j → j < e → Spec.Neighbours npts xmsg x (g - 1) j e := fun j h3 h4 =>
        ⟨⟨by omega, by omega, h4, he⟩, ha, hval he, fun i h6 h7 => hgap i (by omega) h7⟩
      have hcast : ((g - 1 : ℕ) : ℝ) = (g : ℝ) - 1 := by rw [Nat.cast_sub (by omega)]; simp
      by_cases h3 : e - g = 1
      · rw [if_pos h3]
        have ee : e = g + 1 := by omega
        refine ⟨fun j h4 h5 => ?_, fun j h4 => Function.update_of_ne (by omega) _ _⟩
        have : j = g := by omega
        subst this
        refine good_inner (hn j h4 h5) (fun _ => ?_) (fun h => by omega)
        rw [Function.update_self, hl, hev, hcast, ee]
        push_cast
        field_simp
        ring
      · rw [if_neg h3]
        have ee : e = g + 2 := by omega
        dsimp only
        refine ⟨fun j h4 h5 => ?_, fun j h4 => by rw [Function.update_of_ne (by omega), Function.update_of_ne (by omega)]⟩
        refine good_inner (hn j h4 h5) (fun _ => ?_) (fun h => by omega)
        by_cases h6 : j = g
        · subst h6
          rw [Function.update_of_ne (by omega), Function.update_self, hl, hev, hcast, ee]
          push_cast
          field_simp
          ring
        · have : j = g + 1 := by omega
          subst this
          rw [Function.update_self, hl, hev, hcast, ee]
          push_cast
          field_simp
          ring

theorem gapLoop_good {npts : ℕ} {xmsg : ℝ} {x : ℕ → ℝ} (hnp : 3 ≤ npts) (x' : ℕ → ℝ) (n : ℕ) (h2 : 2 ≤ n) (hn : n ≤ npts + 1)
    (hsame : ∀ j, n ≤ j → x' j = x j) (hgap : n ≤ npts → x n = xmsg → x' (n - 1) = x (n - 1) ∧ (x (n - 1) = xmsg → n - 1 = 1))
    (hgood : ∀ j, 1 ≤ j → j < n → GoodAt 2 npts xmsg x x' j) :
    ∀ j, 1 ≤ j → j ≤ npts → GoodAt 2 npts xmsg x (gapLoop npts xmsg x' n) j := by
  induction x', n using gapLoop.induct npts xmsg with
  | case1 x' n h h' ih =>
    rw [gapLoop, dif_pos h, dif_pos h']
    have hx : x n ≠ xmsg := by rw [← hsame n le_rfl]; exact h'
    refine ih (by omega) (by omega) (fun j hj => hsame j (by omega)) (fun _ _ => ?_) (fun j h3 h4 => ?_)
    · rw [Nat.add_sub_cancel]
      exact ⟨hsame n le_rfl, fun h => absurd h hx⟩
    · by_cases h5 : j < n
      · exact hgood j h3 h5
      · have : j = n := by omega
        subst this
        exact good_valid h3 (by omega) hx (hsame j le_rfl)
  | case2 x' n h h' ih =>
    rw [gapLoop, dif_pos h, dif_neg h']
    have hx' : x' n = xmsg := not_not.mp h'
    have hx : x n = xmsg := by rw [← hsame n le_rfl]; exact hx'
    obtain ⟨g1, g2, g3⟩ := gapEnd_spec x' npts xmsg n hn
    have g0 := lt_gapEnd (x := x') (npts := npts) (n := n) (by omega) hx'
    generalize gapEnd x' npts xmsg n = e at *
    obtain ⟨k1, k2⟩ := hgap (by omega) hx
    obtain ⟨f1, f2⟩ := fillGap_good h2 g0 g1 (fun j h3 h4 => by rw [← hsame j h3]; exact g2 j h3 h4)
      (fun h3 => by rw [← hsame e (by omega)]; exact g3 h3) hsame k1 k2
    refine ih (by omega) g1 (fun j hj => ?_) (fun h3 h4 => ?_) (fun j h3 h4 => ?_)
    · rw [f2 j (Or.inr hj), hsame j (by omega)]
    · exact absurd h4 (by rw [← hsame e (by omega)]; exact g3 h3)
    · by_cases h5 : j < n
      · exact (hgood j h3 h5).congr (f2 j (Or.inl h5))
      · exact f1 j (by omega) h4
  | case3 x' n h =>
    rw [gapLoop, dif_neg h]
    intro j h3 h4
    by_cases h5 : j < n
    · exact hgood j h3 h5
    · have e1 : j = npts := by omega
      have e2 : n = npts := by omega
      by_cases hx : x j = xmsg
      · refine good_end hx (by rw [hsame j (by omega), hx]) (Or.inr fun i h6 h7 => ?_)
        rw [show i = j by omega]; exact hx
      · exact good_valid h3 h4 hx (hsame j (by omega))

theorem shortGaps_good (x : ℕ → ℝ) (npts : ℕ) (xmsg : ℝ) : ∀ j, 1 ≤ j → j ≤ npts → GoodAt 2 npts xmsg x (shortGaps x npts xmsg) j := by
  have first : ∀ j, 1 ≤ j → j < 2 → j ≤ npts → GoodAt 2 npts xmsg x x j := by
    intro j h1 h2 h3
    have : j = 1 := by omega
    subst this
    by_cases hx : x 1 = xmsg
    · exact good_end hx hx (Or.inl fun i h4 h5 => by rw [show i = 1 by omega]; exact hx)
    · exact good_valid h1 h3 hx rfl
  rw [shortGaps]
  by_cases h : npts ≤ 2
  · rw [if_pos h]
    intro j h1 h2
    by_cases h3 : j < 2
    · exact first j h1 h3 h2
    · by_cases hx : x j = xmsg
      · exact good_end hx hx (Or.inr fun i h4 h5 => by rw [show i = j by omega]; exact hx)
      · exact good_valid h1 h2 hx rfl
  · rw [if_neg h]
    exact gapLoop_good (by omega) x 2 le_rfl (by omega) (fun _ _ => rfl) (fun _ _ => ⟨rfl, fun _ => rfl⟩)
      (fun j h1 h2 => first j h1 h2 (by omega))

/-! ### The reference routine -/

/-- The invariant of the loop of `dlinmsg` before element `n` (`mflag` not negative). -/
structure LinInv (L npts : ℕ) (xmsg : ℝ) (x : ℕ → ℝ) (n : ℕ) (s : Lin) : Prop where
  kept : ∀ j, 1 ≤ j → j ≤ npts → x j ≠ xmsg → s.x j = x j
  rest : ∀ j, n ≤ j → s.x j = x j
  gap : s.nstrt ≠ 0 → (1 ≤ s.nstrt ∧ s.nstrt < n ∧ s.nend + 1 = n) ∧ (∀ j, s.nstrt ≤ j → j < n → x j = xmsg ∧ s.x j = x j) ∧
    (s.nstrt = 1 ∨ x (s.nstrt - 1) ≠ xmsg)
  nogap : s.nstrt = 0 → n = 1 ∨ x (n - 1) ≠ xmsg
  good : ∀ j, 1 ≤ j → j < n → (s.nstrt = 0 ∨ j < s.nstrt) → GoodAt L npts xmsg x s.x j

theorem linStep_inv {npts : ℕ} {xmsg : ℝ} {x : ℕ → ℝ} {mflag mptcrt : ℤ} (hm : 0 ≤ mflag) {n : ℕ} {s : Lin} (h1 : 1 ≤ n) (h2 : n ≤ npts)
    (h : LinInv mptcrt.natAbs npts xmsg x n s) : LinInv mptcrt.natAbs npts xmsg x (n + 1) (linStep xmsg mflag mptcrt n s) := by
  have hxn := h.rest n le_rfl
  rw [linStep]
  by_cases hx : s.x n = xmsg
  · rw [if_pos hx]
    have hx' : x n = xmsg := hxn ▸ hx
    refine ⟨h.kept, fun j hj => h.rest j (by omega), fun h3 => ?_, fun h3 => ?_, fun j h3 h4 h5 => ?_⟩
    · dsimp only at h3 ⊢
      by_cases h0 : s.nstrt = 0
      · rw [if_pos h0] at h3 ⊢
        refine ⟨⟨h1, by omega, by omega⟩, fun j h4 h5 => ?_, ?_⟩
        · rw [show j = n by omega]; exact ⟨hx', hxn⟩
        · rcases h.nogap h0 with e | e
          · exact Or.inl e
          · exact Or.inr e
      · rw [if_neg h0] at h3 ⊢
        obtain ⟨⟨g1, g2, g3⟩, g4, g5⟩ := h.gap h0
        refine ⟨⟨g1, by omega, by omega⟩, fun j h4 h5 => ?_, g5⟩
        by_cases h6 : j < n
        · exact g4 j h4 h6
        · rw [show j = n by omega]; exact ⟨hx', hxn⟩
    · exfalso
      dsimp only at h3
      by_cases h0 : s.nstrt = 0
      · rw [if_pos h0] at h3; omega
      · rw [if_neg h0] at h3; exact h0 h3
    · dsimp only at h5 ⊢
      by_cases h0 : s.nstrt = 0
      · rw [if_pos h0] at h5
        exact h.good j h3 (by omega) (Or.inl h0)
      · rw [if_neg h0] at h5
        have := (h.gap h0).1
        exact h.good j h3 (by omega) (by omega)
  · rw [if_neg hx]
    have hx' : x n ≠ xmsg := hxn ▸ hx
    by_cases h0 : s.nstrt = 0
    · rw [if_neg (not_not.mpr h0)]
      refine ⟨h.kept, fun j hj => h.rest j (by omega), fun h3 => absurd h0 h3, fun _ => Or.inr (by rwa [Nat.add_sub_cancel]), ?_⟩
      intro j h3 h4 _
      by_cases h6 : j < n
      · exact h.good j h3 h6 (Or.inl h0)
      · rw [show j = n by omega]; exact good_valid h1 h2 hx' hxn
    · rw [if_pos h0]
      obtain ⟨⟨g1, g2, g3⟩, g4, g5⟩ := h.gap h0
      dsimp only
      -- the row after this element
      have key : ∀ y : ℕ → ℝ, (∀ j, ¬ (s.nstrt ≤ j ∧ j < n) → y j = s.x j) →
          (∀ j, s.nstrt ≤ j → j < n → GoodAt mptcrt.natAbs npts xmsg x y j) → LinInv mptcrt.natAbs npts xmsg x (n + 1) ⟨y, 0, 0, true⟩ := by
        intro y k1 k2
        refine ⟨fun j h3 h4 h5 => ?_, fun j hj => ?_, fun h3 => absurd rfl h3, fun _ => Or.inr (by rwa [Nat.add_sub_cancel]), ?_⟩
        · dsimp only
          rw [k1 j (fun hc => h5 (g4 j hc.1 hc.2).1)]; exact h.kept j h3 h4 h5
        · dsimp only
          rw [k1 j (by omega)]; exact h.rest j (by omega)
        · intro j h3 h4 _
          dsimp only
          by_cases h5 : s.nstrt ≤ j ∧ j < n
          · exact k2 j h5.1 h5.2
          · by_cases h6 : j = n
            · rw [h6]; exact good_valid h1 h2 hx' (by rw [k1 n (by omega), hxn])
            · exact (h.good j h3 (by omega) (by omega)).congr (k1 j h5)
      have lead : s.nstrt = 1 → ∀ j, s.nstrt ≤ j → j < n → ∀ i, 1 ≤ i → i ≤ j → x i = xmsg :=
        fun e j h3 h4 i h5 h6 => (g4 i (by omega) (by omega)).1
      have inner : s.nstrt ≠ 1 → ∀ j, s.nstrt ≤ j → j < n → Spec.Neighbours npts xmsg x (s.nstrt - 1) j n := by
        intro e j h3 h4
        refine ⟨⟨by omega, by omega, h4, h2⟩, g5.resolve_left e, hx', fun i h5 h6 => (g4 i (by omega) h6).1⟩
      have hlen : ((s.nend : ℤ) - s.nstrt + 1 ≤ |mptcrt|) ↔ n - s.nstrt ≤ mptcrt.natAbs := by
        rw [Int.abs_eq_natAbs]; omega
      by_cases hl : ((s.nend : ℤ) - s.nstrt + 1) ≤ |mptcrt|
      · rw [if_pos hl]
        by_cases e1 : s.nstrt = 1
        · rw [if_pos e1, if_neg (by omega)]
          refine key _ (fun j hj => ?_) (fun j h3 h4 => ?_)
          · rw [setRange, if_neg (by omega)]
          · refine good_end (g4 j h3 h4).1 ?_ (Or.inl (lead e1 j h3 h4))
            rw [setRange, if_pos (by omega)]
        · rw [if_neg e1]
          refine key _ (fun j hj => ?_) (fun j h3 h4 => ?_)
          · rw [ramp]; dsimp only; rw [if_neg (by omega)]
          · refine good_inner (inner e1 j h3 h4) (fun _ => ?_) (fun hc => by rw [hlen] at hl; omega)
            rw [ramp]; dsimp only; rw [if_pos (by omega), h.kept (s.nstrt - 1) (by omega) (by omega) (g5.resolve_left e1), hxn]
            ring
      · rw [if_neg hl]
        refine key _ (fun _ _ => rfl) (fun j h3 h4 => ?_)
        have hy : s.x j = xmsg := by rw [(g4 j h3 h4).2]; exact (g4 j h3 h4).1
        by_cases e1 : s.nstrt = 1
        · exact good_end (g4 j h3 h4).1 hy (Or.inl (lead e1 j h3 h4))
        · exact good_inner (inner e1 j h3 h4) (fun hc => by rw [hlen] at hl; omega) (fun _ => hy)

theorem dlinmsg_good (x : ℕ → ℝ) (npts : ℕ) (xmsg : ℝ) (mflag mptcrt : ℤ) (hm : 0 ≤ mflag) :
    ∀ j, 1 ≤ j → j ≤ npts → GoodAt mptcrt.natAbs npts xmsg x (dlinmsg x npts xmsg mflag mptcrt) j := by
  have hinv : LinInv mptcrt.natAbs npts xmsg x (npts + 1)
      (doLoop 1 npts (⟨x, 0, 0, false⟩ : Lin) fun n s => linStep xmsg mflag mptcrt n s) := by
    refine doLoop_inv (lo := 1) (hi := npts) (by omega) (fun n s => LinInv mptcrt.natAbs npts xmsg x n s) ?_ ?_
    · exact ⟨fun _ _ _ _ => rfl, fun _ _ => rfl, fun h => absurd rfl h, fun _ => Or.inl rfl, fun j h1 h2 => by omega⟩
    · intro n s h1 h2 h; exact linStep_inv hm h1 h2 h
  rw [dlinmsg]
  generalize (doLoop 1 npts (⟨x, 0, 0, false⟩ : Lin) fun n s => linStep xmsg mflag mptcrt n s) = s at hinv
  have plain : ∀ j, 1 ≤ j → j ≤ npts → GoodAt mptcrt.natAbs npts xmsg x s.x j := by
    intro j h1 h2
    by_cases h3 : s.nstrt = 0 ∨ j < s.nstrt
    · exact hinv.good j h1 (by omega) h3
    · obtain ⟨_, g4, _⟩ := hinv.gap (by omega)
      have := g4 j (by omega) (by omega)
      refine good_end this.1 (by rw [this.2]; exact this.1) (Or.inr fun i h4 h5 => (g4 i (by omega) (by omega)).1)
  by_cases h : s.nstrt ≠ 0 ∧ s.nend = npts
  · rw [if_pos h]
    by_cases h' : s.seen = false
    · rw [if_pos h']; exact plain
    · rw [if_neg h', if_neg (by omega)]
      intro j h1 h2
      refine (plain j h1 h2).congr ?_
      rw [setRange]
      by_cases h3 : s.nstrt ≤ j ∧ j ≤ npts
      · rw [if_pos h3]
        obtain ⟨_, g4, _⟩ := hinv.gap h.1
        have := g4 j h3.1 (by omega)
        rw [this.2, this.1]
      · rw [if_neg h3]
  · rw [if_neg h]; exact plain

/-- C167: the helper fills exactly the interior runs of at most two missing values, linearly, and changes nothing else. -/
theorem C167_short_gaps (x : ℕ → ℝ) (npts : ℕ) (xmsg : ℝ) : Spec.GapFilled 2 npts xmsg x (shortGaps x npts xmsg) :=
  gapFilled_of (shortGaps_good x npts xmsg)

/-- C167: the reference routine fills exactly the interior runs of at most `|mptcrt|` missing values (`mflag` not negative). -/
theorem C167_reference (x : ℕ → ℝ) (npts : ℕ) (xmsg : ℝ) (mflag mptcrt : ℤ) (hm : 0 ≤ mflag) :
    Spec.GapFilled mptcrt.natAbs npts xmsg x (dlinmsg x npts xmsg mflag mptcrt) :=
  gapFilled_of (dlinmsg_good x npts xmsg mflag mptcrt hm)

/-- C167: the helper does what its documentation says: the same as `dlinmsg(x, npts, xmsg, 0, 2)`. -/
theorem C167_equivalent (x : ℕ → ℝ) (npts : ℕ) (xmsg : ℝ) (i : ℕ) (h1 : 1 ≤ i) (h2 : i ≤ npts) :
    shortGaps x npts xmsg i = dlinmsg x npts xmsg 0 2 i :=
  (C167_short_gaps x npts xmsg).unique (C167_reference x npts xmsg 0 2 le_rfl) i h1 h2

/-- A row with a short interior run: the description gives the interpolated value. -/
example : shortGaps (fun i => if i = 2 then 9 else if i = 1 then 1 else 3) 3 9 2 = 2 := by
  have := (C167_short_gaps (fun i => if i = 2 then 9 else if i = 1 then 1 else 3) 3 9).short 1 2 3
    ⟨by omega, by norm_num, by norm_num, fun j h1 h2 => by simp [show j = 2 by omega]⟩ (by omega)
  rw [this]; norm_num

end Skyborn.Rcm
