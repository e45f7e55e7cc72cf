/-
`gradient_fill_between` (plot/plotting.py:109-331): the pixels of the gradient images. Points are counted from 0; a value that is not finite is `none`.
`interp` stands for `np.interp`, `eps` for `np.finfo(float).eps`. Not modelled: dates as abscissae, shapes, the resolution argument, the clipping path and
Matplotlib.
-/
import Mathlib.Data.Real.Basic
import Mathlib.Data.List.Sort
import Mathlib.Data.List.Range
import Mathlib.Tactic.Ring
import Mathlib.Tactic.FieldSimp
import Mathlib.Tactic.Linarith
import Mathlib.Tactic.NormNum
import Mathlib.Algebra.Order.Field.Basic

namespace Skyborn.Plot.Gradient

/-! ## Model -/

/-- plotting.py:128-130: neighbours in the list of valid indices that are not consecutive (`breaks`). -/
def gaps (l : List ℕ) : List (ℕ × ℕ) := (l.zip l.tail).filter fun p => decide (p.2 - p.1 > 1)

/-- plotting.py:128-131: `zip(starts, stops)` for the list of valid indices. -/
def zipRuns : List ℕ → List (ℕ × ℕ)
  | [] => []
  | a :: t => (a :: (gaps (a :: t)).map Prod.snd).zip ((gaps (a :: t)).map (fun p => p.1 + 1) ++ [(a :: t).getLast (by simp) + 1])

/-- plotting.py:123-133 `_iter_valid_runs`. -/
def iterValidRuns (n : ℕ) (valid : ℕ → Bool) : List (ℕ × ℕ) := (zipRuns ((List.range n).filter valid)).filter fun p => decide (p.2 - p.1 ≥ 2)

/-- The values of `edge_mode`. -/
inductive Mode | auto | y1 | y2

/-- plotting.py:193-211: one pixel at height `y` in a column where the curves have the values `a` and `b`; `none`: masked. -/
noncomputable def pixel (mode : Mode) (eps a b y : ℝ) : Option ℝ :=
  let lower := match mode with | .y1 => a | .y2 => b | .auto => min a b
  let upper := match mode with | .y1 => b | .y2 => a | .auto => max a b
  let thickness := max (upper - lower) eps
  let v := (y - lower) / thickness
  if y < min a b ∨ y > max a b then none else some (min (max v 0) 1)

/-- An image: extent and pixels (row, column). -/
structure Image where
  xmin : ℝ
  xmax : ℝ
  ymin : ℝ
  ymax : ℝ
  pix : ℕ → ℕ → Option ℝ

/-- `np.linspace(a, b, n)[i]`. -/
noncomputable def linspace (a b : ℝ) (n i : ℕ) : ℝ := a + i * ((b - a) / (n - 1))

/-- plotting.py:163-222 `_gradient_segment` for the points of one run; `none`: the error for zero ranges. `np.argsort` may order equal abscissae otherwise. -/
noncomputable def segment (interp : List ℝ → List ℝ → ℝ → ℝ) (mode : Mode) (eps : ℝ) (nx ny : ℕ) (pts : List (ℝ × ℝ × ℝ)) : Option Image :=
  let p := pts.mergeSort fun p q => decide (p.1 ≤ q.1)
  let xs := p.map fun q => q.1
  let y1 := p.map fun q => q.2.1
  let y2 := p.map fun q => q.2.2
  let xmin := xs.headD 0
  let xmax := xs.getLastD 0
  let ymin := ((y1 ++ y2).min?).getD 0
  let ymax := ((y1 ++ y2).max?).getD 0
  if xmin = xmax ∨ ymin = ymax then none
  else some ⟨xmin, xmax, ymin, ymax, fun r c =>
    let xi := linspace xmin xmax nx c
    pixel mode eps (interp xs y1 xi) (interp xs y2 xi) (linspace ymin ymax ny r)⟩

/-- plotting.py:294-331 `gradient_fill_between` for `n` points: the images, each with the run of points it belongs to; `none`: an error. -/
noncomputable def gradientFillBetween (interp : List ℝ → List ℝ → ℝ → ℝ) (mode : Mode) (eps : ℝ) (nx ny n : ℕ) (x y1 y2 : ℕ → Option ℝ) :
    Option (List ((ℕ × ℕ) × Image)) :=
  let valid := fun i => (x i).isSome && (y1 i).isSome && (y2 i).isSome
  let runs := iterValidRuns n valid
  if runs = [] then none
  else runs.mapM fun run =>
    (segment interp mode eps nx ny ((List.range' run.1 (run.2 - run.1)).map fun i => ((x i).getD 0, (y1 i).getD 0, (y2 i).getD 0))).map fun im => (run, im)

/-! ## Specification -/

/-- `s` to `e` (without `e`) is a run: at least two points, all finite, and it cannot be extended to either side. -/
def Spec.Run (n : ℕ) (ok : ℕ → Prop) (s e : ℕ) : Prop :=
  s + 2 ≤ e ∧ e ≤ n ∧ (∀ i, s ≤ i → i < e → ok i) ∧ (s = 0 ∨ ¬ok (s - 1)) ∧ (e = n ∨ ¬ok e)

/-- The position of `y` on the way from the curve value `a` to the curve value `b`. -/
noncomputable def Spec.between (a b y : ℝ) : ℝ := (y - a) / (b - a)

/-! ## Runs -/

private theorem zip_cons2 (a b : ℕ) (t : List ℕ) : zipRuns (a :: b :: t)
    = if b - a > 1 then (a, a + 1) :: zipRuns (b :: t) else match zipRuns (b :: t) with | [] => [] | p :: r => (a, p.2) :: r := by
  have hg : gaps (a :: b :: t) = if b - a > 1 then (a, b) :: gaps (b :: t) else gaps (b :: t) := by
    unfold gaps
    simp only [List.tail_cons, List.zip_cons_cons, List.filter_cons]
    simp
  have hl : (a :: b :: t).getLast (by simp) = (b :: t).getLast (by simp) := by simp
  simp only [zipRuns]
  rw [hg, hl]
  split
  · simp
  · cases hG : (gaps (b :: t)) with
    | nil => simp
    | cons q r => simp

/-- A maximal run of members. -/
private def Max (l : List ℕ) (s e : ℕ) : Prop := s < e ∧ (∀ i, s ≤ i → i < e → i ∈ l) ∧ (s = 0 ∨ s - 1 ∉ l) ∧ e ∉ l

private theorem zipRuns_spec : ∀ (a : ℕ) (t : List ℕ), (a :: t).Pairwise (· < ·) →
    (∃ e0 r, zipRuns (a :: t) = (a, e0) :: r ∧ ∀ p ∈ r, a < p.1) ∧ ∀ s e, (s, e) ∈ zipRuns (a :: t) ↔ Max (a :: t) s e
  | a, [], _ => by
    refine ⟨⟨a + 1, [], by simp [zipRuns, gaps], by simp⟩, fun s e => ?_⟩
    have : zipRuns [a] = [(a, a + 1)] := by simp [zipRuns, gaps]
    rw [this, List.mem_singleton, Prod.mk.injEq]
    unfold Max
    simp only [List.mem_singleton]
    constructor
    · rintro ⟨rfl, rfl⟩; exact ⟨by omega, fun i h1 h2 => by omega, by omega, by omega⟩
    · rintro ⟨h1, h2, h3, h4⟩
      have := h2 s le_rfl h1
      have := h2 (e - 1) (by omega) (by omega)
      omega
  | a, b :: t, h => by
    have h' := h
    rw [List.pairwise_cons] at h
    obtain ⟨hlt, htail⟩ := h
    obtain ⟨⟨e0, r, hz, hr⟩, ih⟩ := zipRuns_spec b t htail
    have hb : a < b := hlt b (by simp)
    have hge : ∀ x ∈ b :: t, b ≤ x := fun x hx => by
      rcases List.mem_cons.mp hx with rfl | hx
      · exact le_rfl
      · exact ((List.pairwise_cons.mp htail).1 x hx).le
    have hmem : ∀ x, x ∈ a :: b :: t ↔ x = a ∨ x ∈ b :: t := fun x => List.mem_cons
    have hbm : b ∈ b :: t := by simp
    rw [zip_cons2]
    generalize b :: t = l at *
    by_cases g : b - a > 1
    · rw [if_pos g, hz]
      refine ⟨⟨a + 1, _, rfl, fun p hp => ?_⟩, fun s e => ?_⟩
      · rcases List.mem_cons.mp hp with rfl | hp
        · exact hb
        · exact lt_trans hb (hr p hp)
      · rw [List.mem_cons, ← hz, ih, Prod.mk.injEq]
        constructor
        · rintro (⟨rfl, rfl⟩ | ⟨h1, h2, h3, h4⟩)
          · refine ⟨by omega, fun i i1 i2 => (hmem i).mpr (Or.inl (by omega)), ?_, ?_⟩
            · by_cases hs : s = 0
              · exact Or.inl hs
              · right; intro hc; rcases (hmem _).mp hc with hc | hc
                · omega
                · have := hge _ hc; omega
            · intro hc; rcases (hmem _).mp hc with hc | hc
              · omega
              · have := hge _ hc; omega
          · have hs := hge _ (h2 s le_rfl h1)
            refine ⟨h1, fun i i1 i2 => (hmem i).mpr (Or.inr (h2 i i1 i2)), ?_, ?_⟩
            · rcases h3 with h3 | h3
              · exact Or.inl h3
              · right; intro hc; rcases (hmem _).mp hc with hc | hc
                · omega
                · exact h3 hc
            · intro hc; rcases (hmem _).mp hc with hc | hc
              · omega
              · exact h4 hc
        · rintro ⟨h1, h2, h3, h4⟩
          rcases (hmem s).mp (h2 s le_rfl h1) with rfl | hs
          · left
            refine ⟨rfl, ?_⟩
            by_contra hne
            rcases (hmem _).mp (h2 (s + 1) (by omega) (by omega)) with hc | hc
            · omega
            · have := hge _ hc; omega
          · right
            have hsb := hge _ hs
            refine ⟨h1, fun i i1 i2 => ?_, ?_, fun hc => h4 ((hmem e).mpr (Or.inr hc))⟩
            · rcases (hmem i).mp (h2 i i1 i2) with hc | hc
              · omega
              · exact hc
            · rcases h3 with h3 | h3
              · exact Or.inl h3
              · exact Or.inr fun hc => h3 ((hmem _).mpr (Or.inr hc))
    · rw [if_neg g, hz]
      dsimp only
      have hba : b = a + 1 := by omega
      refine ⟨⟨e0, r, rfl, fun p hp => lt_trans hb (hr p hp)⟩, fun s e => ?_⟩
      have key : (s, e) ∈ (a, e0) :: r ↔ (s = a ∧ Max l b e) ∨ (s ≠ a ∧ s ≠ b ∧ Max l s e) := by
        have i1 := ih b e
        have i2 := ih s e
        rw [hz, List.mem_cons, Prod.mk.injEq] at i1 i2
        rw [List.mem_cons, Prod.mk.injEq]
        have n1 : (b, e) ∉ r := fun hc => by have := hr _ hc; simp at this
        constructor
        · rintro (⟨h1, h2⟩ | hc)
          · exact Or.inl ⟨h1, i1.mp (Or.inl ⟨rfl, h2⟩)⟩
          · have := hr _ hc
            dsimp only at this
            exact Or.inr ⟨by omega, by omega, i2.mp (Or.inr hc)⟩
        · rintro (⟨h1, h2⟩ | ⟨h1, h2, h3⟩)
          · rcases i1.mpr h2 with ⟨-, q⟩ | q
            · exact Or.inl ⟨h1, q⟩
            · exact absurd q n1
          · rcases i2.mpr h3 with ⟨q, -⟩ | q
            · exact absurd q h2
            · exact Or.inr q
      rw [key]
      constructor
      · rintro (⟨rfl, h1, h2, h3, h4⟩ | ⟨ha, hb', h1, h2, h3, h4⟩)
        · refine ⟨by omega, fun i j1 j2 => (hmem i).mpr ?_, ?_, ?_⟩
          · rcases Nat.lt_or_ge i b with q | q
            · left; omega
            · exact Or.inr (h2 i q j2)
          · by_cases hs : s = 0
            · exact Or.inl hs
            · right; intro hc; rcases (hmem _).mp hc with hc | hc
              · omega
              · have := hge _ hc; omega
          · intro hc; rcases (hmem _).mp hc with hc | hc
            · omega
            · exact h4 hc
        · have hs := hge _ (h2 s le_rfl h1)
          refine ⟨h1, fun i j1 j2 => (hmem i).mpr (Or.inr (h2 i j1 j2)), ?_, ?_⟩
          · rcases h3 with h3 | h3
            · exact Or.inl h3
            · right; intro hc; rcases (hmem _).mp hc with hc | hc
              · omega
              · exact h3 hc
          · intro hc; rcases (hmem _).mp hc with hc | hc
            · omega
            · exact h4 hc
      · rintro ⟨h1, h2, h3, h4⟩
        rcases (hmem s).mp (h2 s le_rfl h1) with rfl | hs
        · left
          refine ⟨rfl, ?_, fun i j1 j2 => ?_, Or.inr fun hc => ?_, fun hc => h4 ((hmem e).mpr (Or.inr hc))⟩
          · by_contra hne
            exact h4 (by rw [show e = b by omega]; exact (hmem b).mpr (Or.inr hbm))
          · rcases (hmem i).mp (h2 i (by omega) j2) with hc | hc
            · omega
            · exact hc
          · have := hge _ hc; omega
        · right
          have hsb := hge _ hs
          refine ⟨by omega, fun hc => ?_, h1, fun i j1 j2 => ?_, ?_, fun hc => h4 ((hmem e).mpr (Or.inr hc))⟩
          · rcases h3 with h3 | h3
            · omega
            · exact h3 ((hmem _).mpr (Or.inl (by omega)))
          · rcases (hmem i).mp (h2 i j1 j2) with hc | hc
            · omega
            · exact hc
          · rcases h3 with h3 | h3
            · exact Or.inl h3
            · exact Or.inr fun hc => h3 ((hmem _).mpr (Or.inr hc))

theorem runs_spec (n : ℕ) (valid : ℕ → Bool) (s e : ℕ) : (s, e) ∈ iterValidRuns n valid ↔ Spec.Run n (fun i => valid i = true) s e := by
  unfold iterValidRuns
  rw [List.mem_filter, decide_eq_true_eq]
  have hm : ∀ i, i ∈ (List.range n).filter valid ↔ i < n ∧ valid i = true := fun i => by rw [List.mem_filter, List.mem_range]
  have hp : ((List.range n).filter valid).Pairwise (· < ·) := List.Pairwise.filter _ List.pairwise_lt_range
  have : (s, e) ∈ zipRuns ((List.range n).filter valid) ↔ Max ((List.range n).filter valid) s e := by
    cases hl : (List.range n).filter valid with
    | nil =>
      unfold zipRuns Max
      simp only [List.not_mem_nil, false_iff]
      rintro ⟨h1, h2, -⟩
      exact h2 s le_rfl h1
    | cons a t => rw [hl] at hp; exact (zipRuns_spec a t hp).2 s e
  rw [this]
  unfold Max Spec.Run
  simp only [hm]
  constructor
  · rintro ⟨⟨h1, h2, h3, h4⟩, h5⟩
    have := (h2 (e - 1) (by omega) (by omega)).1
    have hs := (h2 s le_rfl h1).1
    refine ⟨by omega, by omega, fun i a b => (h2 i a b).2, ?_, ?_⟩
    · rcases h3 with h3 | h3
      · exact Or.inl h3
      · exact Or.inr fun hc => h3 ⟨by omega, hc⟩
    · by_cases he : e = n
      · exact Or.inl he
      · exact Or.inr fun hc => h4 ⟨by omega, hc⟩
  · rintro ⟨h1, h2, h3, h4, h5⟩
    refine ⟨⟨by omega, fun i a b => ⟨by omega, h3 i a b⟩, ?_, ?_⟩, by omega⟩
    · rcases h4 with h4 | h4
      · exact Or.inl h4
      · exact Or.inr fun hc => h4 hc.2
    · rintro ⟨q1, q2⟩
      rcases h5 with h5 | h5
      · omega
      · exact h5 q2

end Skyborn.Plot.Gradient
