/-
C37 (latitude part), C38.
-/
import Verif.Regrid.Lemmas

namespace Skyborn.Regrid

open Skyborn

section
variable {K : Type} [Field K] [LinearOrder K]

/-- The overlap of two cells as a difference of clamped boundaries. -/
theorem latEntry_clamp (f : K → K) {t0 t1 s0 s1 : K} (ht : t0 ≤ t1) (hs : s0 ≤ s1) :
    latEntry f t0 t1 s0 s1 = f (max t0 (min t1 s1)) - f (max t0 (min t1 s0)) := by
  unfold latEntry
  split
  · rename_i h
    have h1 : t0 < min t1 s1 := lt_of_le_of_lt (le_max_left _ _) h
    have h2 : s0 < t1 := lt_of_le_of_lt (le_max_right _ _) (lt_of_lt_of_le h (min_le_left _ _))
    rw [max_eq_right h1.le, min_eq_right h2.le]
  · rename_i h
    have h' := not_lt.mp h
    have : max t0 (min t1 s1) = max t0 (min t1 s0) := by
      rcases min_le_iff.mp h' with h1 | h1 <;> rcases le_max_iff.mp h1 with h2 | h2
      · have e : t0 = t1 := le_antisymm ht h2
        subst e
        rw [max_eq_left (min_le_left _ _), max_eq_left (min_le_left _ _)]
      · rw [min_eq_left h2, min_eq_left (h2.trans hs)]
      · rw [max_eq_left ((min_le_right _ _).trans h2), max_eq_left ((min_le_right _ _).trans (hs.trans h2))]
      · rw [le_antisymm hs h2]
    rw [this, sub_self]

theorem latEntry_comm (f : K → K) (t0 t1 s0 s1 : K) : latEntry f t0 t1 s0 s1 = latEntry f s0 s1 t0 t1 := by
  unfold latEntry; rw [min_comm t1, max_comm t0]

/-- The overlaps of a cell with a tiling add up to the cell. -/
theorem latEntry_sum (f : K → K) {t0 t1 : K} (ht : t0 ≤ t1) (n : ℕ) (b : ℕ → K) (hb : ∀ i, i < n → b i ≤ b (i + 1))
    (h0 : b 0 ≤ t0) (h1 : t1 ≤ b n) : ∑ j ∈ Finset.range n, latEntry f t0 t1 (b j) (b (j + 1)) = f t1 - f t0 := by
  have : ∀ j ∈ Finset.range n, latEntry f t0 t1 (b j) (b (j + 1)) =
      (fun k => f (max t0 (min t1 (b k)))) (j + 1) - (fun k => f (max t0 (min t1 (b k)))) j := fun j hj =>
    latEntry_clamp f ht (hb j (Finset.mem_range.mp hj))
  rw [Finset.sum_congr rfl this, Finset.sum_range_sub (fun k => f (max t0 (min t1 (b k))))]
  rw [min_eq_left h1, max_eq_right ht, max_eq_left ((min_le_right _ _).trans h0)]

variable [IsStrictOrderedRing K]

theorem latEdge_mono {h : K} {n : ℕ} {x : ℕ → K} (hx : Spec.StrictInc n x) (hr : ∀ i, i < n → -h ≤ x i ∧ x i ≤ h) {i : ℕ}
    (hi : i < n) : Spec.latEdge h n x i ≤ Spec.latEdge h n x (i + 1) := by
  unfold Spec.latEdge
  rw [if_neg (show i + 1 ≠ 0 by omega), Nat.add_sub_cancel]
  by_cases h0 : i = 0
  · subst h0
    rw [if_pos rfl]
    have h1 := hr 0 hi
    split
    · linarith
    · have h2 := hr 1 (by omega)
      rw [le_div_iff₀ (by norm_num)]
      simp only [Nat.zero_add]
      linarith
  · rw [if_neg h0, if_neg (by omega)]
    have h1 := hr (i - 1) (by omega)
    have h2 := hr i hi
    split
    · rw [div_le_iff₀ (by norm_num)]; linarith
    · have h3 := hx (i - 1) i (by omega) hi
      have h4 := hx i (i + 1) (by omega) (by omega)
      gcongr

theorem latEdge_range {h : K} {n : ℕ} (hn : 0 < n) {x : ℕ → K} (hr : ∀ i, i < n → -h ≤ x i ∧ x i ≤ h) {i : ℕ} (hi : i ≤ n) :
    -h ≤ Spec.latEdge h n x i ∧ Spec.latEdge h n x i ≤ h := by
  have h0 := hr 0 hn
  have hh : -h ≤ h := h0.1.trans h0.2
  unfold Spec.latEdge
  split
  · exact ⟨le_rfl, hh⟩
  · split
    · exact ⟨hh, le_rfl⟩
    · have h1 := hr (i - 1) (by omega)
      have h2 := hr i (by omega)
      constructor
      · rw [le_div_iff₀ (by norm_num)]; linarith
      · rw [div_le_iff₀ (by norm_num)]; linarith

theorem latEdge_zero {h : K} {n : ℕ} {x : ℕ → K} : Spec.latEdge h n x 0 = -h := by simp [Spec.latEdge]
theorem latEdge_last {h : K} {n : ℕ} (hn : 0 < n) {x : ℕ → K} : Spec.latEdge h n x n = h := by
  simp [Spec.latEdge, hn.ne']
end

/-- The overlap matrix over the reals. -/
noncomputable def overlapR (nsrc : ℕ) (src : ℕ → ℝ) (ntgt : ℕ) (tgt : ℕ → ℝ) (t s : ℕ) : ℝ :=
  latEntry Real.sin (Spec.latEdge (Real.pi / 2) ntgt tgt t) (Spec.latEdge (Real.pi / 2) ntgt tgt (t + 1))
    (Spec.latEdge (Real.pi / 2) nsrc src s) (Spec.latEdge (Real.pi / 2) nsrc src (s + 1))

theorem overlapR_nonneg {nsrc ntgt : ℕ} {src tgt : ℕ → ℝ} (hs : Spec.LatAxis nsrc src) (ht : Spec.LatAxis ntgt tgt) {t s : ℕ}
    (h1 : t < ntgt) (h2 : s < nsrc) : 0 ≤ overlapR nsrc src ntgt tgt t s := by
  unfold overlapR latEntry
  split
  · rename_i h
    have a1 := latEdge_range (by omega) ht.2 (show t ≤ ntgt by omega)
    have a2 := latEdge_range (by omega) ht.2 (show t + 1 ≤ ntgt by omega)
    have a3 := latEdge_range (by omega) hs.2 (show s ≤ nsrc by omega)
    have a4 := latEdge_range (by omega) hs.2 (show s + 1 ≤ nsrc by omega)
    rw [sub_nonneg]
    apply Real.strictMonoOn_sin.monotoneOn _ _ h.le
    · exact ⟨a1.1.trans (le_max_left _ _), max_le a1.2 a3.2⟩
    · exact ⟨le_min a2.1 a4.1, (min_le_left _ _).trans a2.2⟩
  · exact le_rfl

theorem overlapR_row {nsrc ntgt : ℕ} {src tgt : ℕ → ℝ} (hs : Spec.LatAxis nsrc src) (ht : Spec.LatAxis ntgt tgt) (h0 : 0 < nsrc) {t : ℕ}
    (h1 : t < ntgt) : ∑ s ∈ Finset.range nsrc, overlapR nsrc src ntgt tgt t s = Spec.bandArea ntgt tgt t := by
  unfold overlapR Spec.bandArea
  apply latEntry_sum Real.sin (latEdge_mono ht.1 ht.2 h1) nsrc (Spec.latEdge (Real.pi / 2) nsrc src) (fun i hi => latEdge_mono hs.1 hs.2 hi)
  · rw [latEdge_zero]; exact (latEdge_range (by omega) ht.2 (by omega)).1
  · rw [latEdge_last h0]; exact (latEdge_range (by omega) ht.2 (by omega)).2

theorem overlapR_col {nsrc ntgt : ℕ} {src tgt : ℕ → ℝ} (hs : Spec.LatAxis nsrc src) (ht : Spec.LatAxis ntgt tgt) (h0 : 0 < ntgt) {s : ℕ}
    (h1 : s < nsrc) : ∑ t ∈ Finset.range ntgt, overlapR nsrc src ntgt tgt t s = Spec.bandArea nsrc src s := by
  rw [← overlapR_row ht hs h0 h1]
  exact Finset.sum_congr rfl fun t _ => latEntry_comm _ _ _ _ _

/-- C37, latitude: for every pair of latitude axes the weights exist, are non-negative and every row adds up to one. -/
theorem C37_latitude_weights {nsrc ntgt : ℕ} (h1 : 0 < nsrc) (h2 : 0 < ntgt) {src tgt : ℕ → ℝ} (hs : Spec.LatAxis nsrc src)
    (ht : Spec.LatAxis ntgt tgt) :
    ∃ w, latitudeWeights Real.sin (Real.pi / 2) nsrc src ntgt tgt = .ok w ∧
      (∀ t s, t < ntgt → s < nsrc → 0 ≤ w (t * nsrc + s)) ∧
      ∀ t, t < ntgt → ∑ s ∈ Finset.range nsrc, w (t * nsrc + s) = 1 := by
  obtain ⟨w, e, h⟩ := latitudeWeights_spec Real.sin (Real.pi / 2) h1 h2 hs.1 ht.1
  refine ⟨w, e, fun t s a b => ?_, fun t a => ?_⟩
  · rw [h t s a b]
    exact normWeight_nonneg (fun j hj => overlapR_nonneg hs ht a hj) b
  · rw [Finset.sum_congr rfl fun s hb => h t s a (Finset.mem_range.mp hb)]
    exact normWeight_sum h1 _ t

/-- C37, latitude: what a weight is. A target cell of more than 1e-15 gets the share of its area covered by the source cell;
a smaller one gets all source cells with equal weight. -/
theorem C37_latitude_share {nsrc ntgt : ℕ} (h1 : 0 < nsrc) (h2 : 0 < ntgt) {src tgt : ℕ → ℝ} (hs : Spec.LatAxis nsrc src)
    (ht : Spec.LatAxis ntgt tgt) {w : ℕ → ℝ} (e : latitudeWeights Real.sin (Real.pi / 2) nsrc src ntgt tgt = .ok w) {t s : ℕ}
    (a : t < ntgt) (b : s < nsrc) :
    w (t * nsrc + s) = if Spec.bandArea ntgt tgt t > 1 / 10 ^ 15 then
      (let hi := min (Spec.latEdge (Real.pi / 2) ntgt tgt (t + 1)) (Spec.latEdge (Real.pi / 2) nsrc src (s + 1))
       let lo := max (Spec.latEdge (Real.pi / 2) ntgt tgt t) (Spec.latEdge (Real.pi / 2) nsrc src s)
       if hi > lo then (Real.sin hi - Real.sin lo) / Spec.bandArea ntgt tgt t else 0)
      else 1 / nsrc := by
  obtain ⟨w', e', h⟩ := latitudeWeights_spec Real.sin (Real.pi / 2) h1 h2 hs.1 ht.1
  rw [e] at e'
  obtain rfl : w = w' := by injection e'
  rw [h t s a b]
  have hr := overlapR_row hs ht h1 a
  unfold overlapR at hr
  unfold normWeight
  beta_reduce
  rw [hr]
  split
  · simp only [latEntry]
    split
    · rfl
    · simp
  · rfl

/-- C38: the area-weighted sum over the target axis of the regridded profile equals that of the source profile, whenever no
target cell is degenerate (area at most 1e-15). -/
theorem C38_latitude_integral {nsrc ntgt : ℕ} (h1 : 0 < nsrc) (h2 : 0 < ntgt) {src tgt : ℕ → ℝ} (hs : Spec.LatAxis nsrc src)
    (ht : Spec.LatAxis ntgt tgt) (harea : ∀ t, t < ntgt → Spec.bandArea ntgt tgt t > 1 / 10 ^ 15) {w : ℕ → ℝ}
    (e : latitudeWeights Real.sin (Real.pi / 2) nsrc src ntgt tgt = .ok w) (f : ℕ → ℝ) :
    ∑ t ∈ Finset.range ntgt, Spec.bandArea ntgt tgt t * ∑ s ∈ Finset.range nsrc, w (t * nsrc + s) * f s =
      ∑ s ∈ Finset.range nsrc, Spec.bandArea nsrc src s * f s := by
  obtain ⟨w', e', h⟩ := latitudeWeights_spec Real.sin (Real.pi / 2) h1 h2 hs.1 ht.1
  rw [e] at e'
  obtain rfl : w = w' := by injection e'
  have key : ∀ t ∈ Finset.range ntgt, Spec.bandArea ntgt tgt t * ∑ s ∈ Finset.range nsrc, w (t * nsrc + s) * f s =
      ∑ s ∈ Finset.range nsrc, overlapR nsrc src ntgt tgt t s * f s := by
    intro t ht'
    have a := Finset.mem_range.mp ht'
    rw [Finset.mul_sum]
    apply Finset.sum_congr rfl
    intro s hs'
    have b := Finset.mem_range.mp hs'
    rw [h t s a b]
    have hr := overlapR_row hs ht h1 a
    have hp : 0 < Spec.bandArea ntgt tgt t := lt_trans (by positivity) (harea t a)
    unfold normWeight
    change Spec.bandArea ntgt tgt t * ((if (∑ k ∈ Finset.range nsrc, overlapR nsrc src ntgt tgt t k) > 1 / 10 ^ 15 then
      overlapR nsrc src ntgt tgt t s / ∑ k ∈ Finset.range nsrc, overlapR nsrc src ntgt tgt t k else 1 / (nsrc : ℝ)) * f s) = _
    rw [hr, if_pos (harea t a)]
    field_simp
  rw [Finset.sum_congr rfl key, Finset.sum_comm]
  apply Finset.sum_congr rfl
  intro s hs'
  rw [← Finset.sum_mul, overlapR_col hs ht h2 (Finset.mem_range.mp hs')]

/-- The bands of an axis cover the sphere: their areas add up to `sin 90° - sin (-90°) = 2`. -/
theorem C38_total_area {n : ℕ} (hn : 0 < n) (x : ℕ → ℝ) : ∑ i ∈ Finset.range n, Spec.bandArea n x i = 2 := by
  unfold Spec.bandArea
  rw [Finset.sum_range_sub fun i => Real.sin (Spec.latEdge (Real.pi / 2) n x i), latEdge_zero, latEdge_last hn]
  simp
  norm_num

end Skyborn.Regrid
