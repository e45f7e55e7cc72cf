/-
Closed forms of the `VectorWind` diagnostics.
-/
import Verif.Sphere.Wind

namespace Skyborn.Sphere

open Skyborn Skyborn.Spectral

variable {I : Inst} {extra : List ℕ}

theorem Good.of_pair (h : Good I (extra ++ [2])) : Good I extra := by
  obtain ⟨h1, h2, h3, h4, h5⟩ := h
  have e : (extra ++ [2]).prod = 2 * extra.prod := by simp [mul_comm]
  rw [e] at h4 h5
  refine ⟨h1, h2, h3, by omega, le_trans (Nat.mul_le_mul_left _ ?_) h5⟩
  have : 4 * extra.prod * I.nlon ≤ 4 * (2 * extra.prod) * I.nlon := Nat.mul_le_mul_right _ (by omega)
  omega

/-! ### Two syntheses in one call -/

theorem spectogrdPair_ok {s t : NDArr ℂ} {T : ℕ} {x y : List ℕ → ℕ → ℕ → ℂ} (hG : Good I (extra ++ [2]))
    (hs : Spec.IsSpectrum T extra s x) (ht : Spec.IsSpectrum T extra t y) (hT : T < I.nlat) :
    ∃ g h, spectogrdPair I s t = .ok (g, h) ∧
      (Spec.IsGrid I.nlat I.nlon extra g fun e i j => Spec.seriesOn (usedS I T) (x e) (I.lat i) (I.lon j)) ∧
      (Spec.IsGrid I.nlat I.nlon extra h fun e i j => Spec.seriesOn (usedS I T) (y e) (I.lat i) (I.lon j)) := by
  set st : NDArr ℂ := ⟨s.shape ++ [2], fun idx => if idx.getLast?.getD 0 = 0 then s.get idx.dropLast else t.get idx.dropLast⟩
    with hst
  have hspec : Spec.IsSpectrum T (extra ++ [2]) st fun e => if e.getLast?.getD 0 = 0 then x e.dropLast else y e.dropLast := by
    refine ⟨by rw [hst]; simp only [hs.1, List.cons_append], fun e he m n h1 h2 => ?_⟩
    obtain ⟨e', k, rfl⟩ : ∃ e' k, e = e' ++ [k] := by
      rcases List.eq_nil_or_concat e with rfl | ⟨e', k, rfl⟩
      · have := he.length; simp at this
      · exact ⟨e', k, by simp⟩
    have he' : InB extra e' := by
      have hl := he.length
      simp only [List.length_append, List.length_cons, List.length_nil] at hl
      exact ((InB_append (by omega)).mp he).1
    simp only [hst, ← List.cons_append, List.getLast?_concat, Option.getD_some, List.dropLast_concat]
    split_ifs
    · exact hs.2 e' he' m n h1 h2
    · exact ht.2 e' he' m n h1 h2
  obtain ⟨g, e1, hg⟩ := spectogrd_ok hG hspec hT
  have hin : ∀ {e : List ℕ} (k : ℕ), k < 2 → InB extra e → InB (extra ++ [2]) (e ++ [k]) := fun k hk he =>
    (InB_append he.length).mpr ⟨he, show InB [2] [k] from ⟨hk, trivial⟩⟩
  have hshape : g.shape.dropLast = I.nlat :: I.nlon :: extra := by
    rw [hg.1, ← List.cons_append, ← List.cons_append, List.dropLast_concat]
  refine ⟨⟨g.shape.dropLast, fun idx => g.get (idx ++ [0])⟩, ⟨g.shape.dropLast, fun idx => g.get (idx ++ [1])⟩, ?_,
    ⟨hshape, fun e he i j hi hj => ?_⟩, ⟨hshape, fun e he i j hi hj => ?_⟩⟩
  · unfold spectogrdPair
    rw [if_neg (by rw [hs.1, ht.1]; simp)]
    simp only [bind, Except.bind, pure, Except.pure]
    rw [← hst, e1]
  · have := hg.2 _ (hin 0 (by omega) he) i j hi hj
    simpa using this
  · have := hg.2 _ (hin 1 (by omega) he) i j hi hj
    simpa using this

/-! ### Rotation by a quarter turn -/

theorem on_rot (a : ℝ) (M : Finset (ℕ × ℕ)) (z : ℕ → ℕ → ℂ) (φ l : ℝ) :
    uOn a M (fun _ _ => 0) z φ l = vOn a M z (fun _ _ => 0) φ l ∧
    vOn a M (fun _ _ => 0) z φ l = - uOn a M z (fun _ _ => 0) φ l := by
  unfold uOn vOn uField vField eastField colatField
  simp only [Complex.zero_re, Complex.zero_im]
  constructor
  · rw [← Finset.sum_neg_distrib]
    refine Finset.sum_congr rfl fun p _ => ?_
    ring
  · congr 1
    refine Finset.sum_congr rfl fun p _ => ?_
    ring

theorem on_congr (a : ℝ) (M : Finset (ℕ × ℕ)) {z d z' d' : ℕ → ℕ → ℂ} (φ l : ℝ)
    (hz : ∀ p ∈ M, z p.1 p.2 = z' p.1 p.2) (hd : ∀ p ∈ M, d p.1 p.2 = d' p.1 p.2) :
    uOn a M z d φ l = uOn a M z' d' φ l ∧ vOn a M z d φ l = vOn a M z' d' φ l :=
  uField_congr fun p hp => by rw [hz p hp, hd p hp]; exact ⟨rfl, rfl, rfl, rfl⟩

/-- The gradient of the inverse Laplacian of a divergence: the irrotational wind with that divergence. -/
theorem grad_invlap_ok {d : NDArr ℂ} {T : ℕ} {y : List ℕ → ℕ → ℕ → ℂ} (hG : Good I extra)
    (hd : Spec.IsSpectrum T extra d y) (hT : T < I.nlat) :
    ∃ s u v, invlapspec I d = .ok s ∧ getgrad I s = .ok (u, v) ∧
      (Spec.IsSpectrum T extra s fun e m n => if n = 0 then 0 else ((-(I.rsphere ^ 2) / (n * (n + 1)) : ℝ) : ℂ) * y e m n) ∧
      (Spec.IsGrid I.nlat I.nlon extra u fun e i j => uOn I.rsphere (usedV I T) (fun _ _ => 0) (y e) (I.lat i) (I.lon j)) ∧
      (Spec.IsGrid I.nlat I.nlon extra v fun e i j => vOn I.rsphere (usedV I T) (fun _ _ => 0) (y e) (I.lat i) (I.lon j)) := by
  obtain ⟨s, e1, hs⟩ := invlapspec_ok (I := I) hd hT
  obtain ⟨u, v, e2, hu, hv⟩ := getgrad_ok hG hs hT
  have key : ∀ e, ∀ p ∈ usedV I T, ((-(p.2 * (p.2 + 1)) / I.rsphere ^ 2 : ℝ) : ℂ) *
      (if p.2 = 0 then 0 else ((-(I.rsphere ^ 2) / (p.2 * (p.2 + 1)) : ℝ) : ℂ) * y e p.1 p.2) = y e p.1 p.2 := by
    intro e p hp
    have h1 := usedV_deg T p hp
    have hn : (1 : ℝ) ≤ p.2 := by exact_mod_cast h1
    have := hG.pos
    rw [if_neg (by omega), ← mul_assoc, ← Complex.ofReal_mul]
    rw [show -(p.2 * (p.2 + 1) : ℝ) / I.rsphere ^ 2 * (-(I.rsphere ^ 2) / (p.2 * (p.2 + 1))) = 1 by field_simp]
    simp
  refine ⟨s, u, v, e1, e2, hs, hu.congr fun e _ i j _ _ => ?_, hv.congr fun e _ i j _ _ => ?_⟩
  · exact (on_congr _ _ _ _ (fun _ _ => rfl) (key e)).1
  · exact (on_congr _ _ _ _ (fun _ _ => rfl) (key e)).2

/-! ### Series over the modes a wind has -/

/-- Coefficients that vanish outside the modes of the vector transforms. -/
def Spec.OnVector (nlat nlon : ℕ) (z : ℕ → ℕ → ℂ) : Prop := ∀ m n, (m, n) ∉ vModes nlat nlon → z m n = 0

theorem onVector_vrt (c : ℕ → ℕ → ℝ × ℝ) : Spec.OnVector I.nlat I.nlon (vrtOf I c) := by
  intro m n h
  unfold vrtOf onModes
  rw [if_neg h, if_neg h]
  exact mul_zero _

theorem onVector_div (c : ℕ → ℕ → ℝ × ℝ) : Spec.OnVector I.nlat I.nlon (divOf I c) := by
  intro m n h
  unfold divOf onModes
  rw [if_neg h, if_neg h]
  exact mul_zero _

theorem vModes_sub {nlat nlon m n : ℕ} (h : (m, n) ∈ vModes nlat nlon) : (m, n) ∈ sModes nlat nlon := by
  rw [mem_vModes] at h; rw [mem_sModes]; omega

theorem series_onVector {z : ℕ → ℕ → ℂ} (h : Spec.OnVector I.nlat I.nlon z) (T : ℕ) (φ l : ℝ) :
    Spec.seriesOn (usedS I T) z φ l = Spec.seriesOn (usedV I T) z φ l := by
  unfold Spec.seriesOn
  symm
  refine Finset.sum_subset ?_ ?_
  · rintro ⟨m, n⟩ hp
    simp only [usedV, usedS, Finset.mem_filter] at hp ⊢
    exact ⟨vModes_sub hp.1, hp.2⟩
  · rintro ⟨m, n⟩ hp hn
    have : (m, n) ∉ vModes I.nlat I.nlon := by
      simp only [usedV, usedS, Finset.mem_filter] at hp hn
      exact fun hc => hn ⟨hc, hp.2⟩
    simp only [h m n this, zero_mul, Complex.zero_re, mul_zero]

theorem onVector_scale {z : ℕ → ℕ → ℂ} (h : Spec.OnVector I.nlat I.nlon z) (c : ℕ → ℂ) :
    Spec.OnVector I.nlat I.nlon fun m n => if n = 0 then 0 else c n * z m n := by
  intro m n hm
  simp only [h m n hm, mul_zero, ite_self]

/-! ### The wind of two spectra -/

/-- `(u, v)` samples on the grid of `I` the fields `U e`, `V e`. -/
def Spec.Samples (I : Inst) (extra : List ℕ) (g : NDArr ℝ) (F : List ℕ → ℝ → ℝ → ℝ) : Prop :=
  Spec.IsGrid I.nlat I.nlon extra g fun e i j => F e (I.lat i) (I.lon j)

theorem invlapspec_series {z : ℕ → ℕ → ℂ} (h : Spec.OnVector I.nlat I.nlon z) (ha : I.rsphere ≠ 0) (T : ℕ) (φ l : ℝ)
    (hc : Real.cos φ ≠ 0) :
    Spec.HasGradient I.rsphere
      (Spec.seriesOn (usedS I T) fun m n => if n = 0 then 0 else ((-(I.rsphere ^ 2) / (n * (n + 1)) : ℝ) : ℂ) * z m n) φ l
      (uOn I.rsphere (usedV I T) (fun _ _ => 0) z φ l) (vOn I.rsphere (usedV I T) (fun _ _ => 0) z φ l) := by
  set x : ℕ → ℕ → ℂ := fun m n => if n = 0 then 0 else ((-(I.rsphere ^ 2) / (n * (n + 1)) : ℝ) : ℂ) * z m n with hx
  have e : Spec.seriesOn (usedS I T) x = Spec.seriesOn (usedV I T) x := by
    funext φ l; exact series_onVector (onVector_scale h _) T φ l
  have g := on_gradient I.rsphere ha (usedV I T) (usedV_deg T) x φ l hc
  have key : ∀ p ∈ usedV I T, ((-(p.2 * (p.2 + 1)) / I.rsphere ^ 2 : ℝ) : ℂ) * x p.1 p.2 = z p.1 p.2 := by
    intro p hp
    have h1 := usedV_deg T p hp
    have hn : (1 : ℝ) ≤ p.2 := by exact_mod_cast h1
    simp only [hx]
    rw [if_neg (by omega), ← mul_assoc, ← Complex.ofReal_mul]
    rw [show -(p.2 * (p.2 + 1) : ℝ) / I.rsphere ^ 2 * (-(I.rsphere ^ 2) / (p.2 * (p.2 + 1))) = 1 by field_simp]
    simp
  have c := on_congr I.rsphere (usedV I T) φ l (z := fun _ _ => 0) (z' := fun _ _ => 0)
    (d := fun m n => ((-(n * (n + 1)) / I.rsphere ^ 2 : ℝ) : ℂ) * x m n) (d' := z) (fun _ _ => rfl) key
  rw [c.1, c.2] at g
  rw [e]; exact g

end Skyborn.Sphere
