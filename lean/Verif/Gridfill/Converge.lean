import Verif.Gridfill.Props
import Mathlib.LinearAlgebra.FiniteDimensional.Basic
import Mathlib.LinearAlgebra.Dimension.Constructions
import Mathlib.Algebra.Order.Archimedean.Basic

/-!
C58: the relaxation converges geometrically to the unique discrete harmonic extension of the observed values.
-/

namespace Skyborn.Gridfill

open Skyborn

/-- `h` solves the discrete Laplace equation at the missing points and equals `g` at the observed points. -/
structure Spec.Solution {K : Type} [Field K] (nlat nlon : ℕ) (cyclic : Bool) (mask : ℕ → ℕ → ℤ) (g h : ℕ → ℕ → K) : Prop where
  observed : ∀ a b, a < nlat → b < nlon → mask a b = 0 → h a b = g a b
  harmonic : ∀ a b, a < nlat → b < nlon → mask a b ≠ 0 → Spec.avg nlat nlon cyclic h a b = h a b

variable {K : Type} [Field K] [LinearOrder K] [IsStrictOrderedRing K]
variable {nlat nlon : ℕ} {cyclic : Bool} {relaxc : K} {mask : ℕ → ℕ → ℤ}

/-- grid distance -/
def dist (i0 j0 a b : ℕ) : ℕ := (a - i0) + (i0 - a) + (b - j0) + (j0 - b)

/-- neighbour `k` of a point -/
def nbr (nlat nlon : ℕ) (cyclic : Bool) (i j : ℕ) : Fin 4 → ℕ × ℕ
  | 0 => ((longitudeIndices i nlat false).1, j)
  | 1 => ((longitudeIndices i nlat false).2, j)
  | 2 => (i, (longitudeIndices j nlon cyclic).1)
  | 3 => (i, (longitudeIndices j nlon cyclic).2)

theorem nbr_lt (h1 : 3 ≤ nlat) (h2 : 3 ≤ nlon) {i j : ℕ} (hi : i < nlat) (hj : j < nlon) (k : Fin 4) :
    (nbr nlat nlon cyclic i j k).1 < nlat ∧ (nbr nlat nlon cyclic i j k).2 < nlon := by
  fin_cases k
  · exact ⟨(lon_lt h1 hi).1, hj⟩
  · exact ⟨(lon_lt h1 hi).2, hj⟩
  · exact ⟨hi, (lon_lt h2 hj).1⟩
  · exact ⟨hi, (lon_lt h2 hj).2⟩

omit [LinearOrder K] [IsStrictOrderedRing K] in
theorem avg_nbr (h1 : 3 ≤ nlat) (h2 : 3 ≤ nlon) (g : ℕ → ℕ → K) {i j : ℕ} (hi : i < nlat) (hj : j < nlon) :
    Spec.avg nlat nlon cyclic g i j = (∑ k : Fin 4, g (nbr nlat nlon cyclic i j k).1 (nbr nlat nlon cyclic i j k).2) / 4 := by
  unfold Spec.avg
  rw [fold_pred h1 hi, fold_succ h1 hi, fold_pred h2 hj, fold_succ h2 hj, Fin.sum_univ_four]
  rfl

/-- every point other than the base point has a neighbour one step closer to it -/
theorem closer {i0 j0 a b : ℕ} (hi0 : i0 < nlat) (hj0 : j0 < nlon) (ha : a < nlat) (hb : b < nlon) (hne : dist i0 j0 a b ≠ 0) :
    ∃ k, dist i0 j0 (nbr nlat nlon cyclic a b k).1 (nbr nlat nlon cyclic a b k).2 + 1 = dist i0 j0 a b := by
  unfold dist at *
  rcases Nat.lt_trichotomy a i0 with h | h | h
  · refine ⟨1, ?_⟩
    have : (longitudeIndices a nlat false).2 = a + 1 := by
      simp only [longitudeIndices, Bool.false_eq_true, if_false]; rw [if_neg (by omega)]
    simp only [nbr, this]; omega
  · rcases Nat.lt_trichotomy b j0 with h' | h' | h'
    · refine ⟨3, ?_⟩
      have : (longitudeIndices b nlon cyclic).2 = b + 1 := by
        unfold longitudeIndices; cases cyclic <;> simp <;> omega
      simp only [nbr, this]; omega
    · omega
    · refine ⟨2, ?_⟩
      have : (longitudeIndices b nlon cyclic).1 = b - 1 := by
        unfold longitudeIndices; cases cyclic <;> simp <;> omega
      simp only [nbr, this]; omega
  · refine ⟨0, ?_⟩
    have : (longitudeIndices a nlat false).1 = a - 1 := by
      simp only [longitudeIndices, Bool.false_eq_true, if_false]; rw [if_neg (by omega)]
    simp only [nbr, this]; omega

/-- mean of four numbers bounded by `E`, one of them by `F` -/
theorem avg_bound (f : Fin 4 → K) {E F : K} (h : ∀ k, |f k| ≤ E) {k0 : Fin 4} (h0 : |f k0| ≤ F) :
    |(∑ k, f k) / 4| ≤ (3 * E + F) / 4 := by
  have h' : ∀ k, -E ≤ f k ∧ f k ≤ E := fun k => abs_le.mp (h k)
  have h0' := abs_le.mp h0
  rw [abs_div, abs_of_pos (show (0 : K) < 4 by norm_num)]
  apply div_le_div_of_nonneg_right _ (by norm_num)
  rw [Fin.sum_univ_four, abs_le]
  have a0 := h' 0; have a1 := h' 1; have a2 := h' 2; have a3 := h' 3
  fin_cases k0 <;> simp only [Fin.zero_eta, Fin.mk_one, Fin.reduceFinMk] at h0' <;>
    constructor <;> linarith [a0.1, a0.2, a1.1, a1.2, a2.1, a2.2, a3.1, a3.2, h0'.1, h0'.2]

/-- A field that vanishes at the base point, is bounded by `E`, and at every point is either 0 or within `ρ` of the mean of its
neighbours. -/
theorem green_bound (h1 : 3 ≤ nlat) (h2 : 3 ≤ nlon) {i0 j0 : ℕ} (hi0 : i0 < nlat) (hj0 : j0 < nlon) {e : ℕ → ℕ → K} {E ρ : K}
    (hρ : 0 ≤ ρ) (hE : ∀ a b, a < nlat → b < nlon → |e a b| ≤ E) (hbase : e i0 j0 = 0)
    (hres : ∀ a b, a < nlat → b < nlon → e a b = 0 ∨ |Spec.avg nlat nlon cyclic e a b - e a b| ≤ ρ) :
    ∀ a b, a < nlat → b < nlon → |e a b| ≤ (1 - (1 / 4) ^ (nlat + nlon)) * E + 4 / 3 * ρ := by
  have hE0 : 0 ≤ E := le_trans (abs_nonneg _) (hE i0 j0 hi0 hj0)
  have key : ∀ d a b, a < nlat → b < nlon → dist i0 j0 a b = d → |e a b| ≤ (1 - (1 / 4) ^ d) * E + 4 / 3 * ρ := by
    intro d
    induction d with
    | zero =>
      intro a b ha hb hd
      have : a = i0 ∧ b = j0 := by unfold dist at hd; omega
      obtain ⟨rfl, rfl⟩ := this
      rw [hbase]; simp; positivity
    | succ d ih =>
      intro a b ha hb hd
      have hpow : (0 : K) ≤ (1 / 4) ^ d := by positivity
      have hpow1 : ((1 : K) / 4) ^ d ≤ 1 := pow_le_one₀ (by norm_num) (by norm_num)
      rcases hres a b ha hb with h0 | hr
      · rw [h0, abs_zero]
        have : (0 : K) ≤ (1 - (1 / 4) ^ (d + 1)) * E := mul_nonneg (by rw [pow_succ]; linarith) hE0
        linarith
      · obtain ⟨k, hk⟩ := closer (cyclic := cyclic) hi0 hj0 ha hb (by omega)
        have hk1 := nbr_lt (cyclic := cyclic) h1 h2 ha hb k
        have hb1 := ih _ _ hk1.1 hk1.2 (by omega)
        have hav := avg_bound (fun k => e (nbr nlat nlon cyclic a b k).1 (nbr nlat nlon cyclic a b k).2) (E := E)
          (fun k => hE _ _ (nbr_lt h1 h2 ha hb k).1 (nbr_lt h1 h2 ha hb k).2) hb1
        rw [← avg_nbr h1 h2 e ha hb] at hav
        have hr' := abs_le.mp hr
        have hav' := abs_le.mp hav
        rw [pow_succ, abs_le]
        constructor <;> nlinarith [hr'.1, hr'.2, hav'.1, hav'.2]
  intro a b ha hb
  refine le_trans (key _ a b ha hb rfl) ?_
  have hd : dist i0 j0 a b ≤ nlat + nlon := by unfold dist; omega
  have : ((1 : K) / 4) ^ (nlat + nlon) ≤ (1 / 4) ^ dist i0 j0 a b := pow_le_pow_of_le_one (by norm_num) (by norm_num) hd
  nlinarith

/-- a finite grid of values has a largest absolute value, attained -/
theorem exists_max (h1 : 3 ≤ nlat) (h2 : 3 ≤ nlon) (e : ℕ → ℕ → K) : ∃ a b, a < nlat ∧ b < nlon ∧
    ∀ a' b', a' < nlat → b' < nlon → |e a' b'| ≤ |e a b| := by
  obtain ⟨x, hx, hmax⟩ := Finset.exists_max_image (Finset.range nlat ×ˢ Finset.range nlon) (fun p => |e p.1 p.2|)
    ⟨(0, 0), by simp; omega⟩
  rw [Finset.mem_product, Finset.mem_range, Finset.mem_range] at hx
  exact ⟨x.1, x.2, hx.1, hx.2, fun a' b' ha hb => hmax (a', b') (by simp [ha, hb])⟩

/-- stability of the discrete Laplace equation -/
theorem green (h1 : 3 ≤ nlat) (h2 : 3 ≤ nlon) {i0 j0 : ℕ} (hi0 : i0 < nlat) (hj0 : j0 < nlon) {e : ℕ → ℕ → K} {ρ : K}
    (hρ : 0 ≤ ρ) (hbase : e i0 j0 = 0)
    (hres : ∀ a b, a < nlat → b < nlon → e a b = 0 ∨ |Spec.avg nlat nlon cyclic e a b - e a b| ≤ ρ) :
    ∀ a b, a < nlat → b < nlon → |e a b| ≤ 4 ^ (nlat + nlon) * (4 / 3 * ρ) := by
  obtain ⟨a0, b0, ha0, hb0, hmax⟩ := exists_max h1 h2 e
  have := green_bound (cyclic := cyclic) h1 h2 hi0 hj0 hρ hmax hbase hres a0 b0 ha0 hb0
  intro a b ha hb
  refine le_trans (hmax a b ha hb) ?_
  set E := |e a0 b0|
  have hp : (0 : K) < 4 ^ (nlat + nlon) := by positivity
  have hinv : ((1 : K) / 4) ^ (nlat + nlon) = 1 / 4 ^ (nlat + nlon) := by rw [div_pow, one_pow]
  rw [hinv] at this
  have h3 : 1 / 4 ^ (nlat + nlon) * E ≤ 4 / 3 * ρ := by linarith
  rw [div_mul_eq_mul_div, one_mul, div_le_iff₀ hp] at h3
  linarith

omit [LinearOrder K] [IsStrictOrderedRing K] in
theorem avg_sub (f g : ℕ → ℕ → K) (i j : ℕ) :
    Spec.avg nlat nlon cyclic (fun a b => f a b - g a b) i j = Spec.avg nlat nlon cyclic f i j - Spec.avg nlat nlon cyclic g i j := by
  unfold Spec.avg; ring

/-- C58: with at least one observed point, two solutions agree on the whole grid. -/
theorem C58_unique (h1 : 3 ≤ nlat) (h2 : 3 ≤ nlon) (hobs : ∃ a b, a < nlat ∧ b < nlon ∧ mask a b = 0) {g h h' : ℕ → ℕ → K}
    (hs : Spec.Solution nlat nlon cyclic mask g h) (hs' : Spec.Solution nlat nlon cyclic mask g h') :
    ∀ a b, a < nlat → b < nlon → h a b = h' a b := by
  obtain ⟨i0, j0, hi0, hj0, hm0⟩ := hobs
  intro a b ha hb
  have := green (cyclic := cyclic) h1 h2 hi0 hj0 (e := fun a b => h a b - h' a b) (ρ := 0) le_rfl
    (by rw [hs.observed _ _ hi0 hj0 hm0, hs'.observed _ _ hi0 hj0 hm0, sub_self])
    (by
      intro a b ha hb
      by_cases hm : mask a b = 0
      · left; rw [hs.observed _ _ ha hb hm, hs'.observed _ _ ha hb hm, sub_self]
      · right
        rw [avg_sub, hs.harmonic a b ha hb hm, hs'.harmonic a b ha hb hm]; simp) a b ha hb
  simp only [mul_zero] at this
  have := abs_nonpos_iff.mp this
  exact sub_eq_zero.mp this

/-- values on the grid extended by 0 -/
def ext (nlat nlon : ℕ) (v : Fin nlat × Fin nlon → K) (a b : ℕ) : K :=
  if h : a < nlat ∧ b < nlon then v (⟨a, h.1⟩, ⟨b, h.2⟩) else 0

/-- the linear system: identity at observed points, discrete Laplacian at missing points -/
def system (nlat nlon : ℕ) (cyclic : Bool) (mask : ℕ → ℕ → ℤ) : (Fin nlat × Fin nlon → K) →ₗ[K] (Fin nlat × Fin nlon → K) where
  toFun v x := if mask x.1 x.2 = 0 then v x else Spec.avg nlat nlon cyclic (ext nlat nlon v) x.1 x.2 - v x
  map_add' v w := by
    have : ∀ a b, ext nlat nlon (v + w) a b = ext nlat nlon v a b + ext nlat nlon w a b := by
      intro a b; unfold ext; split <;> simp
    funext x
    simp only [Pi.add_apply]
    split
    · rfl
    · unfold Spec.avg; simp only [this]; ring
  map_smul' c v := by
    have : ∀ a b, ext nlat nlon (c • v) a b = c * ext nlat nlon v a b := by
      intro a b; unfold ext; split <;> simp
    funext x
    simp only [Pi.smul_apply, smul_eq_mul, RingHom.id_apply]
    split
    · rfl
    · unfold Spec.avg; simp only [this]; ring

/-- C58: with at least one observed point, the discrete Laplace equation has a solution. -/
theorem C58_exists (h1 : 3 ≤ nlat) (h2 : 3 ≤ nlon) (cyclic : Bool) (hobs : ∃ a b, a < nlat ∧ b < nlon ∧ mask a b = 0) (g : ℕ → ℕ → K) :
    ∃ h, Spec.Solution nlat nlon cyclic mask g h := by
  have hinj : Function.Injective (system (K := K) nlat nlon cyclic mask) := by
    rw [injective_iff_map_eq_zero]
    intro v hv
    have hz : Spec.Solution nlat nlon cyclic mask (fun _ _ => 0) (ext nlat nlon v) := by
      constructor
      · intro a b ha hb hm
        have := congrFun hv (⟨a, ha⟩, ⟨b, hb⟩)
        simp only [system, LinearMap.coe_mk, AddHom.coe_mk, hm, if_true, Pi.zero_apply] at this
        simp [ext, ha, hb, this]
      · intro a b ha hb hm
        have := congrFun hv (⟨a, ha⟩, ⟨b, hb⟩)
        simp only [system, LinearMap.coe_mk, AddHom.coe_mk, hm, if_false, Pi.zero_apply] at this
        rw [sub_eq_zero] at this
        rw [this]
        simp [ext, ha, hb]
    have h0 : Spec.Solution nlat nlon cyclic mask (fun _ _ => 0) (fun _ _ => (0 : K)) := ⟨fun _ _ _ _ _ => rfl, fun a b _ _ _ => avg_const 0 a b⟩
    funext x
    have := C58_unique h1 h2 hobs hz h0 x.1 x.2 x.1.2 x.2.2
    simpa [ext] using this
  obtain ⟨v, hv⟩ := (LinearMap.injective_iff_surjective.mp hinj) fun x => if mask x.1 x.2 = 0 then g x.1 x.2 else 0
  refine ⟨ext nlat nlon v, ?_, ?_⟩
  · intro a b ha hb hm
    have := congrFun hv (⟨a, ha⟩, ⟨b, hb⟩)
    simp only [system, LinearMap.coe_mk, AddHom.coe_mk, hm, if_true] at this
    simp [ext, ha, hb, this]
  · intro a b ha hb hm
    have := congrFun hv (⟨a, ha⟩, ⟨b, hb⟩)
    simp only [system, LinearMap.coe_mk, AddHom.coe_mk, hm, if_false] at this
    rw [sub_eq_zero] at this
    rw [this]
    simp [ext, ha, hb]

/-- C30: the exact solution on a cyclic grid commutes with shifting the grid in longitude. -/
theorem C30_shift (h1 : 3 ≤ nlat) (h2 : 3 ≤ nlon) (k : ℕ) {g h h' : ℕ → ℕ → K}
    (hobs : ∃ a b, a < nlat ∧ b < nlon ∧ mask a b = 0)
    (hs : Spec.Solution nlat nlon true mask g h)
    (hs' : Spec.Solution nlat nlon true (fun a b => mask a ((b + k) % nlon)) (fun a b => g a ((b + k) % nlon)) h') :
    ∀ a b, a < nlat → b < nlon → h' a b = h a ((b + k) % nlon) := by
  have hpos : 0 < nlon := by omega
  have hobs' : ∃ a b, a < nlat ∧ b < nlon ∧ (fun a b => mask a ((b + k) % nlon)) a b = 0 := by
    obtain ⟨a, b, ha, hb, hm⟩ := hobs
    refine ⟨a, (b + (nlon - k % nlon)) % nlon, ha, Nat.mod_lt _ hpos, ?_⟩
    have : ((b + (nlon - k % nlon)) % nlon + k) % nlon = b := by
      have hk := Nat.mod_lt k hpos
      rw [Nat.mod_add_mod]
      conv_lhs => rw [← Nat.div_add_mod k nlon]
      rw [show b + (nlon - (nlon * (k / nlon) + k % nlon) % nlon) + (nlon * (k / nlon) + k % nlon) =
        b + (nlon - (nlon * (k / nlon) + k % nlon) % nlon) + k % nlon + nlon * (k / nlon) by ring, Nat.add_mul_mod_self_left,
        Nat.mul_add_mod, Nat.mod_mod, show b + (nlon - k % nlon) + k % nlon = b + nlon by omega, Nat.add_mod_right, Nat.mod_eq_of_lt hb]
    simp only [this, hm]
  apply C58_unique h1 h2 hobs' hs'
  constructor
  · intro a b ha hb hm
    exact hs.observed a _ ha (Nat.mod_lt _ hpos) hm
  · intro a b ha hb hm
    have e := hs.harmonic a ((b + k) % nlon) ha (Nat.mod_lt _ hpos) hm
    rw [← e]
    unfold Spec.avg
    rw [fold_pred h2 hb, fold_succ h2 hb, fold_pred h2 (Nat.mod_lt (b + k) hpos), fold_succ h2 (Nat.mod_lt (b + k) hpos)]
    have c1 := (C30_neighbours (nlat := 3) le_rfl h2 true (i := 0) (by omega) hb).2.2.2.2.2.1
    have c2 := (C30_neighbours (nlat := 3) le_rfl h2 true (i := 0) (by omega) (Nat.mod_lt (b + k) hpos)).2.2.2.2.2.1
    rw [c1, c2]
    have e1 : ((b + nlon - 1) % nlon + k) % nlon = ((b + k) % nlon + nlon - 1) % nlon := by
      rw [Nat.mod_add_mod, Nat.add_sub_assoc (by omega), Nat.add_sub_assoc (by omega), Nat.mod_add_mod]
      congr 1; omega
    have e2 : ((b + 1) % nlon + k) % nlon = ((b + k) % nlon + 1) % nlon := by
      rw [Nat.mod_add_mod, Nat.mod_add_mod]; congr 1; omega
    simp only [e1, e2]

/-! ### Contraction -/

/-- repeated sweeps -/
def sweepIter (nlat nlon : ℕ) (cyclic : Bool) (relaxc : K) (mask : ℕ → ℕ → ℤ) : ℕ → (ℕ → ℕ → K) → Option (ℕ → ℕ → K)
  | 0, g => some g
  | n + 1, g => do
    let r ← sweep nlat nlon cyclic relaxc mask g
    sweepIter nlat nlon cyclic relaxc mask n r.1

/-- error bounded by `E` everywhere, and by `(1 - δ^d) E` at distance `d ≤ k` from the base point -/
def ErrBound (nlat nlon i0 j0 : ℕ) (δ E : K) (k : ℕ) (g h : ℕ → ℕ → K) : Prop :=
  ∀ a b, a < nlat → b < nlon → |g a b - h a b| ≤ E ∧ (dist i0 j0 a b ≤ k → |g a b - h a b| ≤ (1 - δ ^ dist i0 j0 a b) * E)

theorem sweep_err (h1 : 3 ≤ nlat) (h2 : 3 ≤ nlon) (hr0 : 0 < relaxc) (hr1 : relaxc ≤ 1) {i0 j0 : ℕ} (hi0 : i0 < nlat) (hj0 : j0 < nlon)
    (hm0 : mask i0 j0 = 0) {g h g' : ℕ → ℕ → K} {r E : K} {k : ℕ} (hs : Spec.Solution nlat nlon cyclic mask g h)
    (hE : ErrBound nlat nlon i0 j0 (relaxc / 4) E k g h) (e : sweep nlat nlon cyclic relaxc mask g = some (g', r)) :
    ErrBound nlat nlon i0 j0 (relaxc / 4) E (k + 1) g' h ∧ Spec.Solution nlat nlon cyclic mask g' h := by
  obtain ⟨g1, r1, e1, p1, p2, -⟩ := sweep_spec (cyclic := cyclic) (relaxc := relaxc) (mask := mask) h1 h2 g
  rw [e] at e1
  simp only [Option.some.injEq, Prod.mk.injEq] at e1
  obtain ⟨rfl, rfl⟩ := e1
  have hE0 : 0 ≤ E := le_trans (abs_nonneg _) (hE i0 j0 hi0 hj0).1
  have hall : ∀ a b, a < nlat → b < nlon → |g' a b - h a b| ≤ E := by
    have hav : ∀ (c : K) a b, Spec.avg nlat nlon cyclic (fun a b => h a b + c) a b = Spec.avg nlat nlon cyclic h a b + c := by
      intro c a b; unfold Spec.avg; ring
    obtain ⟨g2, r2, e2, hb⟩ := sweep_compare (cyclic := cyclic) (mask := mask) (lo := fun a b => h a b + -E) (hi := fun a b => h a b + E) (g := g)
      h1 h2 hr0.le hr1 (fun a b ha hb hm => by rw [hav, hs.harmonic a b ha hb hm])
      (fun a b ha hb hm => by rw [hav, hs.harmonic a b ha hb hm])
      (fun a b ha hb => by
        have := abs_le.mp (hE a b ha hb).1
        constructor <;> linarith [this.1, this.2])
    rw [e] at e2
    simp only [Option.some.injEq, Prod.mk.injEq] at e2
    obtain ⟨rfl, rfl⟩ := e2
    intro a b ha hb'
    have := hb a b ha hb'
    rw [abs_le]; constructor <;> linarith [this.1, this.2]
  have hδ0 : 0 ≤ relaxc / 4 := by positivity
  have hδ1 : relaxc / 4 ≤ 1 := by linarith
  have hobs : ∀ a b, a < nlat → b < nlon → mask a b = 0 → g' a b = h a b := fun a b ha hb hm => by
    rw [p1 a b (by tauto), hs.observed a b ha hb hm]
  have hlev : ∀ d, d ≤ k + 1 → ∀ a b, a < nlat → b < nlon → dist i0 j0 a b = d → |g' a b - h a b| ≤ (1 - (relaxc / 4) ^ d) * E := by
    intro d
    induction d with
    | zero =>
      intro _ a b ha hb hd
      have : a = i0 ∧ b = j0 := by unfold dist at hd; omega
      obtain ⟨rfl, rfl⟩ := this
      rw [hobs a b ha hb hm0]; simp
    | succ d ih =>
      intro hdk a b ha hb hd
      have hp0 : 0 ≤ (relaxc / 4) ^ d := pow_nonneg hδ0 d
      have hp1 : (relaxc / 4) ^ d ≤ 1 := pow_le_one₀ hδ0 hδ1
      by_cases hm : mask a b = 0
      · rw [hobs a b ha hb hm, sub_self, abs_zero]
        exact mul_nonneg (sub_nonneg.mpr (pow_le_one₀ hδ0 hδ1)) hE0
      · obtain ⟨f, hf, hab⟩ := p2 a b ha hb hm
        obtain ⟨q, hq⟩ := closer (cyclic := cyclic) hi0 hj0 ha hb (by omega)
        have hq1 := nbr_lt (cyclic := cyclic) h1 h2 ha hb q
        have hfE : ∀ x y, x < nlat → y < nlon → |f x y - h x y| ≤ E := by
          intro x y hx hy
          rcases hf x y with h | h <;> rw [h]
          · exact (hE x y hx hy).1
          · exact hall x y hx hy
        have hfq : |f (nbr nlat nlon cyclic a b q).1 (nbr nlat nlon cyclic a b q).2 - h (nbr nlat nlon cyclic a b q).1 (nbr nlat nlon cyclic a b q).2| ≤
            (1 - (relaxc / 4) ^ d) * E := by
          have hdq : dist i0 j0 (nbr nlat nlon cyclic a b q).1 (nbr nlat nlon cyclic a b q).2 = d := by omega
          rcases hf (nbr nlat nlon cyclic a b q).1 (nbr nlat nlon cyclic a b q).2 with h | h <;> rw [h]
          · have := (hE _ _ hq1.1 hq1.2).2 (by omega)
            rwa [hdq] at this
          · exact ih (by omega) _ _ hq1.1 hq1.2 hdq
        have hav := avg_bound (fun k => f (nbr nlat nlon cyclic a b k).1 (nbr nlat nlon cyclic a b k).2 -
          h (nbr nlat nlon cyclic a b k).1 (nbr nlat nlon cyclic a b k).2) (E := E)
          (fun k => hfE _ _ (nbr_lt h1 h2 ha hb k).1 (nbr_lt h1 h2 ha hb k).2) hfq
        rw [← avg_nbr h1 h2 (fun a b => f a b - h a b) ha hb, avg_sub, hs.harmonic a b ha hb hm] at hav
        have hav' := abs_le.mp hav
        have hold := abs_le.mp (hE a b ha hb).1
        set A := Spec.avg nlat nlon cyclic f a b
        have hnew : g' a b - h a b = (1 - relaxc) * (g a b - h a b) + relaxc * (A - h a b) := by rw [hab]; ring
        have hpow : (relaxc / 4) ^ (d + 1) = relaxc * (relaxc / 4) ^ d / 4 := by rw [pow_succ]; ring
        have hr1' : 0 ≤ 1 - relaxc := by linarith
        rw [hnew, hpow, abs_le]
        constructor
        · nlinarith [mul_le_mul_of_nonneg_left hold.1 hr1', mul_le_mul_of_nonneg_left hav'.1 hr0.le]
        · nlinarith [mul_le_mul_of_nonneg_left hold.2 hr1', mul_le_mul_of_nonneg_left hav'.2 hr0.le]
  refine ⟨fun a b ha hb => ⟨hall a b ha hb, fun hd => hlev _ hd a b ha hb rfl⟩, ?_, hs.harmonic⟩
  intro a b ha hb hm
  exact (hobs a b ha hb hm).symm

theorem iter_err (h1 : 3 ≤ nlat) (h2 : 3 ≤ nlon) (hr0 : 0 < relaxc) (hr1 : relaxc ≤ 1) {i0 j0 : ℕ} (hi0 : i0 < nlat) (hj0 : j0 < nlon)
    (hm0 : mask i0 j0 = 0) {h : ℕ → ℕ → K} {E : K} : ∀ n k (g : ℕ → ℕ → K), Spec.Solution nlat nlon cyclic mask g h →
      ErrBound nlat nlon i0 j0 (relaxc / 4) E k g h →
      ∃ g', sweepIter nlat nlon cyclic relaxc mask n g = some g' ∧ ErrBound nlat nlon i0 j0 (relaxc / 4) E (k + n) g' h ∧
        Spec.Solution nlat nlon cyclic mask g' h := by
  intro n
  induction n with
  | zero => intro k g hs hE; exact ⟨g, rfl, hE, hs⟩
  | succ n ih =>
    intro k g hs hE
    obtain ⟨g1, r1, e1, -⟩ := sweep_spec (cyclic := cyclic) (relaxc := relaxc) (mask := mask) h1 h2 g
    obtain ⟨hE1, hs1⟩ := sweep_err h1 h2 hr0 hr1 hi0 hj0 hm0 hs hE e1
    obtain ⟨g', e, hE', hs'⟩ := ih (k + 1) g1 hs1 hE1
    refine ⟨g', by simp [sweepIter, e1, e], ?_, hs'⟩
    rwa [show k + (n + 1) = k + 1 + n by omega]

omit [IsStrictOrderedRing K] in
theorem sweepIter_add (m n : ℕ) (g : ℕ → ℕ → K) : sweepIter nlat nlon cyclic relaxc mask (m + n) g =
    (sweepIter nlat nlon cyclic relaxc mask m g).bind (sweepIter nlat nlon cyclic relaxc mask n) := by
  induction m generalizing g with
  | zero => simp [sweepIter]
  | succ m ih =>
    rw [show m + 1 + n = (m + n) + 1 by omega]
    simp only [sweepIter, Option.bind_eq_bind]
    cases sweep nlat nlon cyclic relaxc mask g with
    | none => rfl
    | some r => simp only [Option.bind_some]; exact ih r.1

/-- C58: geometric convergence. After `m (nlat + nlon)` or more sweeps, the error with respect to the exact solution is at most
`(1 - (relax/4)^(nlat+nlon))^m` times the initial error. -/
theorem geometric (h1 : 3 ≤ nlat) (h2 : 3 ≤ nlon) (hr0 : 0 < relaxc) (hr1 : relaxc ≤ 1)
    (hobs : ∃ a b, a < nlat ∧ b < nlon ∧ mask a b = 0) {h : ℕ → ℕ → K} : ∀ m n (g : ℕ → ℕ → K) (E : K), m * (nlat + nlon) ≤ n →
      Spec.Solution nlat nlon cyclic mask g h → (∀ a b, a < nlat → b < nlon → |g a b - h a b| ≤ E) →
      ∃ g', sweepIter nlat nlon cyclic relaxc mask n g = some g' ∧ Spec.Solution nlat nlon cyclic mask g' h ∧
        ∀ a b, a < nlat → b < nlon → |g' a b - h a b| ≤ (1 - (relaxc / 4) ^ (nlat + nlon)) ^ m * E := by
  obtain ⟨i0, j0, hi0, hj0, hm0⟩ := hobs
  have hδ0 : 0 ≤ relaxc / 4 := by positivity
  have hδ1 : relaxc / 4 ≤ 1 := by linarith
  have base : ∀ (g : ℕ → ℕ → K) (E : K), Spec.Solution nlat nlon cyclic mask g h → (∀ a b, a < nlat → b < nlon → |g a b - h a b| ≤ E) →
      ErrBound nlat nlon i0 j0 (relaxc / 4) E 0 g h := by
    intro g E hs hE a b ha hb
    refine ⟨hE a b ha hb, fun hd => ?_⟩
    have hd0 : dist i0 j0 a b = 0 := by omega
    have : a = i0 ∧ b = j0 := by unfold dist at hd0; omega
    obtain ⟨rfl, rfl⟩ := this
    rw [hd0, hs.observed a b ha hb hm0]; simp
  intro m
  induction m with
  | zero =>
    intro n g E _ hs hE
    obtain ⟨g', e, hE', hs'⟩ := iter_err h1 h2 hr0 hr1 hi0 hj0 hm0 n 0 g hs (base g E hs hE)
    exact ⟨g', e, hs', fun a b ha hb => by rw [pow_zero, one_mul]; exact (hE' a b ha hb).1⟩
  | succ m ih =>
    intro n g E hn hs hE
    obtain ⟨n', rfl⟩ : ∃ n', n = (nlat + nlon) + n' := ⟨n - (nlat + nlon), by rw [Nat.succ_mul] at hn; omega⟩
    obtain ⟨g1, e1, hE1, hs1⟩ := iter_err h1 h2 hr0 hr1 hi0 hj0 hm0 (nlat + nlon) 0 g hs (base g E hs hE)
    have hE0 : 0 ≤ E := le_trans (abs_nonneg _) (hE i0 j0 hi0 hj0)
    have hb1 : ∀ a b, a < nlat → b < nlon → |g1 a b - h a b| ≤ (1 - (relaxc / 4) ^ (nlat + nlon)) * E := by
      intro a b ha hb
      have hd : dist i0 j0 a b ≤ nlat + nlon := by unfold dist; omega
      refine le_trans ((hE1 a b ha hb).2 (by omega)) (mul_le_mul_of_nonneg_right ?_ hE0)
      have := pow_le_pow_of_le_one hδ0 hδ1 hd
      linarith
    obtain ⟨g', e, hs', hb'⟩ := ih n' g1 _ (by rw [Nat.succ_mul] at hn; omega) hs1 hb1
    refine ⟨g', by rw [sweepIter_add, e1]; exact e, hs', fun a b ha hb => ?_⟩
    rw [pow_succ, mul_assoc]; exact hb' a b ha hb

omit [IsStrictOrderedRing K] in
/-- the relaxation loop makes `numiter` sweeps, and fewer than allowed only below the tolerance -/
theorem relaxLoop_iter (tol : K) : ∀ left (g : ℕ → ℕ → K) n r g' n' r',
    relaxLoop nlat nlon cyclic relaxc tol mask left g n r = some (g', n', r') →
    ∃ k, k ≤ left ∧ n' = n + k ∧ sweepIter nlat nlon cyclic relaxc mask k g = some g' ∧ (¬ r' ≤ tol → k = left) ∧
      (left ≠ 0 → ∃ gp, sweepIter nlat nlon cyclic relaxc mask (k - 1) g = some gp ∧ sweep nlat nlon cyclic relaxc mask gp = some (g', r') ∧ k ≠ 0) := by
  intro left
  induction left with
  | zero =>
    intro g n r g' n' r' e
    simp only [relaxLoop, Option.some.injEq, Prod.mk.injEq] at e
    obtain ⟨rfl, rfl, rfl⟩ := e
    exact ⟨0, le_rfl, rfl, rfl, fun _ => rfl, fun h => absurd rfl h⟩
  | succ left ih =>
    intro g n r g' n' r' e
    unfold relaxLoop at e
    cases hs : sweep nlat nlon cyclic relaxc mask g with
    | none => rw [hs] at e; simp at e
    | some q =>
      obtain ⟨g1, r1⟩ := q
      rw [hs] at e
      simp only [Option.bind_eq_bind, Option.bind_some] at e
      by_cases ht : r1 ≤ tol
      · rw [if_pos ht] at e
        simp only [Option.pure_def, Option.some.injEq, Prod.mk.injEq] at e
        obtain ⟨rfl, rfl, rfl⟩ := e
        exact ⟨1, by omega, rfl, by simp [sweepIter, hs], fun h => absurd ht h, fun _ => ⟨g, rfl, hs, by omega⟩⟩
      · rw [if_neg ht] at e
        obtain ⟨k, hk, hn, hi, hc, hl⟩ := ih g1 (n + 1) r1 g' n' r' e
        refine ⟨k + 1, by omega, by omega, by simp [sweepIter, hs, hi], fun h => by rw [hc h], fun _ => ?_⟩
        by_cases hz : left = 0
        · have hk0 : k = 0 := by omega
          subst hk0
          subst hz
          simp only [relaxLoop, Option.some.injEq, Prod.mk.injEq] at e
          obtain ⟨rfl, -, rfl⟩ := e
          exact ⟨g, rfl, hs, by omega⟩
        · obtain ⟨gp, h1, h2, h3⟩ := hl hz
          refine ⟨gp, ?_, h2, by omega⟩
          obtain ⟨k', rfl⟩ : ∃ k', k = k' + 1 := ⟨k - 1, by omega⟩
          simp only [Nat.add_sub_cancel] at h1 ⊢
          simp [sweepIter, hs, h1]

/-- C58: with at least one observed and one missing point and the relaxation constant in `(0, 1]`, there is a geometric rate
`q < 1` depending only on the grid size and the relaxation constant such that, when the tolerance is negative (never met), the
result of `fill` with `itermax ≥ m (nlat + nlon)` is within `q^m E` of the exact solution `h` of the discrete Laplace equation,
where `E` bounds the error of the initial guess `g1`. -/
theorem C58_geometric (h1 : 3 ≤ nlat) (h2 : 3 ≤ nlon) (o : Opts K) (hr0 : 0 < o.relaxc) (hr1 : o.relaxc ≤ 1) (ht : o.tolerance < 0)
    (hm : IsMask nlat nlon mask) (hobs : ∃ a b, a < nlat ∧ b < nlon ∧ mask a b = 0) (hmiss : ∃ a b, Missing nlat nlon mask a b)
    {g h g1 : ℕ → ℕ → K} (hs : Spec.Solution nlat nlon o.cyclic mask g h) (hinit : poissonFill nlat nlon { o with itermax := 0 } mask g = some (g1, 0, 0))
    {E : K} (hE : ∀ a b, a < nlat → b < nlon → |g1 a b - h a b| ≤ E) (m : ℕ) (hit : m * (nlat + nlon) ≤ o.itermax) :
    ∃ g' n r, poissonFill nlat nlon o mask g = some (g', n, r) ∧ ∀ a b, a < nlat → b < nlon →
      |g' a b - h a b| ≤ (1 - (o.relaxc / 4) ^ (nlat + nlon)) ^ m * E := by
  have hsum : (∑ i ∈ Finset.range nlat, ∑ j ∈ Finset.range nlon, mask i j) ≠ 0 := by
    rw [Ne, intSum_zero hm]
    push Not
    exact hmiss
  obtain ⟨g2, e2, hob⟩ := init_total (nlat := nlat) (mask := mask) h2 o g
  have hg : g2 = g1 := by
    have := itermax_zero_init h1 h2 { o with itermax := 0 } rfl g g2 hm hmiss e2
    rw [hinit] at this
    simp only [Option.some.injEq, Prod.mk.injEq, and_true] at this
    exact this.symm
  subst hg
  have hs1 : Spec.Solution nlat nlon o.cyclic mask g2 h :=
    ⟨fun a b ha hb hab => by rw [hs.observed a b ha hb hab, hob a b (fun hh => hh.2.2 hab)], hs.harmonic⟩
  obtain ⟨g', n, r, e, -⟩ := poissonFill_spec h1 h2 o g g2 hsum e2 (fun _ => True) (fun _ _ _ _ _ => trivial) trivial
  refine ⟨g', n, r, e, ?_⟩
  have e' := e
  unfold poissonFill at e'
  rw [intSum_eq] at e'
  simp only [Option.bind_eq_bind, Option.bind_some, if_neg hsum, e2] at e'
  obtain ⟨k, hk, hn, hiter, hc, hl⟩ := relaxLoop_iter _ _ _ _ _ _ _ _ e'
  obtain ⟨g3, e3, -, hb⟩ := geometric (cyclic := o.cyclic) (relaxc := o.relaxc) (mask := mask) h1 h2 hr0 hr1 hobs m o.itermax g2 E hit hs1 hE
  have hkit : k = o.itermax := by
    by_cases hz : o.itermax = 0
    · omega
    · obtain ⟨gp, -, hsw, -⟩ := hl hz
      obtain ⟨a1, a2, a3, -, -, hr, -⟩ := sweep_spec (cyclic := o.cyclic) (relaxc := o.relaxc) (mask := mask) h1 h2 gp
      rw [hsw] at a3
      simp only [Option.some.injEq, Prod.mk.injEq] at a3
      obtain ⟨rfl, rfl⟩ := a3
      exact hc (by linarith)
  rw [hkit, e3] at hiter
  simp only [Option.some.injEq] at hiter
  subst hiter
  exact hb

/-- C58: in an Archimedean field (the reals), for every positive tolerance there is a number of iterations from which on the run is
reported converged. -/
theorem C58_terminates_converged [Archimedean K] (h1 : 3 ≤ nlat) (h2 : 3 ≤ nlon) (o : Opts K) (hr0 : 0 < o.relaxc) (hr1 : o.relaxc ≤ 1)
    (ht : 0 < o.tolerance) (hm : IsMask nlat nlon mask) (hobs : ∃ a b, a < nlat ∧ b < nlon ∧ mask a b = 0) (g : ℕ → ℕ → K) :
    ∃ N, ∀ itermax, N ≤ itermax → ∃ g' n r, poissonFill nlat nlon { o with itermax := itermax } mask g = some (g', n, r) ∧ r ≤ o.tolerance := by
  by_cases hsum : (∑ i ∈ Finset.range nlat, ∑ j ∈ Finset.range nlon, mask i j) = 0
  · refine ⟨0, fun itermax _ => ⟨g, 0, 0, ?_, ht.le⟩⟩
    unfold poissonFill
    rw [intSum_eq]
    simp [hsum]
  obtain ⟨g1, e1, hob⟩ := init_total (nlat := nlat) (mask := mask) h2 o g
  obtain ⟨h, hs⟩ := C58_exists h1 h2 o.cyclic hobs g
  have hs1 : Spec.Solution nlat nlon o.cyclic mask g1 h :=
    ⟨fun a b ha hb hab => by rw [hs.observed a b ha hb hab, hob a b (fun hh => hh.2.2 hab)], hs.harmonic⟩
  obtain ⟨a0, b0, ha0, hb0, hmax⟩ := exists_max h1 h2 fun a b => g1 a b - h a b
  set E := |g1 a0 b0 - h a0 b0| with hEdef
  have hE0 : 0 ≤ E := abs_nonneg _
  set q : K := 1 - (o.relaxc / 4) ^ (nlat + nlon) with hq
  have hδ0 : 0 < o.relaxc / 4 := by positivity
  have hδ1 : o.relaxc / 4 ≤ 1 := by linarith
  have hq1 : q < 1 := by
    have := pow_pos hδ0 (nlat + nlon)
    linarith
  have hq0 : 0 ≤ q := sub_nonneg.mpr (pow_le_one₀ hδ0.le hδ1)
  obtain ⟨m, hmq⟩ := exists_pow_lt_of_lt_one (show 0 < o.tolerance / (2 * E + 1) by positivity) hq1
  have hsmall : 2 * (q ^ m * E) ≤ o.tolerance := by
    rw [lt_div_iff₀ (by positivity)] at hmq
    have := pow_nonneg hq0 m
    nlinarith
  refine ⟨m * (nlat + nlon) + 1, fun itermax hN => ?_⟩
  obtain ⟨g', n, r, e, -⟩ := poissonFill_spec h1 h2 { o with itermax := itermax } g g1 hsum e1 (fun _ => True) (fun _ _ _ _ _ => trivial) trivial
  refine ⟨g', n, r, e, ?_⟩
  by_contra hcon
  unfold poissonFill at e
  rw [intSum_eq] at e
  simp only [Option.bind_eq_bind, Option.bind_some, if_neg hsum, e1] at e
  obtain ⟨k, hk, hn, hiter, hc, hl⟩ := relaxLoop_iter _ _ _ _ _ _ _ _ e
  have hkit : k = itermax := hc hcon
  obtain ⟨gp, hgp, hsw, -⟩ := hl (by omega)
  obtain ⟨g3, e3, -, hb⟩ := geometric (cyclic := o.cyclic) (relaxc := o.relaxc) (mask := mask) h1 h2 hr0 hr1 hobs m (k - 1) g1 E
    (by omega) hs1 hmax
  rw [hgp] at e3
  simp only [Option.some.injEq] at e3
  subst e3
  obtain ⟨g4, e4, hs4, hb4⟩ := geometric (cyclic := o.cyclic) (relaxc := o.relaxc) (mask := mask) h1 h2 hr0 hr1 hobs m k g1 E
    (by omega) hs1 hmax
  rw [hiter] at e4
  simp only [Option.some.injEq] at e4
  subst e4
  obtain ⟨a1, a2, a3, -, -, -, -, hr⟩ := sweep_spec (cyclic := o.cyclic) (relaxc := o.relaxc) (mask := mask) h1 h2 gp
  rw [hsw] at a3
  simp only [Option.some.injEq, Prod.mk.injEq] at a3
  obtain ⟨rfl, rfl⟩ := a3
  rcases hr with hr | ⟨a, b, ha, hb', -, hr⟩
  · exact hcon (by rw [hr]; exact ht.le)
  · apply hcon
    rw [← hr]
    have x := abs_le.mp (hb a b ha hb')
    have y := abs_le.mp (hb4 a b ha hb')
    rw [abs_le]
    constructor <;> linarith [x.1, x.2, y.1, y.2]

/-- C58: a converged result is close to the exact solution, with a constant that depends only on the grid size. -/
theorem C58_converged_error (h1 : 3 ≤ nlat) (h2 : 3 ≤ nlon) (o : Opts K) (hr0 : 0 < o.relaxc) (hr1 : o.relaxc ≤ 1)
    (hit : 1 ≤ o.itermax) (hm : IsMask nlat nlon mask) (hobs : ∃ a b, a < nlat ∧ b < nlon ∧ mask a b = 0) {g h g' : ℕ → ℕ → K} {n : ℕ} {r : K}
    (hs : Spec.Solution nlat nlon o.cyclic mask g h) (e : poissonFill nlat nlon o mask g = some (g', n, r)) (hconv : r ≤ o.tolerance)
    (htol : 0 ≤ o.tolerance) :
    ∀ a b, a < nlat → b < nlon → |g' a b - h a b| ≤ 4 ^ (nlat + nlon) * (4 / 3 * (o.tolerance / o.relaxc)) := by
  obtain ⟨i0, j0, hi0, hj0, hm0⟩ := hobs
  obtain ⟨g2, n2, r2, e2, hob⟩ := C27_observed_unchanged (mask := mask) h1 h2 o g
  rw [e] at e2
  simp only [Option.some.injEq, Prod.mk.injEq] at e2
  obtain ⟨rfl, rfl, rfl⟩ := e2
  have hres := C29_solves_equation h1 h2 o hr0 hr1 hit g hm e hconv
  have hz : ∀ a b, a < nlat → b < nlon → mask a b = 0 → g' a b - h a b = 0 := fun a b ha hb hab => by
    rw [hs.observed a b ha hb hab, hob a b (fun hh => hh.2.2 hab), sub_self]
  apply green (cyclic := o.cyclic) h1 h2 hi0 hj0 (div_nonneg htol hr0.le) (hz i0 j0 hi0 hj0 hm0)
  intro a b ha hb
  by_cases hab : mask a b = 0
  · exact Or.inl (hz a b ha hb hab)
  · right
    rw [avg_sub, hs.harmonic a b ha hb hab]
    have := hres a b ⟨ha, hb, hab⟩
    rwa [show Spec.avg nlat nlon o.cyclic g' a b - h a b - (g' a b - h a b) = Spec.avg nlat nlon o.cyclic g' a b - g' a b by ring]

end Skyborn.Gridfill
