/-
`ReducedGaussianSpharmt`: the dictionaries always hold the tables of the grid.
-/
import Verif.RedGauss.Tri
import Verif.RedGauss.Tables
import Verif.RedGauss.Vec
import Verif.RedGauss.Grad

namespace Skyborn.RedGauss

open Skyborn Sphere

/-- What the compiled library is trusted for: symmetric Gaussian rows between the poles, normalised Legendre functions. -/
structure Lib.Sound (lib : Lib) : Prop where
  /-- rows -/ rows : ∀ n, 3 ≤ n → Spec.Rows n (lib.theta n) (lib.weight n)
  /-- functions -/ leg : ∀ n, 3 ≤ n → ∀ m k i, m ≤ k → k ≤ n - 1 → 1 ≤ i → i ≤ (n + 1) / 2 → lib.leg n m k i = pbar m k (lib.theta n i)

/-- A transposed table. -/
def flipT (t : Table) : Table := fun a b => t b a

/-- The module's dictionaries hold what their keys say. -/
structure WorldGood (lib : Lib) (W : World) : Prop where
  /-- workspaces -/ fft : CacheGood W.fft
  /-- functions -/ b : ∀ k t, (k, t) ∈ W.gB → Spec.IsBasis k.1 k.2 (lib.theta k.1) t
  /-- derivatives -/ d : ∀ k t, (k, t) ∈ W.gD → Spec.IsDeriv k.1 k.2 (lib.theta k.1) t
  /-- transposed -/ bT : ∀ k t, (k, t) ∈ W.gBT → Spec.IsBasis k.1 k.2 (lib.theta k.1) (flipT t)
  /-- transposed -/ dT : ∀ k t, (k, t) ∈ W.gDT → Spec.IsDeriv k.1 k.2 (lib.theta k.1) (flipT t)
  /-- rows -/ geom : ∀ n g, (n, g) ∈ W.geom → g.1 = lib.weight n ∧ ∀ j, g.2 j = Real.sin (lib.theta n j)

/-- The object's dictionaries hold what their keys say. -/
structure CachesGood (lib : Lib) (nlat : ℕ) (C : Caches) : Prop where
  /-- functions -/ b : ∀ T t, (T, t) ∈ C.b → Spec.IsBasis nlat T (lib.theta nlat) t
  /-- derivatives -/ d : ∀ T t, (T, t) ∈ C.d → Spec.IsDeriv nlat T (lib.theta nlat) t
  /-- transposed -/ bT : ∀ T t, (T, t) ∈ C.bT → Spec.IsBasis nlat T (lib.theta nlat) (flipT t)
  /-- transposed -/ dT : ∀ T t, (T, t) ∈ C.dT → Spec.IsDeriv nlat T (lib.theta nlat) (flipT t)

/-- The states in which a method of an object with `nlat` rows runs. -/
def Good (lib : Lib) (nlat : ℕ) (s : World × Caches) : Prop := WorldGood lib s.1 ∧ CachesGood lib nlat s.2

theorem worldGood_fresh (lib : Lib) : WorldGood lib World.fresh := by
  constructor <;> simp [World.fresh, cacheGood_none]

theorem cachesGood_fresh (lib : Lib) (n : ℕ) : CachesGood lib n Caches.fresh := by
  constructor <;> simp [Caches.fresh]

/-- What a constructed object holds. -/
structure Cfg.Valid (lib : Lib) (c : Cfg) : Prop where
  /-- rows -/ h3 : 3 ≤ c.nlat
  /-- points per row -/ h4 : ∀ p ∈ c.pl, 4 ≤ p
  /-- radius -/ hr : 0 < c.rsphere
  /-- weights -/ hw : c.weights = lib.weight c.nlat
  /-- sines -/ hs : ∀ j, c.sinTheta j = Real.sin (lib.theta c.nlat j)

theorem mem_lookup {κ : Type} [BEq κ] [LawfulBEq κ] {v : Type} {l : List (κ × v)} {k : κ} {x : v} (h : l.lookup k = some x) : (k, x) ∈ l := by
  induction l with
  | nil => simp at h
  | cons p l ih =>
    obtain ⟨a, b⟩ := p
    rw [List.lookup_cons] at h
    split at h
    · rename_i hk
      have := eq_of_beq hk
      subst this
      simp only [Option.some.injEq] at h
      subst h
      exact List.mem_cons_self
    · exact List.mem_cons_of_mem _ (ih h)

theorem mem_cacheBasis {mx : ℕ} {d : List ((ℕ × ℕ) × Table)} {key k : ℕ × ℕ} {value t : Table} (h : (k, t) ∈ cacheBasis mx d key value) :
    (k, t) ∈ d ∨ (k = key ∧ t = value) := by
  unfold cacheBasis at h
  split_ifs at h with h1 h2
  · exact .inl h
  · rcases List.mem_append.mp h with h | h
    · exact .inl (List.mem_of_mem_tail h)
    · simp at h; exact .inr h
  · rcases List.mem_append.mp h with h | h
    · exact .inl h
    · simp at h; exact .inr h

variable {lib : Lib} {c : Cfg} {T : ℕ}

theorem basisM_tri (hl : lib.Sound) (h3 : 3 ≤ c.nlat) (hT : T ≤ c.nlat - 1) :
    Tri (Good lib c.nlat) (basisM lib c T) (Spec.IsBasis c.nlat T (lib.theta c.nlat)) fun _ => False := by
  intro s hs
  obtain ⟨b, hb, hB⟩ := legendreBasis_isBasis h3 hT (hl.rows _ h3) (leg := lib.leg c.nlat)
    (fun m n i h1 h2 h3' h4 => hl.leg _ h3 m n i h1 (h2.trans hT) h3' h4)
  unfold basisM
  rw [exec_bind_ok (exec_get s)]
  split
  · rename_i t ht
    exact ⟨hs, hs.2.b _ _ (mem_lookup ht)⟩
  · split
    · rename_i t ht
      have := hs.1.b _ _ (mem_lookup ht)
      refine ⟨⟨hs.1, ⟨?_, hs.2.d, hs.2.bT, hs.2.dT⟩⟩, this⟩
      intro T' t' h
      rcases List.mem_append.mp h with h | h
      · exact hs.2.b _ _ h
      · simp at h; rw [h.1, h.2]; exact this
    · rw [hb, exec_bind_ok (exec_raise_ok b s)]
      refine ⟨⟨⟨hs.1.fft, ?_, hs.1.d, hs.1.bT, hs.1.dT, hs.1.geom⟩, ⟨?_, hs.2.d, hs.2.bT, hs.2.dT⟩⟩, hB⟩
      · intro k t h
        rcases mem_cacheBasis h with h | ⟨h, h'⟩
        · exact hs.1.b _ _ h
        · rw [h, h']; exact hB
      · intro T' t' h
        rcases List.mem_append.mp h with h | h
        · exact hs.2.b _ _ h
        · simp at h; rw [h.1, h.2]; exact hB

theorem dbasisM_tri {E : Env} (hE : E.ok) (hl : lib.Sound) (h3 : 3 ≤ c.nlat) (hT : T ≤ c.nlat - 1) :
    Tri (Good lib c.nlat) (dbasisM E lib c T) (Spec.IsDeriv c.nlat T (lib.theta c.nlat)) fun _ => False := by
  intro s hs
  unfold dbasisM
  rw [exec_bind_ok (exec_get s)]
  split
  · rename_i t ht
    exact ⟨hs, hs.2.d _ _ (mem_lookup ht)⟩
  · split
    · rename_i t ht
      have := hs.1.d _ _ (mem_lookup ht)
      refine ⟨⟨hs.1, ⟨hs.2.b, ?_, hs.2.bT, hs.2.dT⟩⟩, this⟩
      intro T' t' h
      rcases List.mem_append.mp h with h | h
      · exact hs.2.d _ _ h
      · simp at h; rw [h.1, h.2]; exact this
    · obtain ⟨b, s', hx, hs', hB⟩ := (basisM_tri hl h3 hT).ok hs
      obtain ⟨d, hd, hD⟩ := legendreDeriv_isDeriv h3 hT (hl.rows _ h3) hB hE
      rw [exec_bind_ok hx, hd, exec_bind_ok (exec_raise_ok d s')]
      refine ⟨⟨⟨hs'.1.fft, hs'.1.b, ?_, hs'.1.bT, hs'.1.dT, hs'.1.geom⟩, ⟨hs'.2.b, ?_, hs'.2.bT, hs'.2.dT⟩⟩, hD⟩
      · intro k t h
        rcases mem_cacheBasis h with h | ⟨h, h'⟩
        · exact hs'.1.d _ _ h
        · rw [h, h']; exact hD
      · intro T' t' h
        rcases List.mem_append.mp h with h | h
        · exact hs'.2.d _ _ h
        · simp at h; rw [h.1, h.2]; exact hD

theorem basisTM_tri (hl : lib.Sound) (h3 : 3 ≤ c.nlat) (hT : T ≤ c.nlat - 1) :
    Tri (Good lib c.nlat) (basisTM lib c T) (fun t => Spec.IsBasis c.nlat T (lib.theta c.nlat) (flipT t)) fun _ => False := by
  intro s hs
  unfold basisTM
  rw [exec_bind_ok (exec_get s)]
  split
  · rename_i t ht
    exact ⟨hs, hs.2.bT _ _ (mem_lookup ht)⟩
  · refine Tri.bind (φ := fun t => Spec.IsBasis c.nlat T (lib.theta c.nlat) (flipT t)) (P := Good lib c.nlat) (ε := fun _ => False) ?_ ?_ s hs
    · intro s hs
      unfold sharedBasisTM
      rw [exec_bind_ok (exec_get s)]
      split
      · rename_i t ht
        exact ⟨hs, hs.1.bT _ _ (mem_lookup ht)⟩
      · refine (basisM_tri hl h3 hT).bind (fun b hb => ?_) s hs
        intro s hs
        refine ⟨⟨⟨hs.1.fft, hs.1.b, hs.1.d, ?_, hs.1.dT, hs.1.geom⟩, hs.2⟩, hb⟩
        intro k t h
        rcases mem_cacheBasis h with h | ⟨h, h'⟩
        · exact hs.1.bT _ _ h
        · rw [h, h']; exact hb
    · intro b hb s hs
      refine ⟨⟨hs.1, ⟨hs.2.b, hs.2.d, ?_, hs.2.dT⟩⟩, hb⟩
      intro T' t' h
      rcases List.mem_append.mp h with h | h
      · exact hs.2.bT _ _ h
      · simp at h; rw [h.1, h.2]; exact hb

theorem dbasisTM_tri {E : Env} (hE : E.ok) (hl : lib.Sound) (h3 : 3 ≤ c.nlat) (hT : T ≤ c.nlat - 1) :
    Tri (Good lib c.nlat) (dbasisTM E lib c T) (fun t => Spec.IsDeriv c.nlat T (lib.theta c.nlat) (flipT t)) fun _ => False := by
  intro s hs
  unfold dbasisTM
  rw [exec_bind_ok (exec_get s)]
  split
  · rename_i t ht
    exact ⟨hs, hs.2.dT _ _ (mem_lookup ht)⟩
  · refine Tri.bind (φ := fun t => Spec.IsDeriv c.nlat T (lib.theta c.nlat) (flipT t)) (P := Good lib c.nlat) (ε := fun _ => False) ?_ ?_ s hs
    · intro s hs
      unfold sharedDbasisTM
      rw [exec_bind_ok (exec_get s)]
      split
      · rename_i t ht
        exact ⟨hs, hs.1.dT _ _ (mem_lookup ht)⟩
      · refine (dbasisM_tri hE hl h3 hT).bind (fun b hb => ?_) s hs
        intro s hs
        refine ⟨⟨⟨hs.1.fft, hs.1.b, hs.1.d, hs.1.bT, ?_, hs.1.geom⟩, hs.2⟩, hb⟩
        intro k t h
        rcases mem_cacheBasis h with h | ⟨h, h'⟩
        · exact hs.1.dT _ _ h
        · rw [h, h']; exact hb
    · intro b hb s hs
      refine ⟨⟨hs.1, ⟨hs.2.b, hs.2.d, hs.2.bT, ?_⟩⟩, hb⟩
      intro T' t' h
      rcases List.mem_append.mp h with h | h
      · exact hs.2.dT _ _ h
      · simp at h; rw [h.1, h.2]; exact hb

/-! ### Construction -/

theorem geometry_good (lib : Lib) {W : World} (hW : WorldGood lib W) (n : ℕ) :
    (geometry lib W n).1.1 = lib.weight n ∧ (∀ j, (geometry lib W n).1.2 j = Real.sin (lib.theta n j)) ∧ WorldGood lib (geometry lib W n).2 := by
  unfold geometry
  split
  · rename_i g h
    have := hW.geom _ _ (mem_lookup h)
    exact ⟨this.1, this.2, hW⟩
  · have key : ∀ j, Real.cos ((90 - lib.theta n j * (180 / Real.pi)) * (Real.pi / 180)) = Real.sin (lib.theta n j) := by
      intro j
      rw [show (90 - lib.theta n j * (180 / Real.pi)) * (Real.pi / 180) = Real.pi / 2 - lib.theta n j by
        field_simp; ring]
      exact Real.cos_pi_div_two_sub _
    refine ⟨rfl, key, hW.fft, hW.b, hW.d, hW.bT, hW.dT, ?_⟩
    intro m g h
    rcases List.mem_append.mp h with h | h
    · exact hW.geom _ _ h
    · simp at h; rw [h.1, h.2]; exact ⟨rfl, key⟩

theorem construct_good {W : World} (hW : WorldGood lib W) {pl : NDArr ℤ} {r : ℝ} {lf p : String} {W' : World}
    (h : construct lib W pl r lf p = .ok (c, W')) : c.Valid lib ∧ WorldGood lib W' := by
  unfold construct at h
  split at h
  · rename_i n hn
    by_cases h1 : n < 3
    · rw [if_pos h1] at h; exact absurd h (by simp)
    by_cases h2 : ((List.range n).any fun j => decide (pl.get [j] < 4)) = true
    · rw [if_neg h1, if_pos h2] at h; exact absurd h (by simp)
    by_cases h3 : lf ≠ "stored" ∧ lf ≠ "computed"
    · rw [if_neg h1, if_neg h2, if_pos h3] at h; exact absurd h (by simp)
    rw [if_neg h1, if_neg h2, if_neg h3] at h
    · split at h
      · exact absurd h (by simp)
      · by_cases h4 : r ≤ 0
        · rw [if_pos h4] at h; exact absurd h (by simp)
        rw [if_neg h4] at h
        have := geometry_good lib hW n
        simp only [Except.ok.injEq, Prod.mk.injEq] at h
        obtain ⟨rfl, rfl⟩ := h
        have hlen : ∀ f : ℕ → ℕ, ((List.range n).map f).length = n := fun f => by simp
        refine ⟨⟨?_, ?_, by push Not at h4; exact h4, ?_, ?_⟩, this.2.2⟩
        · unfold Cfg.nlat; rw [hlen]; omega
        · intro q hq
          simp only [List.mem_map, List.mem_range] at hq
          obtain ⟨j, hj, rfl⟩ := hq
          simp only [List.any_eq_true, List.mem_range, decide_eq_true_eq, not_exists, not_and, not_lt] at h2
          have := h2 j hj
          omega
        · unfold Cfg.nlat; rw [hlen]; exact this.1
        · unfold Cfg.nlat; rw [hlen]; exact this.2.1
  · exact absurd h (by simp)

end Skyborn.RedGauss
