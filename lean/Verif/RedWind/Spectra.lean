/-
`ReducedVectorWind`: what the dictionaries hold, and the private methods that fill them.
-/
import Verif.RedWind.Tri

namespace Skyborn.RedWind

open Skyborn RedGauss

/-- What a constructed object holds. -/
structure WCfg.Valid (lib : Lib) (w : WCfg) : Prop where
  /-- the transform -/ hc : w.cfg.Valid lib
  /-- shape of `u` -/ hu : w.u.shape = w.cfg.npoints :: w.extra
  /-- shape of `v` -/ hv : w.v.shape = w.cfg.npoints :: w.extra
  /-- shape of the flattened wind -/ hs : w.ub.shape = [w.cfg.npoints, w.nt]
  /-- flattened `u` -/ hub : ∀ e, InB w.extra e → ∀ p, p < w.cfg.npoints → toF w.ub (p + 1) (ravel w.extra e + 1) = w.u.get (p :: e)
  /-- flattened `v` -/ hvb : ∀ e, InB w.extra e → ∀ p, p < w.cfg.npoints → toF w.vb (p + 1) (ravel w.extra e + 1) = w.v.get (p :: e)

variable (lib : Lib) (w : WCfg)

/-- Vorticity spectrum of a slice, as the compiled routine sees the wind. -/
noncomputable def vrtCoef (k : ℕ) : ℕ → ℕ → ℂ :=
  Spec.vorticity w.cfg.nlat w.cfg.row (lib.theta w.cfg.nlat) (lib.weight w.cfg.nlat) w.cfg.rsphere (rowsOf w.cfg (toF w.ub) k) (rowsOf w.cfg (toF w.vb) k)

/-- Divergence spectrum of a slice. -/
noncomputable def divCoef (k : ℕ) : ℕ → ℕ → ℂ :=
  Spec.divergence w.cfg.nlat w.cfg.row (lib.theta w.cfg.nlat) (lib.weight w.cfg.nlat) w.cfg.rsphere (rowsOf w.cfg (toF w.ub) k) (rowsOf w.cfg (toF w.vb) k)

/-- A spectrum of truncation `T` with coefficients `a k` in slice `k` (when the grid is regular, if `reg`). -/
def IsSpect (reg : Prop) (T : ℕ) (s : Spect) (a : ℕ → ℕ → ℕ → ℂ) : Prop :=
  s.len = nmDim T ∧ 1 ≤ w.nt ∧ (reg → ∀ k, 1 ≤ k → k ≤ w.nt → ∀ m n, m ≤ n → n ≤ T → coefsOf T s.val k m n = a k m n)

/-- `2 Ω sin(latitude)` of row `j`. -/
noncomputable def fRow (om : ℝ) (j : ℕ) : ℝ := 2 * om * Real.cos (lib.theta w.cfg.nlat j)

/-- Spectrum of the planetary vorticity. -/
noncomputable def pvCoef (om : ℝ) : ℕ → ℕ → ℂ :=
  Spec.analysis w.cfg.nlat w.cfg.row (lib.theta w.cfg.nlat) (lib.weight w.cfg.nlat) fun j _ => fRow lib w om j

/-- Packed position (from 0) of point `i` of row `j`. -/
def at' (j i : ℕ) : ℕ := (w.cfg.pl.take (j - 1)).sum + (i - 1)

/-- Latitudes, one per point. -/
def IsLat (l : List ℝ) : Prop :=
  l.length = w.cfg.npoints ∧ ∀ j i, 1 ≤ j → j ≤ w.cfg.nlat → 1 ≤ i → i ≤ w.cfg.row j →
    l.getD (at' w j i) 0 = 90 - lib.theta w.cfg.nlat j * (180 / Real.pi)

/-- Planetary vorticity, one number per point, in a shape. -/
def IsPv (om : ℝ) (shape : List ℕ) (r : NDArr ℝ) : Prop :=
  r.shape = shape ∧ ∀ e j i, 1 ≤ j → j ≤ w.cfg.nlat → 1 ≤ i → i ≤ w.cfg.row j → r.get (at' w j i :: e) = fRow lib w om j

/-- What the dictionaries hold. -/
structure WGood (C : WCaches) : Prop where
  /-- latitudes -/ lat : ∀ l, C.lat = some l → IsLat lib w l
  /-- planetary vorticity -/ pv : ∀ x ∈ C.pv, IsPv lib w x.1.1 x.1.2.2 x.2
  /-- its spectra -/ pvs : ∀ x ∈ C.pvs, IsSpect w True x.1.2 x.2 fun _ => pvCoef lib w x.1.1
  /-- both -/ vrtdiv : ∀ x ∈ C.vrtdiv, IsSpect w (Spec.Regular w.cfg.pl) x.1 x.2.1 (vrtCoef lib w) ∧ IsSpect w (Spec.Regular w.cfg.pl) x.1 x.2.2 (divCoef lib w)
  /-- vorticity -/ vrt : ∀ x ∈ C.vrt, IsSpect w (Spec.Regular w.cfg.pl) x.1 x.2 (vrtCoef lib w)
  /-- divergence -/ div : ∀ x ∈ C.div, IsSpect w (Spec.Regular w.cfg.pl) x.1 x.2 (divCoef lib w)

theorem wGood_fresh : WGood lib w WCaches.fresh := by constructor <;> simp [WCaches.fresh]

/-- The states in which a method is called. -/
def GoodSt (s : St) : Prop := Good lib w.cfg.nlat s.1 ∧ WGood lib w s.2

variable {lib w} {Es : ℕ → Env} {E E' : Env} {T : ℕ}

/-- A truncation that does not exist, or no slice to transform: the outcomes of a refused call. -/
def refusal (w : WCfg) (t : Option ℤ) (e : Fail) : Prop :=
  (e = .validation ∧ ∀ T, ¬ Sphere.Spec.Truncation w.cfg.nlat t T) ∨ ((∃ T, Sphere.Spec.Truncation w.cfg.nlat t T) ∧ w.nt = 0 ∧ e = .spherepack 3)

theorem TriW.trunc {β : Type} {t : Option ℤ} {f : ℕ → MW β} {P : St → Prop} {ψ : β → Prop} {ε : Fail → Prop} (hw : w.Valid lib)
    (hbad : (∀ T, ¬ Sphere.Spec.Truncation w.cfg.nlat t T) → ε .validation)
    (h : ∀ T, validateNtrunc w.cfg t = .ok T → T ≤ w.cfg.nlat - 1 → Sphere.Spec.Truncation w.cfg.nlat t T → TriW P (f T) ψ ε) :
    TriW P (liftW (validateNtrunc w.cfg t) >>= f) ψ ε := by
  rcases validateNtrunc_cases hw.hc.h3 t with ⟨T, h1, h2, h3⟩ | ⟨h1, h2⟩
  · exact TriW.step h1 (h T h1 h2 h3)
  · exact TriW.step_error h1 (hbad h2)

theorem windSpectra_tri (hE : E.ok) (hl : lib.Sound) (hw : w.Valid lib) (t : Option ℤ) :
    TriW (GoodSt lib w) (windSpectra lib w E t)
      (fun r => ∃ T, validateNtrunc w.cfg t = .ok T ∧ T ≤ w.cfg.nlat - 1 ∧ Sphere.Spec.Truncation w.cfg.nlat t T ∧
        IsSpect w (Spec.Regular w.cfg.pl) T r.1 (vrtCoef lib w) ∧ IsSpect w (Spec.Regular w.cfg.pl) T r.2 (divCoef lib w))
      (refusal w t) := by
  refine TriW.trunc hw (fun h => .inl ⟨rfl, h⟩) fun T h1 h2 h3 => ?_
  refine TriW.look fun s hs => ?_
  cases hk : s.2.vrtdiv.lookup T with
  | some r => exact TriW.pure ⟨T, h1, h2, h3, hs.2.vrtdiv _ (mem_lookup hk)⟩
  | none =>
    dsimp only
    refine (TriW.inner ((analyzeWind_tri hE hl hw.hc h2 _ _).mono (fun _ h => h) fun e he => .inr ⟨⟨T, h3⟩, he⟩)).bind fun a ha => ?_
    have hr1 : IsSpect w (Spec.Regular w.cfg.pl) T ⟨specLen T, fun p k => (a p k).2⟩ (vrtCoef lib w) :=
      ⟨rfl, ha.1, fun hreg k k1 k2 m n a1 a2 => congrArg Prod.snd (ha.2 hreg k k1 k2 m n a1 a2)⟩
    have hr2 : IsSpect w (Spec.Regular w.cfg.pl) T ⟨specLen T, fun p k => (a p k).1⟩ (divCoef lib w) :=
      ⟨rfl, ha.1, fun hreg k k1 k2 m n a1 a2 => congrArg Prod.fst (ha.2 hreg k k1 k2 m n a1 a2)⟩
    refine TriW.store (fun s hs => ⟨hs.1, hs.2.lat, hs.2.pv, hs.2.pvs, ?_, ?_, ?_⟩) (TriW.pure ⟨T, h1, h2, h3, hr1, hr2⟩)
    · intro x hx
      rcases List.mem_cons.mp hx with rfl | hx
      exacts [⟨hr1, hr2⟩, hs.2.vrtdiv x hx]
    · intro x hx
      rcases List.mem_cons.mp hx with rfl | hx
      exacts [hr1, hs.2.vrt x hx]
    · intro x hx
      rcases List.mem_cons.mp hx with rfl | hx
      exacts [hr2, hs.2.div x hx]

theorem vrtSpectrum_tri (hE : E.ok) (hl : lib.Sound) (hw : w.Valid lib) (t : Option ℤ) :
    TriW (GoodSt lib w) (vrtSpectrum lib w E t)
      (fun r => ∃ T, validateNtrunc w.cfg t = .ok T ∧ T ≤ w.cfg.nlat - 1 ∧ Sphere.Spec.Truncation w.cfg.nlat t T ∧
        IsSpect w (Spec.Regular w.cfg.pl) T r (vrtCoef lib w))
      (refusal w t) := by
  refine TriW.trunc hw (fun h => .inl ⟨rfl, h⟩) fun T h1 h2 h3 => ?_
  refine TriW.look fun s hs => ?_
  cases hk : s.2.vrt.lookup T with
  | some r => exact TriW.pure ⟨T, h1, h2, h3, hs.2.vrt _ (mem_lookup hk)⟩
  | none =>
    dsimp only
    refine TriW.look fun s hs => ?_
    have hsto : ∀ r, IsSpect w (Spec.Regular w.cfg.pl) T r (vrtCoef lib w) → TriW (GoodSt lib w)
        ((modify fun s : St => (s.1, { s.2 with vrt := (T, r) :: s.2.vrt })) >>= fun _ => (pure r : MW Spect))
        (fun r => ∃ T, validateNtrunc w.cfg t = .ok T ∧ T ≤ w.cfg.nlat - 1 ∧ Sphere.Spec.Truncation w.cfg.nlat t T ∧
          IsSpect w (Spec.Regular w.cfg.pl) T r (vrtCoef lib w)) (refusal w t) := by
      intro r hr
      refine TriW.store (fun s hs => ⟨hs.1, hs.2.lat, hs.2.pv, hs.2.pvs, hs.2.vrtdiv, ?_, hs.2.div⟩) (TriW.pure ⟨T, h1, h2, h3, hr⟩)
      intro x hx
      rcases List.mem_cons.mp hx with rfl | hx
      exacts [hr, hs.2.vrt x hx]
    cases hk : s.2.vrtdiv.lookup T with
    | some r => exact hsto _ (hs.2.vrtdiv _ (mem_lookup hk)).1
    | none =>
      dsimp only
      refine (TriW.inner ((analyzeComponent_tri (.inl rfl) hE hl hw.hc h2 _ _).mono (fun _ h => h) fun e he => .inr ⟨⟨T, h3⟩, he⟩)).bind fun a ha => ?_
      exact hsto _ ⟨rfl, ha.1, fun hreg k k1 k2 m n a1 a2 => ha.2 hreg k k1 k2 m n a1 a2⟩

theorem divSpectrum_tri (hE : E.ok) (hl : lib.Sound) (hw : w.Valid lib) (t : Option ℤ) :
    TriW (GoodSt lib w) (divSpectrum lib w E t)
      (fun r => ∃ T, validateNtrunc w.cfg t = .ok T ∧ T ≤ w.cfg.nlat - 1 ∧ Sphere.Spec.Truncation w.cfg.nlat t T ∧
        IsSpect w (Spec.Regular w.cfg.pl) T r (divCoef lib w))
      (refusal w t) := by
  refine TriW.trunc hw (fun h => .inl ⟨rfl, h⟩) fun T h1 h2 h3 => ?_
  refine TriW.look fun s hs => ?_
  cases hk : s.2.div.lookup T with
  | some r => exact TriW.pure ⟨T, h1, h2, h3, hs.2.div _ (mem_lookup hk)⟩
  | none =>
    dsimp only
    refine TriW.look fun s hs => ?_
    have hsto : ∀ r, IsSpect w (Spec.Regular w.cfg.pl) T r (divCoef lib w) → TriW (GoodSt lib w)
        ((modify fun s : St => (s.1, { s.2 with div := (T, r) :: s.2.div })) >>= fun _ => (pure r : MW Spect))
        (fun r => ∃ T, validateNtrunc w.cfg t = .ok T ∧ T ≤ w.cfg.nlat - 1 ∧ Sphere.Spec.Truncation w.cfg.nlat t T ∧
          IsSpect w (Spec.Regular w.cfg.pl) T r (divCoef lib w)) (refusal w t) := by
      intro r hr
      refine TriW.store (fun s hs => ⟨hs.1, hs.2.lat, hs.2.pv, hs.2.pvs, hs.2.vrtdiv, hs.2.vrt, ?_⟩) (TriW.pure ⟨T, h1, h2, h3, hr⟩)
      intro x hx
      rcases List.mem_cons.mp hx with rfl | hx
      exacts [hr, hs.2.div x hx]
    cases hk : s.2.vrtdiv.lookup T with
    | some r => exact hsto _ (hs.2.vrtdiv _ (mem_lookup hk)).2
    | none =>
      dsimp only
      refine (TriW.inner ((analyzeComponent_tri (.inr rfl) hE hl hw.hc h2 _ _).mono (fun _ h => h) fun e he => .inr ⟨⟨T, h3⟩, he⟩)).bind fun a ha => ?_
      exact hsto _ ⟨rfl, ha.1, fun hreg k k1 k2 m n a1 a2 => ha.2 hreg k k1 k2 m n a1 a2⟩

theorem invlapW_spect {reg : Prop} {s : Spect} {a : ℕ → ℕ → ℕ → ℂ} (h : IsSpect w reg T s a) :
    IsSpect w reg T (invlapW w s) fun k => Spec.invlap w.cfg.rsphere (a k) := by
  obtain ⟨h1, h2, h3⟩ := h
  refine ⟨h1, h2, fun hreg k k1 k2 m n a1 a2 => ?_⟩
  unfold invlapW
  dsimp only
  rw [h1, invlapF_coefs _ k1 k2 a1 a2]
  unfold Spec.invlap
  rw [h3 hreg k k1 k2 m n a1 a2]

/-! ### Latitudes and planetary vorticity -/

theorem flat_length (f : ℕ → ℝ) (g : ℕ → ℕ) (n : ℕ) : ((List.range n).flatMap fun j => List.replicate (g j) (f j)).length = ((List.range n).map g).sum := by
  induction n with
  | zero => rfl
  | succ n ih => rw [List.range_succ, List.flatMap_append, List.length_append, ih, List.map_append, List.sum_append]; simp

theorem flat_get (f : ℕ → ℝ) (g : ℕ → ℕ) : ∀ n j i, j < n → i < g j →
    ((List.range n).flatMap fun j => List.replicate (g j) (f j)).getD (((List.range j).map g).sum + i) 0 = f j := by
  intro n
  induction n with
  | zero => intro j i h; omega
  | succ n ih =>
    intro j i h1 h2
    rw [List.range_succ, List.flatMap_append, List.getD_eq_getElem?_getD]
    rcases Nat.lt_or_ge j n with hj | hj
    · rw [List.getElem?_append_left, ← List.getD_eq_getElem?_getD, ih j i hj h2]
      rw [flat_length]
      have : ((List.range (j + 1)).map g).sum ≤ ((List.range n).map g).sum := by
        obtain ⟨k, rfl⟩ : ∃ k, n = j + 1 + k := ⟨n - (j + 1), by omega⟩
        rw [List.range_add (n := j + 1) (m := k), List.map_append, List.sum_append]; omega
      rw [List.range_succ, List.map_append, List.sum_append] at this
      simp at this; omega
    · obtain rfl : j = n := by omega
      rw [List.getElem?_append_right (by rw [flat_length]; omega), flat_length]
      simp [h2]

theorem rows_sum (c : Cfg) {j : ℕ} (h : j ≤ c.nlat) : ((List.range j).map fun i => c.row (i + 1)).sum = (c.pl.take j).sum := by
  induction j with
  | zero => simp
  | succ j ih =>
    have hj : j < c.pl.length := h
    rw [List.range_succ, List.map_append, List.sum_append, ih (by omega), List.take_add_one, List.sum_append]
    simp [Cfg.row, hj]

theorem latitudes_tri : TriW (GoodSt lib w) (latitudes lib w) (IsLat lib w) fun _ => False := by
  refine TriW.look fun s hs => ?_
  cases h : s.2.lat with
  | some l => exact TriW.pure (hs.2.lat l h)
  | none =>
    dsimp only
    have hl : IsLat lib w ((List.range w.cfg.nlat).flatMap fun j => List.replicate (w.cfg.row (j + 1)) (90 - lib.theta w.cfg.nlat (j + 1) * (180 / Real.pi))) := by
      constructor
      · rw [flat_length (fun j => 90 - lib.theta w.cfg.nlat (j + 1) * (180 / Real.pi)), rows_sum _ le_rfl]
        show (List.take w.cfg.pl.length w.cfg.pl).sum = _
        rw [List.take_length]; rfl
      · intro j i h1 h2 h3 h4
        have := flat_get (fun j => 90 - lib.theta w.cfg.nlat (j + 1) * (180 / Real.pi)) (fun j => w.cfg.row (j + 1)) w.cfg.nlat (j - 1) (i - 1) (by omega)
          (by rw [show j - 1 + 1 = j by omega]; omega)
        rw [rows_sum _ (by omega), show j - 1 + 1 = j by omega] at this
        exact this
    refine TriW.store (fun s hs => ⟨hs.1, ?_, hs.2.pv, hs.2.pvs, hs.2.vrtdiv, hs.2.vrt, hs.2.div⟩) (TriW.pure hl)
    intro l h
    obtain rfl : _ = l := Option.some.inj h
    exact hl

theorem pvValues_tri (omega : Option ℝ) (d : NPType) {shape : List ℕ} (hs : shape.headD 0 = w.cfg.npoints) :
    TriW (GoodSt lib w) (pvValues lib w omega d shape) (IsPv lib w (omegaOf omega) shape) fun _ => False := by
  classical
  refine TriW.look fun s hst => ?_
  cases h : s.2.pv.lookup (omegaOf omega, d, shape) with
  | some r => exact TriW.pure (hst.2.pv _ (mem_lookup h))
  | none =>
    dsimp only
    refine latitudes_tri.bind fun l hl => ?_
    rw [if_neg (by rw [List.length_map, hl.1, hs]; simp)]
    have hp : IsPv lib w (omegaOf omega) shape ⟨shape, fun idx => (l.map fun x => 2 * omegaOf omega * Real.sin (x * (Real.pi / 180))).getD (idx.headD 0) 0⟩ := by
      refine ⟨rfl, fun e j i h1 h2 h3 h4 => ?_⟩
      have := hl.2 j i h1 h2 h3 h4
      have hlt : at' w j i < l.length := by rw [hl.1]; exact packed_lt h1 h2 h3 h4
      rw [List.getD_eq_getElem?_getD, List.getElem?_eq_getElem hlt, Option.getD_some] at this
      show (l.map _).getD (at' w j i) 0 = _
      rw [List.getD_eq_getElem?_getD, List.getElem?_map, List.getElem?_eq_getElem hlt, Option.map_some, Option.getD_some, this]
      unfold fRow
      rw [show (90 - lib.theta w.cfg.nlat j * (180 / Real.pi)) * (Real.pi / 180) = Real.pi / 2 - lib.theta w.cfg.nlat j by
        field_simp [Real.pi_ne_zero]; ring, Real.sin_pi_div_two_sub]
    refine TriW.store (fun s hs => ⟨hs.1, hs.2.lat, ?_, hs.2.pvs, hs.2.vrtdiv, hs.2.vrt, hs.2.div⟩) (TriW.pure hp)
    intro x hx
    rcases List.mem_cons.mp hx with rfl | hx
    exacts [hp, hs.2.pv x hx]

theorem pvGrid_tri (hw : w.Valid lib) (omega : Option ℝ) :
    TriW (GoodSt lib w) (pvGrid lib w omega) (fun g => ∀ k j i, 1 ≤ j → j ≤ w.cfg.nlat → 1 ≤ i → i ≤ w.cfg.row j →
      rowsOf w.cfg (toF g) k j i = fRow lib w (omegaOf omega) j) fun _ => False := by
  refine (pvValues_tri omega .float32 (by rw [hw.hs]; rfl)).mono (fun g hg k j i h1 h2 h3 h4 => ?_) fun _ h => h
  unfold rowsOf toF
  rw [rowStart_row h1 h2 h3]
  exact hg.2 [k - 1] j i h1 h2 h3 h4

theorem pvSpec_tri (hE : E.ok) (hl : lib.Sound) (hw : w.Valid lib) (t : Option ℤ) (omega : Option ℝ) (hnt : 1 ≤ w.nt) (hT : validateNtrunc w.cfg t = .ok T) (hT' : T ≤ w.cfg.nlat - 1) :
    TriW (GoodSt lib w) (pvSpec lib w E t omega) (fun s => IsSpect w True T s fun _ => pvCoef lib w (omegaOf omega)) fun _ => False := by
  classical
  refine TriW.step hT ?_
  refine TriW.look fun s hs => ?_
  cases h : s.2.pvs.lookup (omegaOf omega, T) with
  | some r => exact TriW.pure (hs.2.pvs _ (mem_lookup h))
  | none =>
    dsimp only
    refine (pvGrid_tri hw omega).bind fun g hg => ?_
    refine (TriW.inner ((analyzeScalar_tri hE hl hw.hc hT' _).mono (fun _ h => h) fun e he => by omega)).bind fun a ha => ?_
    have hr : IsSpect w True T ⟨specLen T, a⟩ fun _ => pvCoef lib w (omegaOf omega) := by
      refine ⟨rfl, hnt, fun _ k k1 k2 m n a1 a2 => ?_⟩
      rw [show coefsOf T (Spect.mk (specLen T) a).val k m n = coefsOf T a k m n from rfl, ha.2 k k1 k2 m n a1 a2]
      exact analysis_congr fun j i => hg k j i
    refine TriW.store (fun s hs => ⟨hs.1, hs.2.lat, hs.2.pv, ?_, hs.2.vrtdiv, hs.2.vrt, hs.2.div⟩) (TriW.pure hr)
    intro x hx
    rcases List.mem_cons.mp hx with rfl | hx
    exacts [hr, hs.2.pvs x hx]

end Skyborn.RedWind
