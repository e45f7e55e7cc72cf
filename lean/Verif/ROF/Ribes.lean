import Verif.ROF.Spec

/-! C128-C130: `AttributionModel.ribes`. -/

namespace Skyborn.ROF
open Matrix Spec

theorem loopFin_ok {β : Type} {n : ℕ} {f : Fin n → Except Err β} {g : Fin n → β} (h : ∀ i, f i = .ok (g i)) : loopFin f = .ok g := by
  induction n with
  | zero => exact congrArg Except.ok (funext fun i => i.elim0)
  | succ n ih =>
    unfold loopFin
    rw [h 0, ih (g := fun i => g i.succ) fun i => h i.succ]
    simp only [bind, Except.bind]
    congr 1
    funext i
    refine Fin.cases rfl (fun i => rfl) i

theorem loopFin_inv {β : Type} {n : ℕ} {f : Fin n → Except Err β} {g : Fin n → β} (h : loopFin f = .ok g) : ∀ i, f i = .ok (g i) := by
  induction n with
  | zero => intro i; exact i.elim0
  | succ n ih =>
    unfold loopFin at h
    simp only [bind, Except.bind] at h
    split at h
    · cases h
    next a ha =>
    split at h
    · cases h
    next r hr =>
    have hg := (Except.ok.inj h).symm
    intro i
    rw [hg]
    refine Fin.cases ha (fun i => ?_) i
    exact ih hr i

/-- The parts of a successful call. -/
theorem ribes_inv {nt nf : ℕ} {X : Mat nt nf} {y : Vec nt} {Cxi : Fin nf → Mat nt nt} {Cy : Mat nt nt} {R : Ribes nt nf}
    (h : ribes X y Cxi Cy = .ok R) :
    (Cy + ∑ i, Cxi i).det ≠ 0 ∧
    R.y = y + (Cy * (Cy + ∑ i, Cxi i)⁻¹) *ᵥ ((fun t => ∑ i, X t i) - y) ∧
    (∀ t i, R.X t i = X t i + ((Cxi i * (Cy + ∑ i, Cxi i)⁻¹) *ᵥ (y - fun t => ∑ i, X t i)) t) ∧
    R.Cy = (Cy⁻¹ + (∑ i, Cxi i)⁻¹)⁻¹ ∧
    (∀ i, R.Cx i = ((Cxi i)⁻¹ + (Cy + ∑ j, if j = i then 0 else Cxi j)⁻¹)⁻¹) := by
  unfold ribes at h
  simp only [bind, Except.bind] at h
  split at h
  · cases h
  next S hS =>
  split at h
  · cases h
  next Cy1 hCy1 =>
  split at h
  · cases h
  next Cx1 hCx1 =>
  split at h
  · cases h
  next Cs hCs =>
  split at h
  · cases h
  next Cxs hCxs =>
  split at h
  · cases h
  have hR := (Except.ok.inj h).symm
  obtain ⟨hS0, rfl⟩ := inv_eq_ok hS
  obtain ⟨-, rfl⟩ := inv_eq_ok hCy1
  obtain ⟨-, rfl⟩ := inv_eq_ok hCx1
  obtain ⟨-, rfl⟩ := inv_eq_ok hCs
  have hx := loopFin_inv hCxs
  refine ⟨hS0, by rw [hR], fun t i => by rw [hR]; rfl, by rw [hR], fun i => ?_⟩
  rw [hR]
  have := hx i
  split at this
  · cases this
  next a ha =>
  split at this
  · cases this
  next b hb =>
  obtain ⟨-, rfl⟩ := inv_eq_ok ha
  obtain ⟨-, rfl⟩ := inv_eq_ok hb
  exact (inv_eq_ok this).2

/-- Sum of the covariances split at one forcing. -/
theorem sum_split {nt nf : ℕ} (Cxi : Fin nf → Mat nt nt) (i : Fin nf) : ∑ j, Cxi j = Cxi i + ∑ j, if j = i then 0 else Cxi j := by
  rw [← Finset.add_sum_erase _ _ (Finset.mem_univ i)]
  congr 1
  rw [← Finset.add_sum_erase Finset.univ (fun j => if j = i then (0 : Mat nt nt) else Cxi j) (Finset.mem_univ i), if_pos rfl, zero_add]
  refine Finset.sum_congr rfl fun j hj => ?_
  rw [if_neg (Finset.ne_of_mem_erase hj)]

theorem rest_psd {nt nf : ℕ} {Cxi : Fin nf → Mat nt nt} (h : ∀ i, PD (Cxi i)) (i : Fin nf) : PSD (∑ j, if j = i then 0 else Cxi j) :=
  PSD.sum _ fun j _ => by
    split
    · exact PSD.zero
    · exact (h j).psd

theorem sum_pd {nt nf : ℕ} (hnf : 0 < nf) {Cxi : Fin nf → Mat nt nt} (h : ∀ i, PD (Cxi i)) : PD (∑ i, Cxi i) := by
  rw [sum_split Cxi ⟨0, hnf⟩]
  exact (h _).add_psd (rest_psd h _)

/-- With positive definite covariances and at least one forcing the call succeeds. -/
theorem ribes_ok {nt nf : ℕ} (hnf : 0 < nf) (X : Mat nt nf) (y : Vec nt) {Cxi : Fin nf → Mat nt nt} {Cy : Mat nt nt} (hx : ∀ i, PD (Cxi i))
    (hy : PD Cy) : ∃ R, ribes X y Cxi Cy = .ok R := by
  unfold ribes
  simp only [bind, Except.bind]
  have hs := sum_pd hnf hx
  rw [inv_ok (hy.add hs).det_ne]
  dsimp only
  rw [inv_ok hy.det_ne]
  dsimp only
  rw [inv_ok hs.det_ne]
  dsimp only
  rw [inv_ok (hy.inv.add hs.inv).det_ne]
  dsimp only
  rw [loopFin_ok (g := fun i => ((Cxi i)⁻¹ + (Cy + ∑ j, if j = i then 0 else Cxi j)⁻¹)⁻¹)]
  · dsimp only
    rw [loopFin_ok (g := fun i => (Cy + Cxi i)⁻¹)]
    · exact ⟨_, rfl⟩
    · intro i
      exact inv_ok (hy.add (hx i)).det_ne
  · intro i
    have hr := hy.add_psd (rest_psd hx i)
    rw [inv_ok (hx i).det_ne]
    dsimp only
    rw [inv_ok hr.det_ne]
    dsimp only
    rw [inv_ok ((hx i).inv.add hr.inv).det_ne]

/-- **C128.** Whenever `ribes` returns, the estimated response is the sum of the estimated responses to the individual forcings, at
every time. -/
theorem C128_additive {nt nf : ℕ} (X : Mat nt nf) (y : Vec nt) (Cxi : Fin nf → Mat nt nt) (Cy : Mat nt nt) (R : Ribes nt nf)
    (h : ribes X y Cxi Cy = .ok R) (t : Fin nt) : R.y t = ∑ i, R.X t i := by
  obtain ⟨hS, h1, h2, -, -⟩ := ribes_inv h
  set S := Cy + ∑ i, Cxi i with hSd
  set xs : Vec nt := fun t => ∑ i, X t i with hxs
  have hu := det_unit hS
  simp_rw [h2]
  rw [Finset.sum_add_distrib, h1, Pi.add_apply]
  have e1 : ∑ i, ((Cxi i * S⁻¹) *ᵥ (y - xs)) t = (((∑ i, Cxi i) * S⁻¹) *ᵥ (y - xs)) t := by
    rw [Finset.sum_mul, Matrix.sum_mulVec, Finset.sum_apply]
  rw [e1]
  have e2 : (∑ i, Cxi i) * S⁻¹ = 1 - Cy * S⁻¹ := by
    rw [show (∑ i, Cxi i) = S - Cy by rw [hSd]; abel, Matrix.sub_mul, Matrix.mul_nonsing_inv _ hu]
  rw [e2, Matrix.sub_mulVec, Matrix.one_mulVec]
  have e3 : (Cy * S⁻¹) *ᵥ (xs - y) = -((Cy * S⁻¹) *ᵥ (y - xs)) := by
    rw [← Matrix.mulVec_neg, neg_sub]
  rw [e3]
  simp only [Pi.neg_apply, Pi.sub_apply, hxs]
  ring

/-- The call succeeds for positive definite covariances, so that C128 is not empty. -/
theorem C128_succeeds {nt nf : ℕ} (hnf : 0 < nf) (X : Mat nt nf) (y : Vec nt) {Cxi : Fin nf → Mat nt nt} {Cy : Mat nt nt}
    (hx : ∀ i, PD (Cxi i)) (hy : PD Cy) : ∃ R, ribes X y Cxi Cy = .ok R := ribes_ok hnf X y hx hy

/-- Without forcings the call raises (the total covariance is the zero matrix). -/
theorem C128_no_forcing {nt : ℕ} (X : Mat (nt + 1) 0) (y : Vec (nt + 1)) (Cxi : Fin 0 → Mat (nt + 1) (nt + 1)) (Cy : Mat (nt + 1) (nt + 1)) :
    ribes X y Cxi Cy = .error .singular := by
  unfold ribes
  simp only [bind, Except.bind, Finset.univ_eq_empty, Finset.sum_empty, add_zero]
  by_cases hc : Cy.det = 0
  · rw [inv_err hc]
  · rw [inv_ok hc]
    dsimp only
    rw [inv_err (A := (0 : Mat (nt + 1) (nt + 1))) Matrix.det_zero]

/-! ### C129: maximum likelihood -/

/-- Minus twice the Gaussian log-likelihood (up to a constant) of the true response `y'` and true forcing responses `X'`. -/
noncomputable def Spec.cost {nt nf : ℕ} (X : Mat nt nf) (y : Vec nt) (Cxi : Fin nf → Mat nt nt) (Cy : Mat nt nt) (X' : Mat nt nf)
    (y' : Vec nt) : ℝ :=
  (y - y') ⬝ᵥ (Cy⁻¹ *ᵥ (y - y')) + ∑ i, (fun t => X t i - X' t i) ⬝ᵥ ((Cxi i)⁻¹ *ᵥ fun t => X t i - X' t i)

/-- Expansion of one quadratic form around `C l`. -/
theorem quad_expand {n : ℕ} {C : Mat n n} (hC : PD C) (l e : Vec n) :
    (C *ᵥ l + e) ⬝ᵥ (C⁻¹ *ᵥ (C *ᵥ l + e)) = (C *ᵥ l) ⬝ᵥ (C⁻¹ *ᵥ (C *ᵥ l)) + 2 * (l ⬝ᵥ e) + e ⬝ᵥ (C⁻¹ *ᵥ e) := by
  have h1 : C⁻¹ *ᵥ (C *ᵥ l) = l := by rw [Matrix.mulVec_mulVec, Matrix.nonsing_inv_mul _ hC.unit, Matrix.one_mulVec]
  have h2 : (C *ᵥ l) ⬝ᵥ (C⁻¹ *ᵥ e) = l ⬝ᵥ e := by
    rw [Matrix.dotProduct_mulVec, ← Matrix.mulVec_transpose, hC.inv.1, h1]
  rw [Matrix.mulVec_add, add_dotProduct, dotProduct_add, dotProduct_add, h1, h2, dotProduct_comm e l]
  ring

/-- **C129.** The estimates are the unique maximum of the likelihood among all additive decompositions of the response. -/
theorem C129_maximum_likelihood {nt nf : ℕ} (X : Mat nt nf) (y : Vec nt) {Cxi : Fin nf → Mat nt nt} {Cy : Mat nt nt}
    (hx : ∀ i, PD (Cxi i)) (hy : PD Cy) (R : Ribes nt nf) (h : ribes X y Cxi Cy = .ok R) (X' : Mat nt nf) (y' : Vec nt)
    (hadd : ∀ t, y' t = ∑ i, X' t i) :
    cost X y Cxi Cy R.X R.y ≤ cost X y Cxi Cy X' y' ∧ (cost X y Cxi Cy X' y' ≤ cost X y Cxi Cy R.X R.y → X' = R.X ∧ y' = R.y) := by
  have hsum := C128_additive X y Cxi Cy R h
  obtain ⟨hS, h1, h2, -, -⟩ := ribes_inv h
  set S := Cy + ∑ i, Cxi i with hSd
  set xs : Vec nt := fun t => ∑ i, X t i with hxs
  set l : Vec nt := S⁻¹ *ᵥ (y - xs) with hl
  have hy1 : y - R.y = Cy *ᵥ l := by
    rw [h1, hl, Matrix.mulVec_mulVec, ← neg_sub y xs, Matrix.mulVec_neg]; abel
  have hx1 : ∀ i, (fun t => X t i - R.X t i) = Cxi i *ᵥ (-l) := fun i => by
    funext t
    rw [h2, hl, Matrix.mulVec_neg, Matrix.mulVec_mulVec, Pi.neg_apply]; ring
  set e : Vec nt := R.y - y' with he
  set d : Fin nf → Vec nt := fun i t => R.X t i - X' t i with hd
  have hed : e = ∑ i, d i := by
    funext t
    rw [he, Pi.sub_apply, hsum, hadd, Finset.sum_apply, ← Finset.sum_sub_distrib]
  have hy2 : y - y' = Cy *ᵥ l + e := by rw [← hy1, he]; abel
  have hx2 : ∀ i, (fun t => X t i - X' t i) = Cxi i *ᵥ (-l) + d i := fun i => by
    rw [← hx1 i]
    funext t
    simp only [hd, Pi.add_apply]; ring
  have hsplit : cost X y Cxi Cy X' y' = cost X y Cxi Cy R.X R.y + (e ⬝ᵥ (Cy⁻¹ *ᵥ e) + ∑ i, d i ⬝ᵥ ((Cxi i)⁻¹ *ᵥ d i)) := by
    unfold Spec.cost
    rw [hy2, hy1, quad_expand hy]
    have : ∑ i, (fun t => X t i - X' t i) ⬝ᵥ ((Cxi i)⁻¹ *ᵥ fun t => X t i - X' t i) =
        ∑ i, (fun t => X t i - R.X t i) ⬝ᵥ ((Cxi i)⁻¹ *ᵥ fun t => X t i - R.X t i) - 2 * (l ⬝ᵥ ∑ i, d i) +
          ∑ i, d i ⬝ᵥ ((Cxi i)⁻¹ *ᵥ d i) := by
      rw [dotProduct_sum, Finset.mul_sum, ← Finset.sum_sub_distrib, ← Finset.sum_add_distrib]
      refine Finset.sum_congr rfl fun i _ => ?_
      rw [hx2 i, hx1 i, quad_expand (hx i), neg_dotProduct]
      ring
    rw [this, ← hed]
    ring
  have hq1 : 0 ≤ e ⬝ᵥ (Cy⁻¹ *ᵥ e) := hy.inv.psd.2 e
  have hq2 : ∀ i, 0 ≤ d i ⬝ᵥ ((Cxi i)⁻¹ *ᵥ d i) := fun i => (hx i).inv.psd.2 (d i)
  have hq3 := Finset.sum_nonneg (s := Finset.univ) fun i _ => hq2 i
  refine ⟨by rw [hsplit]; linarith, fun hle => ?_⟩
  rw [hsplit] at hle
  have z1 : e ⬝ᵥ (Cy⁻¹ *ᵥ e) = 0 := by linarith
  have z2 : ∑ i, d i ⬝ᵥ ((Cxi i)⁻¹ *ᵥ d i) = 0 := by linarith
  have e0 : e = 0 := by
    by_contra hne
    exact absurd z1 (hy.inv.2 e hne).ne'
  have d0 : ∀ i, d i = 0 := fun i => by
    by_contra hne
    have := (Finset.sum_eq_zero_iff_of_nonneg fun i _ => hq2 i).mp z2 i (Finset.mem_univ _)
    exact absurd this ((hx i).inv.2 _ hne).ne'
  refine ⟨?_, ?_⟩
  · ext t i
    have := congrFun (d0 i) t
    simp only [hd, Pi.zero_apply] at this
    linarith
  · rw [he, sub_eq_zero] at e0
    exact e0.symm

/-! ### C130: the reported covariances -/

/-- Parallel sum of two covariance matrices. -/
theorem parallel {n : ℕ} {P Q : Mat n n} (hP : PD P) (hQ : PD Q) : (P⁻¹ + Q⁻¹)⁻¹ = P - P * (P + Q)⁻¹ * P := by
  have hu := (hP.add hQ).unit
  apply Matrix.inv_eq_right_inv
  have e : Q⁻¹ * P = Q⁻¹ * P * ((P + Q)⁻¹ * P) + (P + Q)⁻¹ * P := by
    calc Q⁻¹ * P = Q⁻¹ * ((P + Q) * (P + Q)⁻¹) * P := by rw [Matrix.mul_nonsing_inv _ hu, Matrix.mul_one]
      _ = Q⁻¹ * P * ((P + Q)⁻¹ * P) + (Q⁻¹ * Q) * ((P + Q)⁻¹ * P) := by
        rw [Matrix.add_mul P Q, Matrix.mul_add, Matrix.add_mul]; simp only [Matrix.mul_assoc]
      _ = _ := by rw [Matrix.nonsing_inv_mul _ hQ.unit, Matrix.one_mul]
  have f1 : P⁻¹ * (P * (P + Q)⁻¹ * P) = (P + Q)⁻¹ * P := by
    rw [Matrix.mul_assoc, ← Matrix.mul_assoc, Matrix.nonsing_inv_mul _ hP.unit, Matrix.one_mul]
  have f2 : Q⁻¹ * (P * (P + Q)⁻¹ * P) = Q⁻¹ * P * ((P + Q)⁻¹ * P) := by simp only [Matrix.mul_assoc]
  rw [Matrix.add_mul, Matrix.mul_sub, Matrix.mul_sub, Matrix.nonsing_inv_mul _ hP.unit, f1, f2]
  have e2 : (P + Q)⁻¹ * P = Q⁻¹ * P - Q⁻¹ * P * ((P + Q)⁻¹ * P) := eq_sub_of_add_eq' e.symm
  generalize Q⁻¹ * P * ((P + Q)⁻¹ * P) = W at e2 ⊢
  rw [e2]
  abel

/-- Propagation of errors through the linear combination. -/
theorem propagate {n : ℕ} {P Q : Mat n n} (hP : PD P) (hQ : PD Q) :
    (1 - P * (P + Q)⁻¹) * P * (1 - P * (P + Q)⁻¹)ᵀ + (P * (P + Q)⁻¹) * Q * (P * (P + Q)⁻¹)ᵀ = P - P * (P + Q)⁻¹ * P := by
  have hS := hP.add hQ
  set T := (P + Q)⁻¹ with hT
  have hTt : Tᵀ = T := hS.inv.1
  have hPt : Pᵀ = P := hP.1
  have hTS : T * (P + Q) * T = T := by rw [hT, Matrix.nonsing_inv_mul _ hS.unit, Matrix.one_mul]
  have e : P * T * P * (T * P) + P * T * Q * (T * P) = P * T * P := by
    calc P * T * P * (T * P) + P * T * Q * (T * P) = P * (T * (P + Q) * T) * P := by
          rw [Matrix.mul_add, Matrix.add_mul, Matrix.mul_add, Matrix.add_mul]; simp only [Matrix.mul_assoc]
      _ = P * T * P := by rw [hTS]
  rw [Matrix.transpose_sub, Matrix.transpose_one, Matrix.transpose_mul, hTt, hPt, Matrix.sub_mul, Matrix.one_mul, Matrix.sub_mul, Matrix.mul_sub,
    Matrix.mul_sub, Matrix.mul_one, Matrix.mul_one]
  have e' : P * T * P * (T * P) = P * T * P - P * T * Q * (T * P) := eq_sub_of_add_eq e
  rw [e', ← Matrix.mul_assoc P T P]
  abel

/-- **C130.** The estimated response is a fixed linear function of observations and forcings, and the covariance reported for it is the
covariance of that function when the inputs are independent with the given covariances. -/
theorem C130_response_covariance {nt nf : ℕ} (hnf : 0 < nf) {Cxi : Fin nf → Mat nt nt} {Cy : Mat nt nt} (hx : ∀ i, PD (Cxi i)) (hy : PD Cy) :
    ∃ A B : Mat nt nt, (∀ (X : Mat nt nf) (y : Vec nt), ∃ R, ribes X y Cxi Cy = .ok R ∧ R.y = A *ᵥ y + ∑ i, B *ᵥ (fun t => X t i) ∧
      R.Cy = A * Cy * Aᵀ + ∑ i, B * Cxi i * Bᵀ) := by
  have hs := sum_pd hnf hx
  refine ⟨1 - Cy * (Cy + ∑ i, Cxi i)⁻¹, Cy * (Cy + ∑ i, Cxi i)⁻¹, fun X y => ?_⟩
  obtain ⟨R, h⟩ := ribes_ok hnf X y hx hy
  obtain ⟨hS, h1, -, h3, -⟩ := ribes_inv h
  refine ⟨R, h, ?_, ?_⟩
  · rw [h1, Matrix.sub_mulVec, Matrix.one_mulVec, ← Matrix.mulVec_sum, Matrix.mulVec_sub]
    have : (∑ i, fun t => X t i) = fun t => ∑ i, X t i := by funext t; rw [Finset.sum_apply]
    rw [this]; abel
  · rw [h3, parallel hy hs, ← propagate hy hs]
    congr 1
    rw [← Finset.sum_mul, ← Finset.mul_sum]

/-- **C130 (forcings).** The same for the estimated response to each forcing. -/
theorem C130_forcing_covariance {nt nf : ℕ} (hnf : 0 < nf) {Cxi : Fin nf → Mat nt nt} {Cy : Mat nt nt} (hx : ∀ i, PD (Cxi i)) (hy : PD Cy)
    (i : Fin nf) :
    ∃ (A : Mat nt nt) (B : Fin nf → Mat nt nt), ∀ (X : Mat nt nf) (y : Vec nt), ∃ R, ribes X y Cxi Cy = .ok R ∧
      (fun t => R.X t i) = A *ᵥ y + ∑ j, B j *ᵥ (fun t => X t j) ∧ R.Cx i = A * Cy * Aᵀ + ∑ j, B j * Cxi j * (B j)ᵀ := by
  set S := Cy + ∑ j, Cxi j with hSd
  set D := Cxi i * S⁻¹ with hD
  set rest := ∑ j, if j = i then 0 else Cxi j with hrest
  have hr : PD (Cy + rest) := hy.add_psd (rest_psd hx i)
  have hSr : S = Cxi i + (Cy + rest) := by rw [hSd, sum_split Cxi i, ← hrest]; abel
  refine ⟨D, fun j => if j = i then 1 - D else -D, fun X y => ?_⟩
  obtain ⟨R, h⟩ := ribes_ok hnf X y hx hy
  obtain ⟨hS, -, h2, -, h4⟩ := ribes_inv h
  refine ⟨R, h, ?_, ?_⟩
  · have hone : ∑ j, (if j = i then 1 - D else -D) *ᵥ (fun t => X t j) = (fun t => X t i) - D *ᵥ (fun t => ∑ j, X t j) := by
      have e1 : ∀ j, (if j = i then 1 - D else -D) *ᵥ (fun t => X t j) = (if j = i then (fun t => X t j) else 0) - D *ᵥ (fun t => X t j) := fun j => by
        split
        · rw [Matrix.sub_mulVec, Matrix.one_mulVec]
        · rw [Matrix.neg_mulVec, zero_sub]
      rw [Finset.sum_congr rfl fun j _ => e1 j, Finset.sum_sub_distrib, Finset.sum_ite_eq' Finset.univ i, if_pos (Finset.mem_univ _),
        ← Matrix.mulVec_sum]
      congr 2
      funext t
      rw [Finset.sum_apply]
    rw [hone]
    funext t
    rw [h2, Matrix.mulVec_sub]
    simp only [Pi.add_apply, Pi.sub_apply]
    ring
  · have hp := propagate (hx i) hr
    rw [← hSr, ← hD] at hp
    have e : ∑ j, (if j = i then 1 - D else -D) * Cxi j * (if j = i then 1 - D else -D)ᵀ = (1 - D) * Cxi i * (1 - D)ᵀ + D * rest * Dᵀ := by
      rw [← Finset.add_sum_erase _ _ (Finset.mem_univ i), if_pos rfl]
      congr 1
      rw [hrest, ← Finset.add_sum_erase Finset.univ (fun j => if j = i then (0 : Mat nt nt) else Cxi j) (Finset.mem_univ i), if_pos rfl, zero_add,
        Finset.mul_sum, Finset.sum_mul]
      refine Finset.sum_congr rfl fun j hj => ?_
      have hj := Finset.ne_of_mem_erase hj
      rw [if_neg hj, if_neg hj, Matrix.transpose_neg, Matrix.neg_mul, Matrix.neg_mul, Matrix.mul_neg, neg_neg]
    rw [h4, parallel (hx i) hr, ← hSr, ← hD, ← hp, e, Matrix.mul_add, Matrix.add_mul]
    abel

/-- **C130 (gain).** The reported covariance of the response never exceeds that of the observations alone. -/
theorem C130_reduces {nt nf : ℕ} (hnf : 0 < nf) {Cxi : Fin nf → Mat nt nt} {Cy : Mat nt nt} (hx : ∀ i, PD (Cxi i)) (hy : PD Cy)
    (X : Mat nt nf) (y : Vec nt) (R : Ribes nt nf) (h : ribes X y Cxi Cy = .ok R) : PSD (Cy - R.Cy) ∧ PD R.Cy := by
  have hs := sum_pd hnf hx
  obtain ⟨-, -, -, h3, -⟩ := ribes_inv h
  refine ⟨?_, by rw [h3]; exact (hy.inv.add hs.inv).inv⟩
  rw [h3, parallel hy hs, sub_sub_cancel]
  have := (hy.add hs).inv.psd.congr Cy
  rwa [hy.1] at this

/-- Two forcings, two time steps, unit covariances: all hypotheses are met. -/
example : ∃ R, ribes (!![1, 2; 3, 4] : Mat 2 2) ![4, 6] (fun _ => 1) 1 = .ok R ∧ R.y 0 = R.X 0 0 + R.X 0 1 := by
  obtain ⟨R, h⟩ := C128_succeeds (by norm_num) (!![1, 2; 3, 4] : Mat 2 2) ![4, 6] (fun _ => PD.one) PD.one
  exact ⟨R, h, by rw [C128_additive _ _ _ _ R h, Fin.sum_univ_two]⟩

end Skyborn.ROF
