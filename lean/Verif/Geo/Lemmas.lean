/-
Closed forms of the geostrophic kernels of `Verif/Geo/Model.lean`.
-/
import Verif.Geo.Model
import Mathlib.Analysis.SpecialFunctions.Trigonometric.Deriv

namespace Skyborn.Geo
open Skyborn Windspharm

theorem rdm_ok {α : Type} {n m : ℕ} {a : ℕ → ℕ → α} {i j : ℕ} (h1 : 1 ≤ i) (h2 : i ≤ n) (h3 : 1 ≤ j) (h4 : j ≤ m) :
    rdm n m a i j = some (a i j) := by simp [rdm, h1, h2, h3, h4]

theorem wrm_ok {α : Type} {n m : ℕ} {a : ℕ → ℕ → α} {i j : ℕ} {v : α} (h1 : 1 ≤ i) (h2 : i ≤ n) (h3 : 1 ≤ j) (h4 : j ≤ m) :
    wrm n m a i j v = some (set2 a i j v) := by simp [wrm, h1, h2, h3, h4]

/-- A loop whose step `i` only rewrites the cells satisfying `C i`, each from its own old value. -/
theorem loop_cells {α : Type} {lo hi : ℕ} (hle : lo ≤ hi + 1) {a : ℕ → ℕ → α} {f : ℕ → (ℕ → ℕ → α) → Option (ℕ → ℕ → α)}
    (C : ℕ → ℕ → ℕ → Prop) [∀ i x y, Decidable (C i x y)] (g : ℕ → ℕ → α → α)
    (hC : ∀ i i' x y, C i x y → C i' x y → i = i')
    (h : ∀ i a, lo ≤ i → i ≤ hi → f i a = some (fun x y => if C i x y then g x y (a x y) else a x y)) :
    ∃ b, doLoopM lo hi a f = some b ∧ (∀ i x y, lo ≤ i → i ≤ hi → C i x y → b x y = g x y (a x y)) ∧
      ∀ x y, (∀ i, lo ≤ i → i ≤ hi → ¬ C i x y) → b x y = a x y := by
  obtain ⟨b, e, h1, h2⟩ := doLoopM_inv (lo := lo) (hi := hi) hle (s := a) (f := f)
    (fun k b => (∀ i x y, lo ≤ i → i < k → C i x y → b x y = g x y (a x y)) ∧
      ∀ x y, (∀ i, lo ≤ i → i < k → ¬ C i x y) → b x y = a x y)
    ⟨by intro i x y h1 h2; omega, by intro x y _; rfl⟩
    (by
      rintro k b hk1 hk2 ⟨p1, p2⟩
      refine ⟨_, h k b hk1 hk2, ?_, ?_⟩
      · intro i x y hi1 hi2 hc
        beta_reduce
        by_cases hik : C k x y
        · have := hC _ _ _ _ hc hik; subst this
          rw [if_pos hik, p2 x y]
          intro i' g1 g2 g3
          have := hC _ _ _ _ g3 hik; omega
        · rw [if_neg hik]
          refine p1 i x y hi1 ?_ hc
          by_contra hcon
          have : i = k := by omega
          exact hik (this ▸ hc)
      · intro x y hx
        beta_reduce
        rw [if_neg (hx k hk1 (by omega))]
        exact p2 x y fun i g1 g2 => hx i g1 (by omega))
  exact ⟨b, e, fun i x y g1 g2 g3 => h1 i x y g1 (by omega) g3, fun x y hx => h2 x y fun i g1 g2 => hx i g1 (by omega)⟩

/-- The inner loop of a row: cell `(i, j)` for every `j`. -/
theorem loop_row {α : Type} {lo hi i : ℕ} (hle : lo ≤ hi + 1) {a : ℕ → ℕ → α} {f : ℕ → (ℕ → ℕ → α) → Option (ℕ → ℕ → α)}
    (g : ℕ → α → α) (h : ∀ j a, lo ≤ j → j ≤ hi → f j a = some (set2 a i j (g j (a i j)))) :
    doLoopM lo hi a f = some (fun x y => if x = i ∧ (lo ≤ y ∧ y ≤ hi) then g y (a x y) else a x y) := by
  obtain ⟨b, e, h1, h2⟩ := loop_cells hle (a := a) (f := f) (fun j x y => x = i ∧ y = j) (fun _ y => g y)
    (by rintro j j' x y ⟨-, rfl⟩ ⟨-, rfl⟩; rfl)
    (by
      intro j a g1 g2
      rw [h j a g1 g2]
      congr 1
      funext x y
      by_cases hxy : x = i ∧ y = j
      · obtain ⟨rfl, rfl⟩ := hxy; simp
      · rw [if_neg hxy, set2_ne hxy])
  rw [e]
  congr 1
  funext x y
  by_cases hxy : x = i ∧ (lo ≤ y ∧ y ≤ hi)
  · rw [if_pos hxy]; exact h1 y x y hxy.2.1 hxy.2.2 ⟨hxy.1, rfl⟩
  · rw [if_neg hxy]
    refine h2 x y ?_
    rintro j g1 g2 ⟨g3, rfl⟩
    exact hxy ⟨g3, g1, g2⟩

/-- A loop over whole rows. -/
theorem loop_rows {α : Type} {lo hi c d : ℕ} (hle : lo ≤ hi + 1) {a : ℕ → ℕ → α} {f : ℕ → (ℕ → ℕ → α) → Option (ℕ → ℕ → α)}
    (ρ : ℕ → ℕ) (hρ : ∀ i i', lo ≤ i → i ≤ hi → lo ≤ i' → i' ≤ hi → ρ i = ρ i' → i = i') (g : ℕ → ℕ → α → α)
    (h : ∀ i a, lo ≤ i → i ≤ hi → f i a = some (fun x y => if x = ρ i ∧ (c ≤ y ∧ y ≤ d) then g x y (a x y) else a x y)) :
    ∃ b, doLoopM lo hi a f = some b ∧ (∀ i y, lo ≤ i → i ≤ hi → c ≤ y → y ≤ d → b (ρ i) y = g (ρ i) y (a (ρ i) y)) ∧
      ∀ x y, ((∀ i, lo ≤ i → i ≤ hi → x ≠ ρ i) ∨ ¬ (c ≤ y ∧ y ≤ d)) → b x y = a x y := by
  obtain ⟨b, e, h1, h2⟩ := loop_cells hle (a := a) (f := f)
    (fun i x y => lo ≤ i ∧ i ≤ hi ∧ x = ρ i ∧ (c ≤ y ∧ y ≤ d)) g
    (by rintro i i' x y ⟨p1, p2, p3, -⟩ ⟨q1, q2, q3, -⟩; exact hρ _ _ p1 p2 q1 q2 (p3 ▸ q3))
    (by
      intro i a g1 g2
      rw [h i a g1 g2]
      congr 1
      funext x y
      by_cases hx : x = ρ i ∧ (c ≤ y ∧ y ≤ d)
      · rw [if_pos hx, if_pos ⟨g1, g2, hx⟩]
      · rw [if_neg hx, if_neg (fun hc => hx hc.2.2)])
  refine ⟨b, e, fun i y g1 g2 g3 g4 => h1 i _ y g1 g2 ⟨g1, g2, rfl, g3, g4⟩, fun x y hx => h2 x y ?_⟩
  rintro i g1 g2 ⟨-, -, g3, g4⟩
  rcases hx with hx | hx
  · exact hx i g1 g2 g3
  · exact hx g4

/-! ### The extended field -/

/-- Row / column of the input behind row / column `i` of the extended field. -/
def clampRow (n i : ℕ) : ℕ := if i = 0 then 1 else if i = n + 1 then n else i
@[inherit_doc clampRow]
def wrapCol (m : ℕ) (cyc : Bool) (j : ℕ) : ℕ :=
  if j = 0 then (if cyc then m else 1) else if j = m + 1 then (if cyc then 1 else m) else j

theorem extend_eq {n m : ℕ} (hn : 1 ≤ n) (hm : 1 ≤ m) (z : ℕ → ℕ → ℝ) (cyc : Bool) (zz0 : ℕ → ℕ → ℝ) :
    ∃ zz, extend n m z cyc zz0 = some zz ∧
      ∀ i j, i ≤ n + 1 → j ≤ m + 1 → zz i j = z (clampRow n i) (wrapCol m cyc j) := by
  obtain ⟨a, ea, a1, -⟩ := loop_rows (lo := 1) (hi := n) (c := 1) (d := m) (by omega) (a := zz0)
    (f := fun nl zz => doLoopM 1 m zz fun ml zz => do
      let v ← rdm n m z nl ml
      wr2 (n + 2) (m + 2) zz nl ml v) (fun i => i) (by intros; assumption) (fun x y _ => z x y)
    (by
      intro i a g1 g2
      beta_reduce
      rw [loop_row (i := i) (by omega) (fun j _ => z i j)]
      · congr 1; funext x y
        by_cases hx : x = i ∧ (1 ≤ y ∧ y ≤ m)
        · rw [if_pos hx, if_pos hx, hx.1]
        · rw [if_neg hx, if_neg hx]
      · intro j b g3 g4
        rw [rdm_ok g1 g2 g3 g4]
        simp only [Option.bind_eq_bind, Option.bind_some]
        rw [wr2_ok (by omega) (by omega)])
  obtain ⟨b, eb, b1, b2⟩ := doLoopM_inv (lo := 1) (hi := m) (by omega) (s := a)
    (f := fun ml zz => do
      let a ← rd2 (n + 2) (m + 2) zz 1 ml
      let zz ← wr2 (n + 2) (m + 2) zz 0 ml a
      let b ← rd2 (n + 2) (m + 2) zz n ml
      wr2 (n + 2) (m + 2) zz (n + 1) ml b)
    (fun k b => (∀ x y, 1 ≤ x → x ≤ n → b x y = a x y) ∧ ∀ y, 1 ≤ y → y < k → b 0 y = a 1 y ∧ b (n + 1) y = a n y)
    ⟨fun _ _ _ _ => rfl, by intro y h1 h2; omega⟩
    (by
      rintro k b g1 g2 ⟨p1, p2⟩
      rw [rd2_ok (by omega) (by omega)]
      simp only [Option.bind_eq_bind, Option.bind_some]
      rw [wr2_ok (by omega) (by omega)]
      simp only [Option.bind_some]
      rw [rd2_ok (by omega) (by omega)]
      simp only [Option.bind_some]
      rw [wr2_ok (by omega) (by omega)]
      refine ⟨_, rfl, ?_, ?_⟩
      · intro x y h1 h2
        rw [set2_ne (by omega), set2_ne (by omega)]
        exact p1 x y h1 h2
      · intro y h1 h2
        by_cases hy : y = k
        · subst hy
          rw [set2_ne (by omega), set2_same, set2_same, set2_ne (by omega), p1 1 y le_rfl hn, p1 n y hn le_rfl]
          exact ⟨rfl, rfl⟩
        · rw [set2_ne (by omega), set2_ne (by omega), set2_ne (by omega), set2_ne (by omega)]
          exact p2 y h1 (by omega))
  have bz : ∀ i j, i ≤ n + 1 → 1 ≤ j → j ≤ m → b i j = z (clampRow n i) j := by
    intro i j h1 h2 h3
    unfold clampRow
    by_cases hi : i = 0
    · subst hi; rw [if_pos rfl, (b2 j h2 (by omega)).1]; exact a1 1 j le_rfl hn h2 h3
    · rw [if_neg hi]
      by_cases hi' : i = n + 1
      · subst hi'; rw [if_pos rfl, (b2 j h2 (by omega)).2]; exact a1 n j hn le_rfl h2 h3
      · rw [if_neg hi', b1 i j (by omega) (by omega)]; exact a1 i j (by omega) (by omega) h2 h3
  obtain ⟨c, ec, c1, c2⟩ := doLoopM_inv (lo := 0) (hi := n + 1) (by omega) (s := b)
    (f := fun nl zz => do
      let a ← rd2 (n + 2) (m + 2) zz nl (if cyc then m else 1)
      let zz ← wr2 (n + 2) (m + 2) zz nl 0 a
      let b ← rd2 (n + 2) (m + 2) zz nl (if cyc then 1 else m)
      wr2 (n + 2) (m + 2) zz nl (m + 1) b)
    (fun k c => (∀ x y, 1 ≤ y → y ≤ m → c x y = b x y) ∧
      ∀ x, x < k → c x 0 = b x (if cyc then m else 1) ∧ c x (m + 1) = b x (if cyc then 1 else m))
    ⟨fun _ _ _ _ => rfl, by intro y h1; omega⟩
    (by
      rintro k c g1 g2 ⟨p1, p2⟩
      have w1 : 1 ≤ (if cyc then m else 1) ∧ (if cyc then m else 1) ≤ m := by split <;> omega
      have w2 : 1 ≤ (if cyc then 1 else m) ∧ (if cyc then 1 else m) ≤ m := by split <;> omega
      generalize (if cyc then m else 1) = q1 at *
      generalize (if cyc then 1 else m) = q2 at *
      rw [rd2_ok (by omega) (by omega)]
      simp only [Option.bind_eq_bind, Option.bind_some]
      rw [wr2_ok (by omega) (by omega)]
      simp only [Option.bind_some]
      rw [rd2_ok (by omega) (by omega)]
      simp only [Option.bind_some]
      rw [wr2_ok (by omega) (by omega)]
      refine ⟨_, rfl, ?_, ?_⟩
      · intro x y h1 h2
        rw [set2_ne (by omega), set2_ne (by omega)]
        exact p1 x y h1 h2
      · intro x h1
        by_cases hy : x = k
        · subst hy
          rw [set2_ne (by omega), set2_same, set2_same, set2_ne (by omega), p1 _ _ w1.1 w1.2, p1 _ _ w2.1 w2.2]
          exact ⟨rfl, rfl⟩
        · rw [set2_ne (by omega), set2_ne (by omega), set2_ne (by omega), set2_ne (by omega)]
          exact p2 x (by omega))
  refine ⟨c, ?_, ?_⟩
  · unfold extend
    rw [ea]
    simp only [Option.bind_eq_bind, Option.bind_some]
    simp only [Option.bind_eq_bind] at eb ec
    rw [eb]
    simp only [Option.bind_some]
    exact ec
  · intro i j h1 h2
    have w1 : 1 ≤ (if cyc then m else 1) ∧ (if cyc then m else 1) ≤ m := by split <;> omega
    have w2 : 1 ≤ (if cyc then 1 else m) ∧ (if cyc then 1 else m) ≤ m := by split <;> omega
    unfold wrapCol
    by_cases hj : j = 0
    · subst hj; rw [if_pos rfl, (c2 i (by omega)).1]; exact bz _ _ h1 w1.1 w1.2
    · rw [if_neg hj]
      by_cases hj' : j = m + 1
      · subst hj'; rw [if_pos rfl, (c2 i (by omega)).2]; exact bz _ _ h1 w2.1 w2.2
      · rw [if_neg hj', c1 i j (by omega) (by omega)]; exact bz i j h1 (by omega) (by omega)

/-! ### Row coefficients -/

/-- `valid_lat`. -/
noncomputable def okLat (lat : ℝ) : Bool := decide (lat ≠ 0) && decide (|lat| ≤ 89.999)

theorem rows_eq {n : ℕ} (hn : 2 ≤ n) (glat : ℕ → ℝ) (zmsg dlon2 rr : ℝ) (r0 : Rows) :
    ∃ ra rb r, rowLoop n glat zmsg dlon2 r0 = some ra ∧ poles n glat ra = some rb ∧ dyLoop n glat rr rb = some r ∧
      ∀ i, 1 ≤ i → i ≤ n → r.valid i = okLat (glat i) ∧
        r.invDy i = 1 / ((glat (clampRow n (i + 1)) - glat (clampRow n (i - 1))) * rr) ∧
        (okLat (glat i) = true → r.gf i = gr / (2 * omega) / Real.sin (glat i * rad) ∧
          r.invDx i = 1 / (dlon2 * Real.cos (glat i * rad))) := by
  obtain ⟨ra, ea, a1⟩ := doLoopM_inv (lo := 1) (hi := n) (by omega) (s := r0)
    (f := fun nl r => do
    let lat ← rd n glat nl
    let ok : Bool := decide (lat ≠ 0) && decide (|lat| ≤ 89.999)
    let valid ← wr n r.valid nl ok
    if ok then do
      let gf ← wr n r.gf nl (gr / (2 * omega) / Real.sin (lat * rad))
      let dx := dlon2 * Real.cos (lat * rad)
      let invDx ← wr n r.invDx nl (if dx ≠ 0 then 1 / dx else 0)
      some { r with valid := valid, gf := gf, invDx := invDx }
    else do
      let gf ← wr n r.gf nl zmsg
      let invDx ← wr n r.invDx nl 0
      some { r with valid := valid, gf := gf, invDx := invDx })
    (fun k r => ∀ i, 1 ≤ i → i < k → r.valid i = okLat (glat i) ∧
        (okLat (glat i) = true → r.gf i = gr / (2 * omega) / Real.sin (glat i * rad) ∧
          r.invDx i = 1 / (dlon2 * Real.cos (glat i * rad))))
    (by intro i h1 h2; omega)
    (by
      intro k r g1 g2 p
      rw [rd_ok g1 g2]
      simp only [Option.bind_eq_bind, Option.bind_some]
      rw [wr_ok g1 g2]
      simp only [Option.bind_some]
      rw [show (decide (glat k ≠ 0) && decide (|glat k| ≤ 89.999)) = okLat (glat k) from rfl]
      by_cases hok : okLat (glat k) = true
      · rw [if_pos hok, wr_ok g1 g2]
        simp only [Option.bind_some]
        rw [wr_ok g1 g2]
        simp only [Option.bind_some]
        refine ⟨_, rfl, fun i h1 h2 => ?_⟩
        dsimp only
        by_cases hik : i = k
        · subst hik
          simp only [Function.update_self]
          refine ⟨trivial, fun _ => ⟨trivial, ?_⟩⟩
          by_cases hd : dlon2 * Real.cos (glat i * rad) = 0
          · rw [if_neg (not_not.mpr hd), hd]; simp
          · rw [if_pos hd]
        · simp only [Function.update_of_ne hik]
          exact p i h1 (by omega)
      · rw [if_neg hok, wr_ok g1 g2]
        simp only [Option.bind_some]
        rw [wr_ok g1 g2]
        simp only [Option.bind_some]
        refine ⟨_, rfl, fun i h1 h2 => ?_⟩
        dsimp only
        by_cases hik : i = k
        · subst hik
          simp only [Function.update_self]
          exact ⟨trivial, fun hc => absurd hc hok⟩
        · simp only [Function.update_of_ne hik]
          exact p i h1 (by omega))
  have hp : ∃ rb, poles n glat ra = some rb ∧ rb.valid = ra.valid ∧ rb.gf = ra.gf ∧
      ∀ i, okLat (glat i) = true → rb.invDx i = ra.invDx i := by
    unfold poles
    rw [rd_ok (a := glat) le_rfl (by omega), rd_ok (a := glat) (i := n) (by omega) le_rfl]
    simp only [Option.bind_eq_bind, Option.bind_some]
    have key1 : glat 1 < -89.999 → okLat (glat 1) = false := by
      intro h; unfold okLat; rw [abs_of_neg (by linarith)]
      simp; intro _; linarith
    have key2 : glat n > 89.999 → okLat (glat n) = false := by
      intro h; unfold okLat; rw [abs_of_pos (by linarith)]
      simp; intro _; linarith
    by_cases hs : glat 1 < -89.999
    · rw [if_pos hs, wr_ok le_rfl (by omega)]
      simp only [Option.bind_some]
      by_cases hnn : glat n > 89.999
      · rw [if_pos hnn, wr_ok (by omega) le_rfl]
        refine ⟨_, rfl, rfl, rfl, fun i hi => ?_⟩
        dsimp only
        rw [Function.update_of_ne (show i ≠ n by rintro rfl; simp [key2 hnn] at hi),
          Function.update_of_ne (show i ≠ 1 by rintro rfl; simp [key1 hs] at hi)]
      · rw [if_neg hnn]
        refine ⟨_, rfl, rfl, rfl, fun i hi => ?_⟩
        dsimp only
        rw [Function.update_of_ne (show i ≠ 1 by rintro rfl; simp [key1 hs] at hi)]
    · rw [if_neg hs]
      simp only [Option.bind_some]
      by_cases hnn : glat n > 89.999
      · rw [if_pos hnn, wr_ok (by omega) le_rfl]
        refine ⟨_, rfl, rfl, rfl, fun i hi => ?_⟩
        dsimp only
        rw [Function.update_of_ne (show i ≠ n by rintro rfl; simp [key2 hnn] at hi)]
      · rw [if_neg hnn]
        exact ⟨_, rfl, rfl, rfl, fun i hi => rfl⟩
  obtain ⟨rb, eb, b1, b2, b3⟩ := hp
  have hd : ∃ r, dyLoop n glat rr rb = some r ∧ r.valid = rb.valid ∧ r.gf = rb.gf ∧ r.invDx = rb.invDx ∧
      ∀ i, 1 ≤ i → i ≤ n → r.invDy i = 1 / ((glat (clampRow n (i + 1)) - glat (clampRow n (i - 1))) * rr) := by
    unfold dyLoop
    rw [rd_ok (a := glat) (i := 2) (by omega) (by omega), rd_ok (a := glat) (i := 1) (by omega) (by omega),
      rd_ok (a := glat) (i := n) (by omega) (by omega), rd_ok (a := glat) (i := n - 1) (by omega) (by omega)]
    simp only [Option.bind_eq_bind, Option.bind_some]
    rw [wr_ok le_rfl (by omega)]
    simp only [Option.bind_some]
    obtain ⟨d, e, d1, d2⟩ := doLoopM_inv (lo := 2) (hi := n - 1) (by omega)
      (s := Function.update rb.invDy 1 (1 / ((glat 2 - glat 1) * rr)))
      (f := fun nl d => do
        let a ← rd n glat (nl + 1)
        let b ← rd n glat (nl - 1)
        wr n d nl (1 / ((a - b) * rr)))
      (fun k d => d 1 = 1 / ((glat 2 - glat 1) * rr) ∧ ∀ i, 2 ≤ i → i < k → d i = 1 / ((glat (i + 1) - glat (i - 1)) * rr))
      ⟨by rw [Function.update_self], by intro i h1 h2; omega⟩
      (by
        rintro k d g1 g2 ⟨p1, p2⟩
        rw [rd_ok (by omega) (by omega), rd_ok (by omega) (by omega)]
        simp only [Option.bind_eq_bind, Option.bind_some]
        rw [wr_ok (by omega) (by omega)]
        refine ⟨_, rfl, ?_, fun i h1 h2 => ?_⟩
        · rw [Function.update_of_ne (by omega), p1]
        · by_cases hik : i = k
          · subst hik; rw [Function.update_self]
          · rw [Function.update_of_ne hik]; exact p2 i h1 (by omega))
    simp only [Option.bind_eq_bind] at e
    rw [e]
    simp only [Option.bind_some]
    rw [wr_ok (by omega) le_rfl]
    simp only [Option.bind_some]
    refine ⟨_, rfl, rfl, rfl, rfl, fun i h1 h2 => ?_⟩
    dsimp only
    unfold clampRow
    by_cases hin : i = n
    · subst hin
      rw [Function.update_self, if_neg (by omega), if_pos rfl, if_neg (by omega), if_neg (by omega)]
    · rw [Function.update_of_ne hin, if_neg (by omega), if_neg (by omega)]
      by_cases hi1 : i = 1
      · subst hi1; rw [d1, if_pos (by omega)]
      · rw [d2 i (by omega) (by omega), if_neg (by omega), if_neg (by omega)]
  obtain ⟨r, er, r1, r2, r3, r4⟩ := hd
  refine ⟨ra, rb, r, ea, eb, er, fun i h1 h2 => ⟨?_, r4 i h1 h2, fun hok => ?_⟩⟩
  · rw [r1, b1]; exact (a1 i h1 (by omega)).1
  · rw [r2, r3, b2, b3 i hok]; exact (a1 i h1 (by omega)).2 hok

/-! ### Main loop -/

/-- The value the main loop leaves in `ug(i, j)` / `vg(i, j)`. -/
noncomputable def uCell (zz : ℕ → ℕ → ℝ) (zmsg : ℝ) (r : Rows) (i j : ℕ) : ℝ :=
  if r.valid i = true ∧ zz (i + 1) j ≠ zmsg ∧ zz (i - 1) j ≠ zmsg then -r.gf i * (zz (i + 1) j - zz (i - 1) j) * r.invDy i else zmsg
@[inherit_doc uCell]
noncomputable def vCell (zz : ℕ → ℕ → ℝ) (zmsg : ℝ) (r : Rows) (i j : ℕ) : ℝ :=
  if r.valid i = true ∧ zz i (j + 1) ≠ zmsg ∧ zz i (j - 1) ≠ zmsg then r.gf i * (zz i (j + 1) - zz i (j - 1)) * r.invDx i else zmsg

theorem mainLoop_eq {n m : ℕ} (zz : ℕ → ℕ → ℝ) (zmsg : ℝ) (r : Rows) :
    ∃ w, mainLoop n m zz zmsg r ⟨fun _ _ => zmsg, fun _ _ => zmsg⟩ = some w ∧
      ∀ i j, 1 ≤ i → i ≤ n → 1 ≤ j → j ≤ m → w.u i j = uCell zz zmsg r i j ∧ w.v i j = vCell zz zmsg r i j := by
  obtain ⟨w, e, h1, -⟩ := doLoopM_inv (lo := 1) (hi := n) (by omega) (s := (⟨fun _ _ => zmsg, fun _ _ => zmsg⟩ : Wind))
    (f := fun nl w => do
    let ok ← rd n r.valid nl
    if ok then
      doLoopM 1 m w fun ml w => do
        let n' ← rd2 (n + 2) (m + 2) zz (nl + 1) ml
        let s ← rd2 (n + 2) (m + 2) zz (nl - 1) ml
        let e ← rd2 (n + 2) (m + 2) zz nl (ml + 1)
        let ww ← rd2 (n + 2) (m + 2) zz nl (ml - 1)
        let gf ← rd n r.gf nl
        let dy ← rd n r.invDy nl
        let dx ← rd n r.invDx nl
        if n' ≠ zmsg ∧ s ≠ zmsg ∧ e ≠ zmsg ∧ ww ≠ zmsg then do
          let u ← wrm n m w.u nl ml (-gf * (n' - s) * dy)
          let v ← wrm n m w.v nl ml (gf * (e - ww) * dx)
          some ⟨u, v⟩
        else do
          let w ← (if n' ≠ zmsg ∧ s ≠ zmsg then do { let u ← wrm n m w.u nl ml (-gf * (n' - s) * dy); some { w with u := u } }
            else some w)
          if e ≠ zmsg ∧ ww ≠ zmsg then do { let v ← wrm n m w.v nl ml (gf * (e - ww) * dx); some { w with v := v } } else some w
    else some w)
    (fun k w => (∀ i j, 1 ≤ i → i < k → 1 ≤ j → j ≤ m → w.u i j = uCell zz zmsg r i j ∧ w.v i j = vCell zz zmsg r i j) ∧
      ∀ i j, k ≤ i → w.u i j = zmsg ∧ w.v i j = zmsg)
    ⟨by intro i j h1 h2; omega, fun _ _ _ => ⟨rfl, rfl⟩⟩
    (by
      rintro k w g1 g2 ⟨p1, p2⟩
      rw [rd_ok g1 g2]
      simp only [Option.bind_eq_bind, Option.bind_some]
      by_cases hv : r.valid k = true
      · rw [if_pos hv]
        have step : ∀ F : ℕ → Wind → Option Wind, (∀ l w', 1 ≤ l → l ≤ m →
            ((∀ i j, i ≠ k → w'.u i j = w.u i j ∧ w'.v i j = w.v i j) ∧
            (∀ j, 1 ≤ j → j < l → w'.u k j = uCell zz zmsg r k j ∧ w'.v k j = vCell zz zmsg r k j) ∧
            ∀ j, l ≤ j → w'.u k j = zmsg ∧ w'.v k j = zmsg) → ∃ w2, F l w' = some w2 ∧
            ((∀ i j, i ≠ k → w2.u i j = w.u i j ∧ w2.v i j = w.v i j) ∧
            (∀ j, 1 ≤ j → j < l + 1 → w2.u k j = uCell zz zmsg r k j ∧ w2.v k j = vCell zz zmsg r k j) ∧
            ∀ j, l + 1 ≤ j → w2.u k j = zmsg ∧ w2.v k j = zmsg)) →
            ∃ w2, doLoopM 1 m w F = some w2 ∧
              (∀ i j, 1 ≤ i → i < k + 1 → 1 ≤ j → j ≤ m → w2.u i j = uCell zz zmsg r i j ∧ w2.v i j = vCell zz zmsg r i j) ∧
              ∀ i j, k + 1 ≤ i → w2.u i j = zmsg ∧ w2.v i j = zmsg := by
          intro F hF
          obtain ⟨w2, e2, q1, q2, -⟩ := doLoopM_inv (lo := 1) (hi := m) (by omega) (s := w) (f := F) (fun l w' =>
              (∀ i j, i ≠ k → w'.u i j = w.u i j ∧ w'.v i j = w.v i j) ∧
              (∀ j, 1 ≤ j → j < l → w'.u k j = uCell zz zmsg r k j ∧ w'.v k j = vCell zz zmsg r k j) ∧
              ∀ j, l ≤ j → w'.u k j = zmsg ∧ w'.v k j = zmsg)
            ⟨fun _ _ _ => ⟨rfl, rfl⟩, by intro j h1 h2; omega, fun j _ => p2 k j le_rfl⟩ hF
          refine ⟨w2, e2, fun i j h1 h2 h3 h4 => ?_, fun i j hi => ?_⟩
          · by_cases hik : i = k
            · subst hik; exact q2 j h3 (by omega)
            · rw [(q1 i j hik).1, (q1 i j hik).2]; exact p1 i j h1 (by omega) h3 h4
          · rw [(q1 i j (by omega)).1, (q1 i j (by omega)).2]; exact p2 i j (by omega)
        refine step _ ?_
        · rintro l w' l1 l2 ⟨q1, q2, q3⟩
          rw [rd2_ok (by omega) (by omega), rd2_ok (by omega) (by omega), rd2_ok (by omega) (by omega), rd2_ok (by omega) (by omega),
            rd_ok (a := r.gf) g1 g2, rd_ok (a := r.invDy) g1 g2, rd_ok (a := r.invDx) g1 g2]
          simp only [Option.bind_some]
          rw [wrm_ok g1 g2 l1 l2, wrm_ok g1 g2 l1 l2]
          simp only [Option.bind_some]
          have fin : ∀ w2 : Wind, (∀ i j, ¬ (i = k ∧ j = l) → w2.u i j = w'.u i j ∧ w2.v i j = w'.v i j) →
              w2.u k l = uCell zz zmsg r k l → w2.v k l = vCell zz zmsg r k l →
              ((∀ i j, i ≠ k → w2.u i j = w.u i j ∧ w2.v i j = w.v i j) ∧
              (∀ j, 1 ≤ j → j < l + 1 → w2.u k j = uCell zz zmsg r k j ∧ w2.v k j = vCell zz zmsg r k j) ∧
              ∀ j, l + 1 ≤ j → w2.u k j = zmsg ∧ w2.v k j = zmsg) := by
            intro w2 f1 f2 f3
            refine ⟨fun i j hi => ?_, fun j j1 j2 => ?_, fun j hj => ?_⟩
            · rw [(f1 i j (by tauto)).1, (f1 i j (by tauto)).2]; exact q1 i j hi
            · by_cases hjl : j = l
              · subst hjl; exact ⟨f2, f3⟩
              · rw [(f1 k j (by tauto)).1, (f1 k j (by tauto)).2]; exact q2 j j1 (by omega)
            · rw [(f1 k j (by omega)).1, (f1 k j (by omega)).2]; exact q3 j (by omega)
          have hu : w'.u k l = zmsg := (q3 l le_rfl).1
          have hw : w'.v k l = zmsg := (q3 l le_rfl).2
          by_cases hns : zz (k + 1) l ≠ zmsg ∧ zz (k - 1) l ≠ zmsg <;> by_cases hew : zz k (l + 1) ≠ zmsg ∧ zz k (l - 1) ≠ zmsg
          · rw [if_pos (by tauto)]
            refine ⟨_, rfl, fin _ (fun i j hij => ⟨set2_ne hij, set2_ne hij⟩) ?_ ?_⟩
            · dsimp only; rw [set2_same, uCell, if_pos (by tauto)]
            · dsimp only; rw [set2_same, vCell, if_pos (by tauto)]
          · rw [if_neg (by tauto), if_pos hns]
            simp only [Option.bind_some]
            rw [if_neg hew]
            refine ⟨_, rfl, fin _ (fun i j hij => ⟨set2_ne hij, rfl⟩) ?_ ?_⟩
            · dsimp only; rw [set2_same, uCell, if_pos (by tauto)]
            · dsimp only; rw [hw, vCell, if_neg (by tauto)]
          · rw [if_neg (by tauto), if_neg hns]
            simp only [Option.bind_some]
            rw [if_pos hew, wrm_ok g1 g2 l1 l2]
            refine ⟨_, rfl, fin _ (fun i j hij => ⟨rfl, set2_ne hij⟩) ?_ ?_⟩
            · dsimp only; rw [hu, uCell, if_neg (by tauto)]
            · dsimp only; rw [set2_same, vCell, if_pos (by tauto)]
          · rw [if_neg (by tauto), if_neg hns]
            simp only [Option.bind_some]
            rw [if_neg hew]
            refine ⟨_, rfl, fin _ (fun i j hij => ⟨rfl, rfl⟩) ?_ ?_⟩
            · rw [hu, uCell, if_neg (by tauto)]
            · rw [hw, vCell, if_neg (by tauto)]
      · rw [if_neg hv]
        refine ⟨w, rfl, fun i j h1 h2 h3 h4 => ?_, fun i j hi => p2 i j (by omega)⟩
        by_cases hik : i = k
        · subst hik
          rw [(p2 i j le_rfl).1, (p2 i j le_rfl).2, uCell, vCell, if_neg (by tauto), if_neg (by tauto)]
          exact ⟨rfl, rfl⟩
        · exact p1 i j h1 (by omega) h3 h4)
  exact ⟨w, e, fun i j h1' h2 h3 h4 => h1 i j h1' (by omega) h3 h4⟩

theorem adjust_eq {n m : ℕ} (hm : 2 ≤ m) (zmsg : ℝ) (v : ℕ → ℕ → ℝ) :
    ∃ w, adjust n m zmsg v = some w ∧ ∀ i j, 1 ≤ i → i ≤ n → 1 ≤ j → j ≤ m →
      w i j = if (j = 1 ∨ j = m) ∧ v i j ≠ zmsg then v i j * 2 else v i j := by
  obtain ⟨w, e, h1, -⟩ := doLoopM_inv (lo := 1) (hi := n) (by omega) (s := v)
    (f := fun nl v => do
    let a ← rdm n m v nl 1
    let v ← (if a ≠ zmsg then wrm n m v nl 1 (a * 2) else some v)
    let b ← rdm n m v nl m
    if b ≠ zmsg then wrm n m v nl m (b * 2) else some v)
    (fun k w => (∀ i j, 1 ≤ i → i < k → 1 ≤ j → j ≤ m → w i j = if (j = 1 ∨ j = m) ∧ v i j ≠ zmsg then v i j * 2 else v i j) ∧
      ∀ i j, k ≤ i → w i j = v i j)
    ⟨by intro i j h1 h2; omega, fun _ _ _ => rfl⟩
    (by
      rintro k w g1 g2 ⟨p1, p2⟩
      rw [rdm_ok g1 g2 le_rfl (by omega)]
      simp only [Option.bind_eq_bind, Option.bind_some]
      have fin : ∀ w2 : ℕ → ℕ → ℝ, (∀ i j, ¬ (i = k ∧ (j = 1 ∨ j = m)) → w2 i j = w i j) →
          (∀ j, j = 1 ∨ j = m → w2 k j = if v k j ≠ zmsg then v k j * 2 else v k j) →
          ((∀ i j, 1 ≤ i → i < k + 1 → 1 ≤ j → j ≤ m → w2 i j = if (j = 1 ∨ j = m) ∧ v i j ≠ zmsg then v i j * 2 else v i j) ∧
            ∀ i j, k + 1 ≤ i → w2 i j = v i j) := by
        intro w2 f1 f2
        refine ⟨fun i j h1 h2 h3 h4 => ?_, fun i j hi => ?_⟩
        · by_cases hik : i = k
          · subst hik
            by_cases hj : j = 1 ∨ j = m
            · rw [f2 j hj]
              by_cases hz : v i j ≠ zmsg
              · rw [if_pos hz, if_pos ⟨hj, hz⟩]
              · rw [if_neg hz, if_neg (by tauto)]
            · rw [f1 i j (by tauto), if_neg (by tauto), p2 i j le_rfl]
          · rw [f1 i j (by tauto)]; exact p1 i j h1 (by omega) h3 h4
        · rw [f1 i j (by omega)]; exact p2 i j (by omega)
      by_cases ha : w k 1 ≠ zmsg
      · rw [if_pos ha, wrm_ok g1 g2 le_rfl (by omega)]
        simp only [Option.bind_some]
        rw [rdm_ok g1 g2 (by omega) le_rfl]
        simp only [Option.bind_some]
        rw [set2_ne (by omega)]
        by_cases hb : w k m ≠ zmsg
        · rw [if_pos hb, wrm_ok g1 g2 (by omega) le_rfl]
          refine ⟨_, rfl, fin _ (fun i j h => ?_) ?_⟩
          · rw [set2_ne (by tauto), set2_ne (by tauto)]
          · rintro j (rfl | rfl)
            · rw [set2_ne (by omega), set2_same, ← p2 k 1 le_rfl, if_pos ha]
            · rw [set2_same, ← p2 k j le_rfl, if_pos hb]
        · rw [if_neg hb]
          refine ⟨_, rfl, fin _ (fun i j h => ?_) ?_⟩
          · rw [set2_ne (by tauto)]
          · rintro j (rfl | rfl)
            · rw [set2_same, ← p2 k 1 le_rfl, if_pos ha]
            · rw [set2_ne (by omega), ← p2 k j le_rfl, if_neg hb]
      · rw [if_neg ha]
        simp only [Option.bind_some]
        rw [rdm_ok g1 g2 (by omega) le_rfl]
        simp only [Option.bind_some]
        by_cases hb : w k m ≠ zmsg
        · rw [if_pos hb, wrm_ok g1 g2 (by omega) le_rfl]
          refine ⟨_, rfl, fin _ (fun i j h => ?_) ?_⟩
          · rw [set2_ne (by tauto)]
          · rintro j (rfl | rfl)
            · rw [set2_ne (by omega), ← p2 k 1 le_rfl, if_neg ha]
            · rw [set2_same, ← p2 k j le_rfl, if_pos hb]
        · rw [if_neg hb]
          refine ⟨_, rfl, fin _ (fun i j h => rfl) ?_⟩
          rintro j (rfl | rfl)
          · rw [← p2 k 1 le_rfl, if_neg ha]
          · rw [← p2 k j le_rfl, if_neg hb])
  exact ⟨w, e, fun i j h1' h2 h3 h4 => h1 i j h1' (by omega) h3 h4⟩

end Skyborn.Geo
