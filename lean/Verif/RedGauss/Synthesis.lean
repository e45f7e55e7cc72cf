/-
The scalar synthesis evaluates the truncated series; the path over pairs of rows agrees with the direct one.
-/
import Verif.RedGauss.Rows

namespace Skyborn.RedGauss

open Skyborn

/-! ### Buffers and rows of a grid -/

theorem upRow_apply (buf : ℕ → ℕ → ℝ) (r : ℕ) (f : (ℕ → ℝ) → ℕ → ℝ) (q : ℕ) :
    upRow buf r f q = if q = r then f (buf q) else buf q := by
  unfold upRow
  by_cases h : q = r
  · subst h; simp
  · rw [Function.update_of_ne h, if_neg h]

/-- A loop that treats the rows of a buffer separately. -/
theorem loop_rows {ρ : Type*} (lo hi : ℕ) (buf : ℕ → ρ) (f : ℕ → (ℕ → ρ) → ℕ → ρ) (G : ℕ → ρ → ρ) (r : ℕ)
    (h : ∀ m, lo ≤ m → m ≤ hi → ∀ buf, f m buf r = G m (buf r)) : doLoop lo hi buf f r = doLoop lo hi (buf r) G := by
  unfold doLoop
  have key : ∀ l : List ℕ, (∀ i ∈ l, lo ≤ i ∧ i ≤ hi) → ∀ buf : ℕ → ρ,
      l.foldl (fun s i => f i s) buf r = l.foldl (fun s i => G i s) (buf r) := by
    intro l
    induction l with
    | nil => intros; rfl
    | cons x xs ih =>
      intro hl buf
      rw [List.foldl_cons, List.foldl_cons, ih (fun i hi => hl i (by simp [hi])), h x (hl x (by simp)).1 (hl x (by simp)).2]
  exact key _ (fun i hi => by rw [List.mem_range'_1] at hi; omega) buf

/-- A loop that acts at one index only. -/
theorem loop_single {σ : Type*} {lo hi r : ℕ} (h1 : lo ≤ r) (h2 : r ≤ hi) (s : σ) (g : σ → σ) :
    doLoop lo hi s (fun k s => if k = r then g s else s) = g s := by
  have key := doLoop_inv (lo := lo) (hi := hi) (by omega) (s := s) (f := fun k s => if k = r then g s else s)
    (fun q t => t = if r < q then g s else s) (by rw [if_neg (by omega)])
    (by
      intro q t hq1 hq2 ht
      rw [ht]
      by_cases e : q = r
      · subst e; rw [if_pos rfl, if_neg (by omega), if_pos (by omega)]
      · rw [if_neg e]
        by_cases hr : r < q
        · rw [if_pos hr, if_pos (by omega)]
        · rw [if_neg hr, if_neg (by omega)])
  rw [key, if_pos (by omega)]

theorem loop_none {σ : Type*} {lo hi : ℕ} (s : σ) (f : ℕ → σ → σ) (h : ∀ k, lo ≤ k → k ≤ hi → ∀ s, f k s = s) : doLoop lo hi s f = s := by
  rw [doLoop_congr (g := fun _ s => s) fun i s h1 h2 => h i h1 h2 s]
  unfold doLoop
  generalize List.range' lo (hi + 1 - lo) = l
  induction l with
  | nil => rfl
  | cons x xs ih => exact ih

theorem putRow_eq (N offset k : ℕ) (x : ℕ → ℝ) (grid : ℕ → ℕ → ℝ) (p k' : ℕ) :
    putRow N offset k x grid p k' = if k' = k ∧ offset < p ∧ p ≤ offset + N then 0.5 * x (p - offset) else grid p k' := by
  have key := doLoop_inv (lo := 1) (hi := N) (by omega) (s := grid)
    (f := fun i g => Function.update g (offset + i) (Function.update (g (offset + i)) k (0.5 * x i)))
    (fun q g => ∀ p k', g p k' = if k' = k ∧ offset < p ∧ p < offset + q then 0.5 * x (p - offset) else grid p k')
    (fun p k' => by rw [if_neg (by omega)])
    (by
      intro q g h1 h2 ih p k'
      by_cases e : p = offset + q
      · subst e
        rw [Function.update_self]
        by_cases ek : k' = k
        · subst ek; rw [Function.update_self, if_pos (by omega)]; congr 2; omega
        · rw [Function.update_of_ne ek, ih, if_neg (by tauto), if_neg (by tauto)]
      · rw [Function.update_of_ne e, ih]
        by_cases hc : k' = k ∧ offset < p ∧ p < offset + q
        · rw [if_pos hc, if_pos (by omega)]
        · rw [if_neg hc, if_neg (by omega)])
  unfold putRow
  rw [key p k']
  by_cases hc : k' = k ∧ offset < p ∧ p ≤ offset + N
  · rw [if_pos hc, if_pos (by omega)]
  · rw [if_neg hc, if_neg (by omega)]

theorem zeroTail_eq {R mlimit N r p : ℕ} (h1 : 1 ≤ r) (h2 : r ≤ R) (hp : p ≤ N) (buf : ℕ → ℕ → ℝ) :
    zeroTail R mlimit N buf r p = if 2 * mlimit + 2 ≤ p then 0 else buf r p := by
  unfold zeroTail
  by_cases h : 2 * mlimit + 2 ≤ N
  · rw [if_pos h]
    by_cases hc : 2 * mlimit + 2 ≤ p
    · rw [if_pos hc, if_pos ⟨⟨h1, h2⟩, hc, hp⟩]
    · rw [if_neg hc, if_neg (by tauto)]
  · rw [if_neg h, if_neg (by omega)]

theorem fourRow_tail {mlimit p : ℕ} (c s : ℕ → ℝ) (h : 2 * mlimit + 2 ≤ p) : fourRow mlimit c s p = 0 := by
  unfold fourRow; rw [if_neg (by omega), if_neg (by omega)]

/-- A filled and transformed row of a buffer. -/
theorem fftbRow {E : Env} {plan N T R r i : ℕ} (hp : plan = N) (h1 : 1 ≤ r) (h2 : r ≤ R) (c s : ℕ → ℝ) (buf : ℕ → ℕ → ℝ)
    (hb : ∀ p, 1 ≤ p → p ≤ N → p ≤ 2 * min T (N / 2) + 1 → buf r p = fourRow (min T (N / 2)) c s p) (hi : 1 ≤ i) (hi2 : i ≤ N) :
    0.5 * fftbRows E plan N R (zeroTail R (min T (N / 2)) N buf) r i = fourSeries N T c s (lam N i) := by
  unfold fftbRows
  rw [if_pos ⟨h1, h2⟩, Env.fftb, if_pos hp]
  refine hrfftb_four hi hi2 c s _ fun p hp1 hp2 => ?_
  rw [zeroTail_eq h1 h2 hp2]
  by_cases ht : 2 * min T (N / 2) + 2 ≤ p
  · rw [if_pos ht, fourRow_tail _ _ ht]
  · rw [if_neg ht]; exact hb p hp1 hp2 (by omega)

/-- Writing the slices of one row. -/
theorem putSlices {N offset nt : ℕ} (x : ℕ → ℕ → ℝ) (grid : ℕ → ℕ → ℝ) (p k' : ℕ) :
    doLoop 1 nt grid (fun k g => putRow N offset k (x k) g) p k' =
      if (1 ≤ k' ∧ k' ≤ nt) ∧ offset < p ∧ p ≤ offset + N then 0.5 * x k' (p - offset) else grid p k' := by
  have key := doLoop_inv (lo := 1) (hi := nt) (by omega) (s := grid) (f := fun k g => putRow N offset k (x k) g)
    (fun q g => ∀ p k', g p k' = if (1 ≤ k' ∧ k' < q) ∧ offset < p ∧ p ≤ offset + N then 0.5 * x k' (p - offset) else grid p k')
    (fun p k' => by rw [if_neg (by omega)])
    (by
      intro q g h1 h2 ih p k'
      rw [putRow_eq, ih]
      by_cases e : k' = q ∧ offset < p ∧ p ≤ offset + N
      · rw [if_pos e, if_pos (by omega), e.1]
      · rw [if_neg e]
        by_cases hc : (1 ≤ k' ∧ k' < q) ∧ offset < p ∧ p ≤ offset + N
        · rw [if_pos hc, if_pos (by omega)]
        · rw [if_neg hc, if_neg (by omega)])
  rw [key p k']
  by_cases hc : (1 ≤ k' ∧ k' ≤ nt) ∧ offset < p ∧ p ≤ offset + N
  · rw [if_pos hc, if_pos (by omega)]
  · rw [if_neg hc, if_neg (by omega)]

/-! ### One row, one pair of rows -/

/-- Cosine coefficients of a row with Legendre values `b`. -/
noncomputable def cosC (T : ℕ) (spec : ℕ → ℂ) (b : ℕ → ℝ) (m : ℕ) : ℝ := 2 * ∑ n ∈ Finset.Icc m T, (spec (nmOf T m n)).re * b (nmOf T m n)

/-- Minus the sine coefficients. -/
noncomputable def sinC (T : ℕ) (spec : ℕ → ℂ) (b : ℕ → ℝ) (m : ℕ) : ℝ := 2 * ∑ n ∈ Finset.Icc m T, (spec (nmOf T m n)).im * b (nmOf T m n)

theorem synRow_eq {E : Env} {plan N offset T nt : ℕ} (hp : plan = N) (spec : ℕ → ℕ → ℂ) (b : ℕ → ℝ) (junk grid : ℕ → ℕ → ℝ) (p k' : ℕ) :
    synRow E plan N offset T nt spec b junk grid p k' =
      if (1 ≤ k' ∧ k' ≤ nt) ∧ offset < p ∧ p ≤ offset + N then
        fourSeries N T (cosC T (fun nm => spec nm k') b) (sinC T (fun nm => spec nm k') b) (lam N (p - offset))
      else grid p k' := by
  unfold synRow
  dsimp only
  rw [putSlices]
  by_cases hc : (1 ≤ k' ∧ k' ≤ nt) ∧ offset < p ∧ p ≤ offset + N
  · rw [if_pos hc, if_pos hc]
    refine fftbRow (T := T) hp hc.1.1 hc.1.2 _ _ _ (fun q hq1 hq2 hq3 => ?_) (by omega) (by omega)
    rw [loop_rows 1 nt junk _ (fun k row => if k = k' then doLoop 0 (min T (N / 2)) row
      (fun m r => putMode N m (cosC T (fun nm => spec nm k') b m) (sinC T (fun nm => spec nm k') b m) r) else row) k' ?_,
      loop_single hc.1.1 hc.1.2]
    · exact putModes _ _ _ 0 (by omega) (by omega) hq1 hq2 hq3 (fun _ => rfl)
    · intro k hk1 hk2 buf
      by_cases e : k = k'
      · subst e
        rw [if_pos rfl, loop_rows 0 _ buf _ (fun m r => putMode N m (cosC T (fun nm => spec nm k) b m) (sinC T (fun nm => spec nm k) b m) r)]
        intro m _ hm buf
        rw [upRow_apply, if_pos rfl, polySum_eq (by omega)]; rfl
      · rw [if_neg e, loop_rows 0 _ buf _ (fun _ r => r), loop_none _ _ fun _ _ _ _ => rfl]
        intro m _ _ buf
        rw [upRow_apply, if_neg (Ne.symm e)]
  · rw [if_neg hc, if_neg hc]

/-- The values of a row in the other hemisphere. -/
noncomputable def mirror (T : ℕ) (σ : ℝ) (b : ℕ → ℝ) (b' : ℕ → ℝ) : Prop :=
  ∀ m n, m ≤ n → n ≤ T → b' (nmOf T m n) = σ * (-1) ^ (n - m) * b (nmOf T m n)

theorem cosC_mirror {T : ℕ} {σ : ℝ} {b b' : ℕ → ℝ} (h : mirror T σ b b') (spec : ℕ → ℂ) (m : ℕ) :
    cosC T spec b' m = 2 * ∑ n ∈ Finset.Icc m T, (spec (nmOf T m n)).re * (σ * (-1) ^ (n - m) * b (nmOf T m n)) := by
  unfold cosC
  congr 1
  refine Finset.sum_congr rfl fun n hn => ?_
  rw [Finset.mem_Icc] at hn
  rw [h m n hn.1 hn.2]

theorem sinC_mirror {T : ℕ} {σ : ℝ} {b b' : ℕ → ℝ} (h : mirror T σ b b') (spec : ℕ → ℂ) (m : ℕ) :
    sinC T spec b' m = 2 * ∑ n ∈ Finset.Icc m T, (spec (nmOf T m n)).im * (σ * (-1) ^ (n - m) * b (nmOf T m n)) := by
  unfold sinC
  congr 1
  refine Finset.sum_congr rfl fun n hn => ?_
  rw [Finset.mem_Icc] at hn
  rw [h m n hn.1 hn.2]

theorem synPair_eq {E : Env} {plan N offset offsetS T nt : ℕ} (hp : plan = N) (hoff : offset + N ≤ offsetS) (spec : ℕ → ℕ → ℂ)
    {b b' : ℕ → ℝ} (hb : mirror T 1 b b') (junk grid : ℕ → ℕ → ℝ) (p k' : ℕ) :
    synPair E plan N offset offsetS T nt spec b junk grid p k' =
      if (1 ≤ k' ∧ k' ≤ nt) ∧ offset < p ∧ p ≤ offset + N then
        fourSeries N T (cosC T (fun nm => spec nm k') b) (sinC T (fun nm => spec nm k') b) (lam N (p - offset))
      else if (1 ≤ k' ∧ k' ≤ nt) ∧ offsetS < p ∧ p ≤ offsetS + N then
        fourSeries N T (cosC T (fun nm => spec nm k') b') (sinC T (fun nm => spec nm k') b') (lam N (p - offsetS))
      else grid p k' := by
  unfold synPair
  dsimp only
  generalize hbuf : doLoop 1 nt junk _ = buf
  have hrow : ∀ k q, 1 ≤ k → k ≤ nt → 1 ≤ q → q ≤ N → q ≤ 2 * min T (N / 2) + 1 →
      buf k q = fourRow (min T (N / 2)) (cosC T (fun nm => spec nm k) b) (sinC T (fun nm => spec nm k) b) q ∧
      buf (nt + k) q = fourRow (min T (N / 2)) (cosC T (fun nm => spec nm k) b') (sinC T (fun nm => spec nm k) b') q := by
    intro k' q hk1 hk2 hq1 hq2 hq3
    rw [← hbuf]
    constructor
    · rw [loop_rows 1 nt junk _ (fun k row => if k = k' then doLoop 0 (min T (N / 2)) row
        (fun m r => putMode N m (cosC T (fun nm => spec nm k') b m) (sinC T (fun nm => spec nm k') b m) r) else row) k' ?_,
        loop_single hk1 hk2]
      · exact putModes _ _ _ 0 (by omega) (by omega) hq1 hq2 hq3 (fun _ => rfl)
      · intro k _ _ buf
        by_cases e : k = k'
        · subst e
          rw [if_pos rfl, loop_rows 0 _ buf _ (fun m r => putMode N m (cosC T (fun nm => spec nm k) b m) (sinC T (fun nm => spec nm k) b m) r)]
          intro m _ hm buf
          obtain ⟨p1, p2, -, -⟩ := polyPair_eq (show m ≤ T by omega) (fun nm => spec nm k) b true
          rw [upRow_apply, if_neg (by omega), upRow_apply, if_pos rfl, p1, p2]; rfl
        · rw [if_neg e, loop_rows 0 _ buf _ (fun _ r => r), loop_none _ _ fun _ _ _ _ => rfl]
          intro m _ _ buf
          rw [upRow_apply, if_neg (by omega), upRow_apply, if_neg (Ne.symm e)]
    · rw [loop_rows 1 nt junk _ (fun k row => if k = k' then doLoop 0 (min T (N / 2)) row
        (fun m r => putMode N m (cosC T (fun nm => spec nm k') b' m) (sinC T (fun nm => spec nm k') b' m) r) else row) (nt + k') ?_,
        loop_single hk1 hk2]
      · exact putModes _ _ _ 0 (by omega) (by omega) hq1 hq2 hq3 (fun _ => rfl)
      · intro k _ _ buf
        by_cases e : k = k'
        · subst e
          rw [if_pos rfl, loop_rows 0 _ buf _ (fun m r => putMode N m (cosC T (fun nm => spec nm k) b' m) (sinC T (fun nm => spec nm k) b' m) r)]
          intro m _ hm buf
          obtain ⟨-, -, p3, p4⟩ := polyPair_eq (show m ≤ T by omega) (fun nm => spec nm k) b true
          rw [upRow_apply, if_pos rfl, upRow_apply, if_neg (by omega), p3, p4, cosC_mirror hb, sinC_mirror hb]; rfl
        · rw [if_neg e, loop_rows 0 _ buf _ (fun _ r => r), loop_none _ _ fun _ _ _ _ => rfl]
          intro m _ _ buf
          rw [upRow_apply, if_neg (by omega), upRow_apply, if_neg (by omega)]
  generalize hb2 : fftbRows E plan N (2 * nt) (zeroTail (2 * nt) (min T (N / 2)) N buf) = buf2
  have hb2n : ∀ k i, 1 ≤ k → k ≤ nt → 1 ≤ i → i ≤ N → 0.5 * buf2 k i =
      fourSeries N T (cosC T (fun nm => spec nm k) b) (sinC T (fun nm => spec nm k) b) (lam N i) := fun k i h1 h2 h3 h4 => by
    rw [← hb2]
    exact fftbRow hp h1 (by omega) _ _ _ (fun q q1 q2 q3 => (hrow k q h1 h2 q1 q2 q3).1) h3 h4
  have hb2s : ∀ k i, 1 ≤ k → k ≤ nt → 1 ≤ i → i ≤ N → 0.5 * buf2 (nt + k) i =
      fourSeries N T (cosC T (fun nm => spec nm k) b') (sinC T (fun nm => spec nm k) b') (lam N i) := fun k i h1 h2 h3 h4 => by
    rw [← hb2]
    exact fftbRow hp (by omega) (by omega) _ _ _ (fun q q1 q2 q3 => (hrow k q h1 h2 q1 q2 q3).2) h3 h4
  -- the copy loop
  have key := doLoop_inv (lo := 1) (hi := nt) (by omega) (s := grid)
    (f := fun k g => putRow N offsetS k (buf2 (nt + k)) (putRow N offset k (buf2 k) g))
    (fun q g => ∀ p k', g p k' = if (1 ≤ k' ∧ k' < q) ∧ offset < p ∧ p ≤ offset + N then 0.5 * buf2 k' (p - offset)
      else if (1 ≤ k' ∧ k' < q) ∧ offsetS < p ∧ p ≤ offsetS + N then 0.5 * buf2 (nt + k') (p - offsetS) else grid p k')
    (fun p k' => by rw [if_neg (by omega), if_neg (by omega)])
    (by
      intro q g h1 h2 ih p k'
      rw [putRow_eq, putRow_eq, ih]
      by_cases ek : k' = q
      · subst ek
        by_cases eS : offsetS < p ∧ p ≤ offsetS + N
        · rw [if_pos ⟨rfl, eS⟩, if_neg (by omega), if_pos (by omega)]
        · rw [if_neg (by tauto)]
          by_cases eN : offset < p ∧ p ≤ offset + N
          · rw [if_pos ⟨rfl, eN⟩, if_pos (by omega)]
          · rw [if_neg (by tauto), if_neg (by tauto), if_neg (by tauto), if_neg (by tauto), if_neg (by tauto)]
      · rw [if_neg (by tauto), if_neg (by tauto)]
        have : (k' < q ↔ k' < q + 1) := by omega
        simp only [this])
  rw [key p k']
  have e1 : k' < nt + 1 ↔ k' ≤ nt := by omega
  simp only [e1]
  by_cases hc : (1 ≤ k' ∧ k' ≤ nt) ∧ offset < p ∧ p ≤ offset + N
  · rw [if_pos hc, if_pos hc]; exact hb2n k' _ hc.1.1 hc.1.2 (by omega) (by omega)
  · rw [if_neg hc, if_neg hc]
    by_cases hc2 : (1 ≤ k' ∧ k' ≤ nt) ∧ offsetS < p ∧ p ≤ offsetS + N
    · rw [if_pos hc2, if_pos hc2]; exact hb2s k' _ hc2.1.1 hc2.1.2 (by omega) (by omega)
    · rw [if_neg hc2, if_neg hc2]

end Skyborn.RedGauss
