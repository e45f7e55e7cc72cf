/-
Properties of `gradient_fill_between`: C334-C336.
-/
import Verif.Plot.Gradient

namespace Skyborn.Plot.Gradient

/-! ## Specification -/

/-- The points of a run. -/
def Spec.points (x y1 y2 : ℕ → Option ℝ) (s e : ℕ) : List (ℝ × ℝ × ℝ) :=
  (List.range' s (e - s)).map fun i => ((x i).getD 0, (y1 i).getD 0, (y2 i).getD 0)

/-- The place of a pixel and the values of the two curves (interpolated through the points of the run in order of the abscissa) in its column: `a` and `b` at
height `y`. -/
def Spec.At (interp : List ℝ → List ℝ → ℝ → ℝ) (pts : List (ℝ × ℝ × ℝ)) (nx ny : ℕ) (im : Image) (r c : ℕ) (a b y : ℝ) : Prop :=
  ∃ p : List (ℝ × ℝ × ℝ), p.Perm pts ∧ p.Pairwise (fun q q' => q.1 ≤ q'.1) ∧
    a = interp (p.map fun q => q.1) (p.map fun q => q.2.1) (im.xmin + c * ((im.xmax - im.xmin) / (nx - 1))) ∧
    b = interp (p.map fun q => q.1) (p.map fun q => q.2.2) (im.xmin + c * ((im.xmax - im.xmin) / (nx - 1))) ∧
    y = im.ymin + r * ((im.ymax - im.ymin) / (ny - 1))

/-! ## Lemmas -/

private theorem mapM_some {α β : Type} (f : α → Option β) : ∀ (l : List α) (r : List β), l.mapM f = some r →
    (∀ b ∈ r, ∃ a ∈ l, f a = some b) ∧ ∀ a ∈ l, ∃ b ∈ r, f a = some b
  | [], r, h => by
    rw [List.mapM_nil] at h
    obtain rfl := (Option.some.inj h).symm
    exact ⟨by simp, by simp⟩
  | a :: l, r, h => by
    rw [List.mapM_cons] at h
    cases hf : f a with
    | none => rw [hf] at h; cases h
    | some b =>
      cases hl : l.mapM f with
      | none => rw [hf, hl] at h; cases h
      | some r' =>
        rw [hf, hl] at h
        obtain rfl : b :: r' = r := Option.some.inj h
        obtain ⟨h1, h2⟩ := mapM_some f l r' hl
        refine ⟨fun c hc => ?_, fun c hc => ?_⟩
        · rcases List.mem_cons.mp hc with rfl | hc
          · exact ⟨a, by simp, hf⟩
          · obtain ⟨d, d1, d2⟩ := h1 c hc
            exact ⟨d, List.mem_cons_of_mem _ d1, d2⟩
        · rcases List.mem_cons.mp hc with rfl | hc
          · exact ⟨b, by simp, hf⟩
          · obtain ⟨d, d1, d2⟩ := h2 c hc
            exact ⟨d, List.mem_cons_of_mem _ d1, d2⟩

private theorem result {interp : List ℝ → List ℝ → ℝ → ℝ} {mode : Mode} {eps : ℝ} {nx ny n : ℕ} {x y1 y2 : ℕ → Option ℝ} {R : List ((ℕ × ℕ) × Image)}
    (h : gradientFillBetween interp mode eps nx ny n x y1 y2 = some R) :
    (∀ s e im, ((s, e), im) ∈ R → (s, e) ∈ iterValidRuns n (fun i => (x i).isSome && (y1 i).isSome && (y2 i).isSome) ∧
      segment interp mode eps nx ny (Spec.points x y1 y2 s e) = some im) ∧
    ∀ s e, (s, e) ∈ iterValidRuns n (fun i => (x i).isSome && (y1 i).isSome && (y2 i).isSome) → ∃ im, ((s, e), im) ∈ R := by
  unfold gradientFillBetween at h
  dsimp only at h
  split at h
  · cases h
  · obtain ⟨h1, h2⟩ := mapM_some _ _ _ h
    refine ⟨fun s e im hm => ?_, fun s e hm => ?_⟩
    · obtain ⟨run, r1, r2⟩ := h1 _ hm
      rw [Option.map_eq_some_iff] at r2
      obtain ⟨im', s1, s2⟩ := r2
      rw [Prod.mk.injEq] at s2
      obtain ⟨rfl, rfl⟩ := s2
      exact ⟨r1, s1⟩
    · obtain ⟨b, b1, b2⟩ := h2 _ hm
      rw [Option.map_eq_some_iff] at b2
      obtain ⟨im, -, rfl⟩ := b2
      exact ⟨im, b1⟩

private theorem seg {interp : List ℝ → List ℝ → ℝ → ℝ} {mode : Mode} {eps : ℝ} {nx ny : ℕ} {pts : List (ℝ × ℝ × ℝ)} {im : Image}
    (h : segment interp mode eps nx ny pts = some im) (r c : ℕ) :
    ∃ a b y, Spec.At interp pts nx ny im r c a b y ∧ im.pix r c = pixel mode eps a b y := by
  unfold segment at h
  dsimp only at h
  split at h
  · cases h
  · obtain rfl := (Option.some.inj h).symm
    refine ⟨_, _, _, ⟨pts.mergeSort fun p q => decide (p.1 ≤ q.1), List.mergeSort_perm _ _, ?_, rfl, rfl, rfl⟩, rfl⟩
    have := List.pairwise_mergeSort (le := fun p q : ℝ × ℝ × ℝ => decide (p.1 ≤ q.1)) (fun p q s hp hq => by
      simp only [decide_eq_true_eq] at *; linarith) (fun p q => by simp only [Bool.or_eq_true, decide_eq_true_eq]; exact le_total _ _) pts
    exact this.imp fun h => by simpa using h

private theorem clip (v : ℝ) (h0 : 0 ≤ v) (h1 : v ≤ 1) : min (max v 0) 1 = v := by rw [max_eq_left h0, min_eq_left h1]

/-! ## C334 -/

/-- C334: with the default `edge_mode`, a pixel is transparent exactly if it is not between the two curves; between curves at least `eps` apart its value
is its position on the way from the lower curve (0) to the upper one (1). With any `edge_mode` visible values lie between 0 and 1. -/
theorem C334_position (interp : List ℝ → List ℝ → ℝ → ℝ) (mode : Mode) (eps : ℝ) (heps : 0 < eps) (nx ny n : ℕ) (x y1 y2 : ℕ → Option ℝ)
    (R : List ((ℕ × ℕ) × Image)) (h : gradientFillBetween interp mode eps nx ny n x y1 y2 = some R) (s e : ℕ) (im : Image) (hm : ((s, e), im) ∈ R) (r c : ℕ) :
    ∃ a b y, Spec.At interp (Spec.points x y1 y2 s e) nx ny im r c a b y ∧
      (im.pix r c = none ↔ ¬(min a b ≤ y ∧ y ≤ max a b)) ∧
      (mode = .auto → eps ≤ |a - b| → min a b ≤ y → y ≤ max a b → im.pix r c = some (Spec.between (min a b) (max a b) y)) ∧
      ∀ v, im.pix r c = some v → 0 ≤ v ∧ v ≤ 1 := by
  obtain ⟨a, b, y, hat, hp⟩ := seg ((result h).1 s e im hm).2 r c
  refine ⟨a, b, y, hat, ?_, fun hmode hab h1 h2 => ?_, fun v hv => ?_⟩
  · rw [hp]
    unfold pixel
    dsimp only
    split
    · rename_i g
      refine ⟨fun _ hc => ?_, fun _ => rfl⟩
      rcases g with g | g
      · exact absurd hc.1 (not_le.mpr g)
      · exact absurd hc.2 (not_le.mpr g)
    · rename_i g
      refine ⟨fun hc => (Option.some_ne_none _ hc).elim, fun hc => (hc ?_).elim⟩
      exact ⟨not_lt.mp fun q => g (Or.inl q), not_lt.mp fun q => g (Or.inr q)⟩
  · rw [hp, hmode]
    unfold pixel
    dsimp only
    rw [if_neg (by rintro (q | q) <;> linarith), max_sub_min_eq_abs', max_eq_left hab]
    have hpos : 0 < |a - b| := lt_of_lt_of_le heps hab
    unfold Spec.between
    rw [max_sub_min_eq_abs', clip]
    · exact div_nonneg (by linarith) hpos.le
    · rw [div_le_one hpos, ← max_sub_min_eq_abs' a b]; linarith
  · rw [hp] at hv
    unfold pixel at hv
    dsimp only at hv
    split at hv
    · cases hv
    · obtain rfl := (Option.some.inj hv).symm
      exact ⟨le_min (le_max_right _ _) zero_le_one, min_le_right _ _⟩

/-! ## C335 -/

/-- C335, as documented: with `edge_mode="y1"` the colours run from the first curve (low end) to the second (high end), also where the curves have crossed. -/
def C335_statement (interp : List ℝ → List ℝ → ℝ → ℝ) : Prop := ∀ (eps : ℝ) (_ : 0 < eps) (nx ny n : ℕ) (x y1 y2 : ℕ → Option ℝ)
    (R : List ((ℕ × ℕ) × Image)) (_ : gradientFillBetween interp .y1 eps nx ny n x y1 y2 = some R) (s e : ℕ) (im : Image) (_ : ((s, e), im) ∈ R) (r c : ℕ),
    ∃ a b y, Spec.At interp (Spec.points x y1 y2 s e) nx ny im r c a b y ∧
      (eps ≤ |a - b| → min a b ≤ y → y ≤ max a b → im.pix r c = some (Spec.between a b y))

/-- C335 (partial): so it is where the named curve is the lower one; where it is the upper one, the whole column gets the low end of the colours. -/
theorem C335_partial (interp : List ℝ → List ℝ → ℝ → ℝ) (mode : Mode) (eps : ℝ) (heps : 0 < eps) (nx ny n : ℕ) (x y1 y2 : ℕ → Option ℝ)
    (R : List ((ℕ × ℕ) × Image)) (h : gradientFillBetween interp mode eps nx ny n x y1 y2 = some R) (s e : ℕ) (im : Image) (hm : ((s, e), im) ∈ R) (r c : ℕ) :
    ∃ a b y, Spec.At interp (Spec.points x y1 y2 s e) nx ny im r c a b y ∧
      (eps ≤ |a - b| → min a b ≤ y → y ≤ max a b →
        (mode = .y1 → im.pix r c = some (if a ≤ b then Spec.between a b y else 0)) ∧
        (mode = .y2 → im.pix r c = some (if b ≤ a then Spec.between b a y else 0))) := by
  obtain ⟨a, b, y, hat, hp⟩ := seg ((result h).1 s e im hm).2 r c
  refine ⟨a, b, y, hat, fun hab h1 h2 => ?_⟩
  have hin : ¬(y < min a b ∨ y > max a b) := by rintro (q | q) <;> linarith
  have key : ∀ p q : ℝ, eps ≤ |p - q| → min p q ≤ y → y ≤ max p q →
      min (max ((y - p) / max (q - p) eps) 0) 1 = if p ≤ q then Spec.between p q y else 0 := fun p q hpq g1 g2 => by
    by_cases hle : p ≤ q
    · rw [if_pos hle]
      rw [min_eq_left hle] at g1
      rw [max_eq_right hle] at g2
      rw [abs_sub_comm, abs_of_nonneg (by linarith)] at hpq
      rw [max_eq_left hpq]
      unfold Spec.between
      exact clip _ (div_nonneg (by linarith) (by linarith)) (by rw [div_le_one (by linarith)]; linarith)
    · rw [if_neg hle]
      push Not at hle
      rw [max_eq_left hle.le] at g2
      rw [max_eq_right (by linarith : q - p ≤ eps), max_eq_right, min_eq_left zero_le_one]
      exact div_nonpos_of_nonpos_of_nonneg (by linarith) heps.le
  constructor
  · rintro rfl
    rw [hp]
    unfold pixel
    dsimp only
    rw [if_neg hin, key a b hab h1 h2]
  · rintro rfl
    rw [hp]
    unfold pixel
    dsimp only
    rw [if_neg hin, key b a (by rwa [abs_sub_comm]) (by rwa [min_comm]) (by rwa [max_comm])]

private theorem witness (interp : List ℝ → List ℝ → ℝ → ℝ) : ∃ im, gradientFillBetween interp .y1 (1 / 1000) 2 2 2 (fun i => some (i : ℝ)) (fun _ => some 1) (fun _ => some 0)
    = some [((0, 2), im)] ∧ im.ymin = 0 ∧ im.ymax = 1 := by
  have hruns : iterValidRuns 2 (fun i => ((fun i : ℕ => some (i : ℝ)) i).isSome && ((fun _ : ℕ => some (1 : ℝ)) i).isSome && ((fun _ : ℕ => some (0 : ℝ)) i).isSome)
      = [(0, 2)] := by
    simp only [Option.isSome_some, Bool.and_self]
    decide
  have hs : ([(0, 1, 0), (1, 1, 0)] : List (ℝ × ℝ × ℝ)).mergeSort (fun p q => decide (p.1 ≤ q.1)) = [(0, 1, 0), (1, 1, 0)] :=
    List.mergeSort_of_pairwise (by simp)
  have hseg : ∃ im, segment interp .y1 (1 / 1000) 2 2 [(0, 1, 0), (1, 1, 0)] = some im ∧ im.ymin = 0 ∧ im.ymax = 1 := by
    unfold segment
    dsimp only
    rw [hs]
    simp [List.min?, List.max?]
  obtain ⟨im, h1, h2⟩ := hseg
  refine ⟨im, ?_, h2⟩
  unfold gradientFillBetween
  dsimp only at hruns ⊢
  rw [hruns, if_neg (by simp)]
  have hp : ((List.range' 0 (2 - 0)).map fun i : ℕ => ((some (i : ℝ)).getD 0, (some (1 : ℝ)).getD 0, (some (0 : ℝ)).getD 0)) = [(0, 1, 0), (1, 1, 0)] := by
    simp [List.range']
  rw [List.mapM_cons, List.mapM_nil]
  dsimp only
  rw [hp, h1]
  rfl

/-- C335 is false for every interpolation that reproduces constant curves (as `np.interp` does): two points, first curve at 1, second at 0 (both constant): the pixel on the second curve should have
value 1 and has 0. -/
theorem C335_false (interp : List ℝ → List ℝ → ℝ → ℝ) (hc : ∀ xs ys v X, ys ≠ [] → (∀ w ∈ ys, w = v) → interp xs ys X = v) : ¬C335_statement interp := by
  intro H
  obtain ⟨im, h, hy0, hy1⟩ := witness interp
  obtain ⟨a, b, y, ⟨p, hp, -, ha, hb, hy⟩, hv⟩ := H _ (by norm_num) _ _ _ _ _ _ _ h 0 2 im (by simp) 0 0
  obtain ⟨a', b', y', ⟨p', hp', -, ha', hb', hy'⟩, hv'⟩ := C335_partial _ _ _ (by norm_num) _ _ _ _ _ _ _ h 0 2 im (by simp) 0 0
  have vals : ∀ (p : List (ℝ × ℝ × ℝ)) (X : ℝ), p.Perm (Spec.points (fun i => some (i : ℝ)) (fun _ => some 1) (fun _ => some 0) 0 2) →
      interp (p.map fun q => q.1) (p.map fun q => q.2.1) X = 1 ∧ interp (p.map fun q => q.1) (p.map fun q => q.2.2) X = 0 := fun p X hp => by
    have hall : ∀ q ∈ p, q.2.1 = 1 ∧ q.2.2 = 0 := fun q hq => by
      have := hp.mem_iff.mp hq
      unfold Spec.points at this
      rw [List.mem_map] at this
      obtain ⟨i, -, rfl⟩ := this
      simp
    have hne : p ≠ [] := by
      rintro rfl
      have := hp.length_eq
      simp [Spec.points] at this
    refine ⟨hc _ _ _ _ (by simpa using hne) fun w hw => ?_, hc _ _ _ _ (by simpa using hne) fun w hw => ?_⟩ <;>
    · rw [List.mem_map] at hw
      obtain ⟨q, hq, rfl⟩ := hw
      first | exact (hall q hq).1 | exact (hall q hq).2
  rw [(vals p _ hp).1] at ha
  rw [(vals p _ hp).2] at hb
  rw [(vals p' _ hp').1] at ha'
  rw [(vals p' _ hp').2] at hb'
  rw [hy0] at hy hy'
  norm_num at hy hy'
  subst ha hb ha' hb' hy hy'
  have e1 := hv (by norm_num) (by norm_num) (by norm_num)
  have e2 := (hv' (by norm_num) (by norm_num) (by norm_num)).1 rfl
  rw [e1] at e2
  unfold Spec.between at e2
  norm_num at e2

example : ¬C335_statement fun _ ys _ => ys.headD 0 :=
  C335_false _ fun _ ys v _ hne h => by
    cases ys with
    | nil => exact absurd rfl hne
    | cons a t => exact h a (by simp)

/-! ## C336 -/

/-- C336: there is one image for each maximal run of at least two points where abscissa and both curves are finite, and for nothing else; without such a run
the call fails. -/
theorem C336_runs (interp : List ℝ → List ℝ → ℝ → ℝ) (mode : Mode) (eps : ℝ) (nx ny n : ℕ) (x y1 y2 : ℕ → Option ℝ) :
    (∀ R, gradientFillBetween interp mode eps nx ny n x y1 y2 = some R →
      ∀ s e, (∃ im, ((s, e), im) ∈ R) ↔ Spec.Run n (fun i => x i ≠ none ∧ y1 i ≠ none ∧ y2 i ≠ none) s e) ∧
    ((¬∃ s e, Spec.Run n (fun i => x i ≠ none ∧ y1 i ≠ none ∧ y2 i ≠ none) s e) → gradientFillBetween interp mode eps nx ny n x y1 y2 = none) := by
  have hok : (fun i => ((x i).isSome && (y1 i).isSome && (y2 i).isSome) = true) = fun i => x i ≠ none ∧ y1 i ≠ none ∧ y2 i ≠ none := by
    funext i
    simp [Option.isSome_iff_ne_none, and_assoc]
  have hr : ∀ s e, (s, e) ∈ iterValidRuns n (fun i => (x i).isSome && (y1 i).isSome && (y2 i).isSome) ↔
      Spec.Run n (fun i => x i ≠ none ∧ y1 i ≠ none ∧ y2 i ≠ none) s e := fun s e => by rw [runs_spec, hok]
  refine ⟨fun R h s e => ?_, fun hno => ?_⟩
  · rw [← hr]
    exact ⟨fun ⟨im, hm⟩ => ((result h).1 s e im hm).1, (result h).2 s e⟩
  · unfold gradientFillBetween
    dsimp only
    rw [if_pos]
    rw [List.eq_nil_iff_forall_not_mem]
    rintro ⟨s, e⟩ hm
    exact hno ⟨s, e, (hr s e).mp hm⟩

/-- A call that succeeds, with one image (so the hypotheses of C334-C336 are met). -/
example : ∃ R, gradientFillBetween (fun _ ys _ => ys.headD 0) .y1 (1 / 1000) 2 2 2 (fun i => some (i : ℝ)) (fun _ => some 1) (fun _ => some 0) = some R ∧
    R.length = 1 := by
  obtain ⟨im, h, -⟩ := witness (fun _ ys _ => ys.headD 0)
  exact ⟨_, h, rfl⟩

example : iterValidRuns 9 (fun i => i ∉ [2, 4, 8]) = [(0, 2), (5, 8)] := by decide

end Skyborn.Plot.Gradient
