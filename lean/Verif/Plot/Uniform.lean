/-
Curly vectors of a uniform wind, and of panels with very long cells.
Modelled: as in `Plot/Glyphs`.
-/
import Verif.Plot.Glyphs

namespace Skyborn.Plot.Curly

open Skyborn.Plot

private theorem hyp_scale (k x y : ℝ) : hyp (k * x) (k * y) = |k| * hyp x y := by
  unfold hyp
  rw [show k * x * (k * x) + k * y * (k * y) = k ^ 2 * (x * x + y * y) by ring, Real.sqrt_mul (sq_nonneg k), Real.sqrt_sq_eq_abs]

private theorem hyp_unit {r x y : ℝ} (hr : 0 < r) (h : x * x + y * y = 1) : hyp (r * x) (r * y) = r := by
  rw [hyp_scale, abs_of_pos hr]
  unfold hyp
  rw [h, Real.sqrt_one, mul_one]

/-- State of a uniform wind on affine axes. -/
private theorem uniform_state {g : Grid} {F : Fields} {a b c d e f u v : ℝ}
    (hF : Whole g F (fun _ _ => u) (fun _ _ => v) (fun j i =>
      (a + b * (g.x0 + i * g.dx) + c * (g.y0 + j * g.dy), d + e * (g.x0 + i * g.dx) + f * (g.y0 + j * g.dy))))
    (hx : 2 ≤ g.nx) (hy : 2 ≤ g.ny) (hdx : 0 < g.dx) (hdy : 0 < g.dy) (hdet : eps < |b * f - c * e|)
    (hn : eps < hyp (b * u + c * v) (e * u + f * v)) {x y : ℝ} (hw : g.within x y) :
    sampleState g F x y = some ⟨(a + b * x + c * y, d + e * x + f * y),
      ((b * u + c * v) / hyp (b * u + c * v) (e * u + f * v), (e * u + f * v) / hyp (b * u + c * v) (e * u + f * v)), b, c, e, f, hyp u v⟩ := by
  have hpatch : ∀ (z : ℝ) j i p q, patch (fun _ _ => z) j i p q = z := by intro z j i p q; unfold patch; ring
  obtain ⟨st, hst, h1, h2, h3, h4, h5⟩ := C270_affine g F _ _ _ hF hx hy hdx hdy a b c d e f (fun _ _ => rfl) x y hw hdet _ _
    (cell_inCell hx hy hw) (by rw [hpatch, hpatch]; exact hn)
  obtain ⟨_, j, i, _, _, _, _, h6, h7, r, hr, h8, h9⟩ := C270_state g F _ _ _ hF hx hy hdx hdy x y st hst
  rw [hpatch, hpatch] at h6 h8 h9
  rw [h2, h3] at h8
  rw [h4, h5] at h9
  have hrn : hyp (b * u + c * v) (e * u + f * v) = r := by rw [← h8, ← h9, hyp_unit hr h7]
  have hdir : st.dir = ((b * u + c * v) / hyp (b * u + c * v) (e * u + f * v), (e * u + f * v) / hyp (b * u + c * v) (e * u + f * v)) := by
    rw [hrn, ← h8, ← h9]
    ext
    · field_simp
    · field_simp
  rw [hst]
  obtain ⟨disp, dir, j00, j01, j10, j11, sp⟩ := st
  dsimp only at *
  subst h1 h2 h3 h4 h5 h6 hdir
  rfl

private theorem toData_uniform {b c e f u v k : ℝ} (hdet : eps < |b * f - c * e|) :
    toData b c e f ((b * u + c * v) * k, (e * u + f * v) * k) = some (k * u, k * v) := by
  have h0 : b * f - c * e ≠ 0 := by
    intro h; rw [h, abs_zero] at hdet; linarith [eps_pos]
  unfold toData
  dsimp only
  rw [if_neg (not_le.2 hdet)]
  congr 2
  · rw [div_eq_iff h0]; ring
  · rw [div_eq_iff h0]; ring

private theorem stepLen_full {step σ : ℝ} (hσ : eps < σ) (hs : 35 / 100 < step) : stepLen step σ σ = step := by
  have : σ ≠ 0 := by linarith [eps_pos]
  unfold stepLen
  dsimp only
  rw [if_neg (not_le.2 hσ), div_self this, if_neg (not_lt.2 zero_le_one : ¬ (1 : ℝ) < 0), if_neg (lt_irrefl (1 : ℝ)), mul_one, mul_one, if_pos hs]

/-- One step of a uniform wind, when what is left is not more than a step. -/
private theorem trace_short {g : Grid} {F : Fields} {a b c d e f u v : ℝ}
    (hF : Whole g F (fun _ _ => u) (fun _ _ => v) (fun j i =>
      (a + b * (g.x0 + i * g.dx) + c * (g.y0 + j * g.dy), d + e * (g.x0 + i * g.dx) + f * (g.y0 + j * g.dy))))
    (hx : 2 ≤ g.nx) (hy : 2 ≤ g.ny) (hdx : 0 < g.dx) (hdy : 0 < g.dy) (hdet : eps < |b * f - c * e|)
    (hn : eps < hyp (b * u + c * v) (e * u + f * v)) (hσ : eps < hyp u v) {step len : ℝ} (hs : 35 / 100 < step) (hl : 2 / 10 < len)
    (hls : len ≤ step) {view : View} {start : ℝ × ℝ} (hw : g.within start.1 start.2) (k : ℝ)
    (hk : k = len / hyp (b * u + c * v) (e * u + f * v)) (hw' : g.within (start.1 + k * u) (start.2 + k * v))
    (hv : view.contains (a + b * start.1 + c * start.2 + (b * u + c * v) * k, d + e * start.1 + f * start.2 + (e * u + f * v) * k)) :
    trace g F ⟨len, 1, step, hyp u v, view⟩ 512 start =
      some [(start, (a + b * start.1 + c * start.2, d + e * start.1 + f * start.2)),
        ((start.1 + k * u, start.2 + k * v),
          (a + b * start.1 + c * start.2 + (b * u + c * v) * k, d + e * start.1 + f * start.2 + (e * u + f * v) * k))] := by
  set n := hyp (b * u + c * v) (e * u + f * v) with hnn
  have hn0 : 0 < n := lt_trans eps_pos hn
  have st : ∀ {x y : ℝ}, g.within x y → sampleState g F x y = some ⟨(a + b * x + c * y, d + e * x + f * y),
      ((b * u + c * v) / n, (e * u + f * v) / n), b, c, e, f, hyp u v⟩ := fun hw => uniform_state hF hx hy hdx hdy hdet hn hw
  obtain ⟨S, hS⟩ : ∃ S : ℝ × ℝ, S = (a + b * start.1 + c * start.2, d + e * start.1 + f * start.2) := ⟨_, rfl⟩
  have stS : sampleState g F start.1 start.2 = some ⟨S, ((b * u + c * v) / n, (e * u + f * v) / n), b, c, e, f, hyp u v⟩ := by rw [hS]; exact st hw
  have hvS : view.contains (S.1 + (b * u + c * v) * k, S.2 + (e * u + f * v) * k) := by rw [hS]; exact hv
  have hunit : (b * u + c * v) / n * ((b * u + c * v) / n) + (e * u + f * v) / n * ((e * u + f * v) / n) = 1 := by
    have : n * n = (b * u + c * v) * (b * u + c * v) + (e * u + f * v) * (e * u + f * v) := hyp_sq _ _
    field_simp
    nlinarith
  have hmove1 : ∀ z : ℝ, z + (b * u + c * v) / n * len = z + (b * u + c * v) * k := by intro z; rw [hk]; ring
  have hmove2 : ∀ z : ℝ, z + (e * u + f * v) / n * len = z + (e * u + f * v) * k := by intro z; rw [hk]; ring
  have hclip : clip view S (S.1 + (b * u + c * v) * k, S.2 + (e * u + f * v) * k) = ((S.1 + (b * u + c * v) * k, S.2 + (e * u + f * v) * k), false) := by
    unfold clip; rw [if_pos hvS]
  have hact : hyp (S.1 + (b * u + c * v) * k - S.1) (S.2 + (e * u + f * v) * k - S.2) = len := by
    have e1 : S.1 + (b * u + c * v) * k - S.1 = len * ((b * u + c * v) / n) := by rw [hk]; ring
    have e2 : S.2 + (e * u + f * v) * k - S.2 = len * ((e * u + f * v) / n) := by rw [hk]; ring
    rw [e1, e2, hyp_unit (by linarith) hunit]
  have hstep : stepOnce g (sampleState g F) ⟨len, 1, step, hyp u v, view⟩ ⟨start, none, 0⟩ =
      some ⟨(start.1 + k * u, start.2 + k * v), (S.1 + (b * u + c * v) * k, S.2 + (e * u + f * v) * k), S, false, len⟩ := by
    unfold stepOnce
    dsimp only
    have h6 : (1 : ℝ) / 10 ^ 6 < 2 / 10 := by norm_num
    rw [sub_zero, if_neg (not_le.2 (by linarith)), stS]
    dsimp only
    rw [stepLen_full hσ hs, min_eq_right hls, if_neg (not_le.2 (by linarith))]
    dsimp only [corrected]
    rw [one_mul, one_mul, hmove1, hmove2, hclip]
    dsimp only
    rw [add_sub_cancel_left, add_sub_cancel_left, toData_uniform hdet]
    dsimp only
    rw [if_neg (not_not.2 hw')]
    have hsec : second g (sampleState g F) ⟨len, 1, step, hyp u v, view⟩ start ⟨S, ((b * u + c * v) / n, (e * u + f * v) / n), b, c, e, f, hyp u v⟩
        len S (start.1 + k * u, start.2 + k * v) ((S.1 + (b * u + c * v) * k, S.2 + (e * u + f * v) * k), false) =
        some ((start.1 + k * u, start.2 + k * v), ((S.1 + (b * u + c * v) * k, S.2 + (e * u + f * v) * k), false)) := by
      unfold second
      dsimp only
      rw [st hw']
      dsimp only
      have e1 : (1 : ℝ) * ((b * u + c * v) / n + (b * u + c * v) / n) = 2 * ((b * u + c * v) / n) := by ring
      have e2 : (1 : ℝ) * ((e * u + f * v) / n + (e * u + f * v) / n) = 2 * ((e * u + f * v) / n) := by ring
      have e3 : ∀ z : ℝ, (1 : ℝ) / 2 * (z + z) = z := by intro z; ring
      rw [e1, e2, hyp_unit (by norm_num) hunit, if_neg (by unfold eps; norm_num), e3, e3, e3, e3, e3, stepLen_full hσ hs, min_eq_right hls]
      rw [mul_div_cancel_left₀ _ (two_ne_zero), mul_div_cancel_left₀ _ (two_ne_zero), hmove1, hmove2, hclip]
      dsimp only
      rw [add_sub_cancel_left, add_sub_cancel_left, toData_uniform hdet]
      dsimp only
      rw [if_neg (not_not.2 hw')]
    rw [hsec]
    dsimp only
    rw [hact, if_neg (not_le.2 hl)]
  have hstop : ∀ data prev, stepOnce g (sampleState g F) ⟨len, 1, step, hyp u v, view⟩ ⟨data, prev, 0 + len⟩ = none := by
    intro data prev
    unfold stepOnce
    dsimp only
    rw [zero_add, sub_self, if_pos (by positivity)]
  have hS1 : a + b * start.1 + c * start.2 = S.1 := by rw [hS]
  have hS2 : d + e * start.1 + f * start.2 = S.2 := by rw [hS]
  rw [hS1, hS2]
  unfold trace traceWith
  rw [stS]
  dsimp only
  have hc : clampSteps 512 = 510 + 1 + 1 := by decide
  rw [hc]
  unfold loop
  rw [hstep]
  dsimp only
  rw [if_neg (by simp)]
  unfold loop
  rw [hstop]
  simp

/-- A straight arrow of one step is accepted. -/
private theorem short_accepted {w h len : ℝ} {p m : ℝ × ℝ} (hm : hyp m.1 m.2 = len) (hl : 2 / 10 < len) (hw : len ≤ hyp w h * (35 / 100)) :
    accepted w h [p, (p.1 + m.1, p.2 + m.2)] := by
  have h6 : (1 : ℝ) / 10 ^ 6 < len := lt_trans (by norm_num) hl
  have e : segs [p, (p.1 + m.1, p.2 + m.2)] = [m] := by
    unfold segs segs
    simp only [add_sub_cancel_left, Prod.mk.eta]
  have hf : (segs [p, (p.1 + m.1, p.2 + m.2)]).filter (fun s => 1 / 10 ^ 6 < hyp s.1 s.2) = [m] := by
    rw [e, List.filter_cons_of_pos (by simpa [hm] using h6), List.filter_nil]
  have hd : dirs [p, (p.1 + m.1, p.2 + m.2)] = [(m.1 / len, m.2 / len)] := by
    unfold dirs; rw [hf, List.map_cons, List.map_nil, hm]
  have hvl : validLength [p, (p.1 + m.1, p.2 + m.2)] = len := by
    unfold validLength; rw [hf, List.map_cons, List.map_nil, hm]; simp
  refine ⟨by simp, ?_, by rw [hd]; simp, p, (p.1 + m.1, p.2 + m.2), rfl, rfl, ?_, ?_, ?_, ?_, ?_⟩
  · intro _ s hs
    rw [e, List.mem_singleton] at hs
    rw [hs, hm]
    exact hw.trans (le_max_left _ _)
  · dsimp only
    rw [hvl, add_sub_cancel_left, add_sub_cancel_left, hm]
    push Not
    exact ⟨h6, h6⟩
  · dsimp only
    rw [hvl, add_sub_cancel_left, add_sub_cancel_left, hm, div_self (by linarith)]; norm_num
  · rw [hd]; simp [turns]
  · rw [hd]; simp [turns]
  · rw [hd]; simp [turns]

/-! ## Whole plots -/

private theorem pyGrid_two {x y : List ℝ} {b : Bool} {pg : PGrid} (h : pyGrid x y b = some pg) :
    2 ≤ pg.grid.nx ∧ 2 ≤ pg.grid.ny ∧ 0 < pg.grid.dx ∧ 0 < pg.grid.dy := by
  have key : ∀ (z : List ℝ) a, axis z b = some a → 2 ≤ z.length := by
    intro z a ha
    unfold axis at ha
    split_ifs at ha <;> omega
  unfold pyGrid at h
  rcases ha : axis x b with _ | a
  · rw [ha] at h; cases h
  rcases hb : axis y b with _ | a'
  · rw [ha, hb] at h; cases h
  rw [ha, hb] at h
  cases h
  exact ⟨key _ _ ha, key _ _ hb, safe_pos _, safe_pos _⟩

private theorem display_cell (g : Grid) (valid : ℕ → Bool) (disp : ℕ → Option (ℝ × ℝ)) (x y : ℝ) (hx : 2 ≤ g.nx) (hy : 2 ≤ g.ny) :
    (¬ g.within x y → sampleDisplay g valid disp x y = none) ∧
    (valid (cell (g.yi y) g.ny * (g.nx - 1) + cell (g.xi x) g.nx) = false → sampleDisplay g valid disp x y = none) ∧
    (g.within x y → valid (cell (g.yi y) g.ny * (g.nx - 1) + cell (g.xi x) g.nx) = true → ∀ p00 p01 p10 p11 : ℝ × ℝ,
      disp (cell (g.yi y) g.ny * g.nx + cell (g.xi x) g.nx) = some p00 → disp (cell (g.yi y) g.ny * g.nx + cell (g.xi x) g.nx + 1) = some p01 →
      disp ((cell (g.yi y) g.ny + 1) * g.nx + cell (g.xi x) g.nx) = some p10 →
      disp ((cell (g.yi y) g.ny + 1) * g.nx + cell (g.xi x) g.nx + 1) = some p11 → ∀ s t : ℝ, s = g.xi x - (cell (g.xi x) g.nx : ℕ) →
      t = g.yi y - (cell (g.yi y) g.ny : ℕ) → sampleDisplay g valid disp x y =
        some (p00.1 * (1 - s) * (1 - t) + p01.1 * s * (1 - t) + p10.1 * (1 - s) * t + p11.1 * s * t,
          p00.2 * (1 - s) * (1 - t) + p01.2 * s * (1 - t) + p10.2 * (1 - s) * t + p11.2 * s * t)) := by
  have h0 : ¬ (g.nx < 2 ∨ g.ny < 2) := by omega
  refine ⟨fun h => ?_, fun h => ?_, fun h h' p00 p01 p10 p11 e1 e2 e3 e4 s t hs ht => ?_⟩
  · unfold sampleDisplay
    rw [if_neg h0, if_pos h]
  · unfold sampleDisplay
    dsimp only
    rw [if_neg h0]
    split_ifs <;> simp_all
  · unfold sampleDisplay
    dsimp only
    rw [if_neg h0, if_neg (not_not.2 h), if_neg (by rw [h']; simp), e1, e2, e3, e4, hs, ht]

/-- Straight axes for the nodes. -/
private theorem straight_pos {P : Plot} {g : Grid} {a b d f : ℝ} (hT : ∀ p, P.T p = some (a + b * p.1, d + f * p.2)) :
    ∀ j i : ℕ, i < g.nx → P.pos g (j * g.nx + i) = some (a + b * (g.x0 + i * g.dx), d + f * (g.y0 + j * g.dy)) := by
  intro j i hi
  have h1 : (j * g.nx + i) / g.nx = j := by
    rw [mul_comm, Nat.mul_add_div (by omega), Nat.div_eq_of_lt hi, add_zero]
  have h2 : (j * g.nx + i) % g.nx = i := by rw [mul_comm, Nat.mul_add_mod, Nat.mod_eq_of_lt hi]
  unfold Plot.pos
  rw [h1, h2, hT]

private theorem straight_spec {P : Plot} {g : Grid} {a b d f : ℝ} (hT : ∀ p, P.T p = some (a + b * p.1, d + f * p.2)) :
    Spec.Straight g.ny g.nx (P.pos g) (a + b * g.x0) (b * g.dx) (d + f * g.y0) (f * g.dy) := by
  intro j _ i hi
  unfold Spec.nodes
  rw [straight_pos hT j i hi]
  congr 2 <;> ring

/-- C296, expected: a plot of a uniform wind on straight axes that fill the panel draws something. -/
def C296_statement : Prop :=
  ∀ (qs : List ℝ → List ℝ) (qsort : List Entry → List Entry) (P : Plot) (gs : List Glyph) (pg : PGrid) (b f : ℝ), IsQsortUp qs → IsQsort qsort →
    pyGrid P.x P.y P.nonUniform = some pg → 0 < b → 0 < f →
    (∀ p, P.T p = some (P.view.x0 + b * (p.1 - pg.grid.x0), P.view.y0 + f * (p.2 - pg.grid.y0))) →
    P.view.x1 = P.view.x0 + b * pg.width → P.view.y1 = P.view.y0 + f * pg.height → 100 ≤ P.w → 100 ≤ P.h →
    (∀ k, P.u k = some 1) → (∀ k, P.v k = some 0) → P.starts = none → curly qs qsort P = some gs → gs ≠ []

/-- C296: on straight axes, if the cells on the panel are more than 12 times longer than wide (or wider than long), nothing is drawn at all:
for all data, densities, start points and options. -/
theorem C296_elongated (qs : List ℝ → List ℝ) (hqs : IsQsortUp qs) (qsort : List Entry → List Entry) (hq : IsQsort qsort) (P : Plot)
    (gs : List Glyph) (h : curly qs qsort P = some gs) (pg : PGrid) (hp : pyGrid P.x P.y P.nonUniform = some pg) (a b d f : ℝ)
    (hT : ∀ p, P.T p = some (a + b * p.1, d + f * p.2)) (hb : 1 / 10 ^ 9 < |b * pg.grid.dx|) (hf : 1 / 10 ^ 9 < |f * pg.grid.dy|)
    (h12 : 12 * min |b * pg.grid.dx| |f * pg.grid.dy| < max |b * pg.grid.dx| |f * pg.grid.dy|)
    (h6 : 1 / 10 ^ 6 < max |b * pg.grid.dx| |f * pg.grid.dy|) : gs = [] := by
  rw [List.eq_nil_iff_forall_not_mem]
  intro G hG
  obtain ⟨A, hA⟩ : ∃ A, Spec.Asked P.anchor P.direction A := by
    rcases P.anchor with _ | x
    · rcases P.direction with _ | _ | _
      exacts [⟨_, .forward⟩, ⟨_, .backward⟩, ⟨_, .both⟩]
    · exact ⟨_, .given _ _⟩
  obtain ⟨pg', hp', _, hall, _⟩ := C290_placed qs qsort hq P gs h A hA
  rw [hp] at hp'; cases hp'
  obtain ⟨_, _, _, p, hpos⟩ := hall G hG
  obtain ⟨hx, hy, _, _⟩ := pyGrid_two hp
  unfold Spec.pos at hpos
  have hdc := display_cell pg.grid (P.scene qs pg).valid (P.scene qs pg).disp G.center.1 G.center.2 hx hy
  by_cases hw : pg.grid.within G.center.1 G.center.2
  swap
  · have := hdc.1 hw
    exact absurd (hpos.symm.trans this) (by simp)
  obtain ⟨hi, hj, _⟩ := cell_inCell hx hy hw
  have hU := C284_partial qs hqs pg.grid.ny pg.grid.nx hy hx (P.pos pg.grid) _ _ _ _ hb hf (straight_spec hT)
    (cell (pg.grid.yi G.center.2) pg.grid.ny) (by omega) (cell (pg.grid.xi G.center.1) pg.grid.nx) (by omega)
  have hno : cellValid qs pg.grid.ny pg.grid.nx (P.pos pg.grid)
      (cell (pg.grid.yi G.center.2) pg.grid.ny * (pg.grid.nx - 1) + cell (pg.grid.xi G.center.1) pg.grid.nx) = false := by
    rw [← Bool.not_eq_true]
    intro ht
    have := hU.1 ht
    rcases le_max_iff.1 this with h' | h' <;> linarith
  exact absurd (hpos.symm.trans (hdc.2.1 hno)) (by simp)

private theorem const_fold {σ m : ℝ} {ms : List ℝ} (h : ∀ z ∈ m :: ms, z = σ) : ms.foldl min m = σ ∧ ms.foldl max m = σ := by
  induction ms generalizing m with
  | nil => exact ⟨h m (by simp), h m (by simp)⟩
  | cons y ms ih =>
    have e1 := h m (by simp)
    have e2 := h y (by simp)
    rw [List.foldl_cons, List.foldl_cons, e1, e2, min_self, max_self]
    exact ih fun z hz => by
      rcases List.mem_cons.1 hz with rfl | hz
      · rfl
      · exact h z (by simp [hz])

/-- C295: uniform wind `(u, v)` on straight axes whose cells are at most 12:1, arrows starting at their points, not longer than one step: every
glyph is a straight arrow from its point, downwind, of exactly the length asked for; and if the arrows of all candidates fit into grid and
panel, then each candidate has a glyph, or a glyph closer to it than the spacing. -/
theorem C295_uniform (qs : List ℝ → List ℝ) (hqs : IsQsortUp qs) (qsort : List Entry → List Entry) (hq : IsQsort qsort) (P : Plot)
    (gs : List Glyph) (h : curly qs qsort P = some gs) (pg : PGrid) (hp : pyGrid P.x P.y P.nonUniform = some pg) (a b d f u v L : ℝ)
    (hT : ∀ p, P.T p = some (a + b * p.1, d + f * p.2)) (hb : 1 / 10 ^ 9 < |b * pg.grid.dx|) (hf : 1 / 10 ^ 9 < |f * pg.grid.dy|)
    (h12 : max |b * pg.grid.dx| |f * pg.grid.dy| ≤ 12 * min |b * pg.grid.dx| |f * pg.grid.dy|) (hdet : eps < |b * f|)
    (hu : ∀ k, P.u k = some u) (hv : ∀ k, P.v k = some v) (hσ : eps < hyp u v) (hn : eps < hyp (b * u) (f * v))
    (hL : L = Length.glyphLength P.w P.h P.ρx P.ρy (hyp u v) (hyp u v) P.ref P.refLength P.minFrac (hyp u v))
    (hL2 : 2 / 10 < L) (hL3 : L ≤ P.step) (hL4 : L ≤ hyp P.w P.h * (35 / 100)) (ha : Spec.Asked P.anchor P.direction .tail)
    (hfit : ∀ c ∈ P.starts.getD (defaultCands pg P.ρx P.ρy), pg.holds c ∧ pg.grid.within c.1 c.2 ∧
      pg.grid.within (c.1 + L / hyp (b * u) (f * v) * u) (c.2 + L / hyp (b * u) (f * v) * v) ∧
      P.view.contains (a + b * (c.1 + L / hyp (b * u) (f * v) * u), d + f * (c.2 + L / hyp (b * u) (f * v) * v))) :
    (∀ G ∈ gs, G.curve = [(G.center, (a + b * G.center.1, d + f * G.center.2)),
      ((G.center.1 + L / hyp (b * u) (f * v) * u, G.center.2 + L / hyp (b * u) (f * v) * v),
        (a + b * G.center.1 + L * (b * u / hyp (b * u) (f * v)), d + f * G.center.2 + L * (f * v / hyp (b * u) (f * v))))]) ∧
    ∀ c ∈ P.starts.getD (defaultCands pg P.ρx P.ρy), (∃ G ∈ gs, G.center = c) ∨
      ∃ G ∈ gs, (b * (G.center.1 - c.1) / max P.w 1) ^ 2 + (f * (G.center.2 - c.2) / max P.h 1) ^ 2 <
        (Spec.spacing P.ρx P.ρy P.minDistance P.profile) ^ 2 := by
  obtain ⟨hx, hy, hdx, hdy⟩ := pyGrid_two hp
  set g := pg.grid with hg
  have hvalid : ∀ j < g.ny - 1, ∀ i < g.nx - 1, cellValid qs g.ny g.nx (P.pos g) (j * (g.nx - 1) + i) = true := by
    intro j hj i hi
    exact (C284_partial qs hqs g.ny g.nx hy hx (P.pos g) _ _ _ _ hb hf (straight_spec hT) j hj i hi).2 (le_max_of_le_left h12)
  have hpos' : ∀ j < g.ny, ∀ i < g.nx, P.pos g (j * g.nx + i) = some (a + b * (g.x0 + i * g.dx) + 0 * (g.y0 + j * g.dy),
      d + 0 * (g.x0 + i * g.dx) + f * (g.y0 + j * g.dy)) := by
    intro j _ i hi
    rw [straight_pos hT j i hi]
    congr 2 <;> ring
  have hW : Whole g (P.fields qs g) (fun _ _ => u) (fun _ _ => v) (fun j i =>
      (a + b * (g.x0 + i * g.dx) + 0 * (g.y0 + j * g.dy), d + 0 * (g.x0 + i * g.dx) + f * (g.y0 + j * g.dy))) :=
    ⟨fun _ _ _ _ => hu _, fun _ _ _ _ => hv _, hpos', hvalid⟩
  have hmag : ∀ k, P.mag k = some (hyp u v) := by intro k; unfold Plot.mag; rw [hu, hv]
  -- position and speed of a candidate
  have hP : ∀ c : ℝ × ℝ, g.within c.1 c.2 → Spec.pos (P.scene qs pg) c = some (a + b * c.1, d + f * c.2) := by
    intro c hc
    have hdc := (display_cell g (P.scene qs pg).valid (P.scene qs pg).disp c.1 c.2 hx hy).2.2 hc
    obtain ⟨hi, hj, _⟩ := cell_inCell hx hy hc
    have hX : g.xi c.1 * g.dx = c.1 - g.x0 := by unfold Grid.xi; field_simp
    have hY : g.yi c.2 * g.dy = c.2 - g.y0 := by unfold Grid.yi; field_simp
    refine (hdc (hvalid _ (by omega) _ (by omega)) _ _ _ _ (straight_pos (g := g) hT _ _ (by omega))
      (by rw [add_assoc]; exact straight_pos (g := g) hT _ _ hi) (straight_pos (g := g) hT _ _ (by omega))
      (by rw [add_assoc]; exact straight_pos (g := g) hT _ _ hi) _ _ rfl rfl).trans ?_
    push_cast
    congr 2
    · linear_combination b * hX
    · linear_combination f * hY
  have hM : ∀ c : ℝ × ℝ, g.within c.1 c.2 → Spec.speed (P.scene qs pg) c = some (hyp u v) := by
    intro c hc
    have := (C268_value g P.mag (fun _ _ => hyp u v) (fun _ _ _ _ => hmag _) c.1 c.2).1 _ _ (cell_inCell hx hy hc)
    refine this.trans ?_
    unfold patch; congr 1; ring
  have hcurve : ∀ c : ℝ × ℝ, c ∈ P.starts.getD (defaultCands pg P.ρx P.ρy) →
      buildCurve g (P.fields qs g) P.step (hyp u v) P.view .tail c L = some [(c, (a + b * c.1, d + f * c.2)),
      ((c.1 + L / hyp (b * u) (f * v) * u, c.2 + L / hyp (b * u) (f * v) * v),
        (a + b * c.1 + L * (b * u / hyp (b * u) (f * v)), d + f * c.2 + L * (f * v / hyp (b * u) (f * v))))] := by
    intro c hc
    obtain ⟨_, f2, f3, f4⟩ := hfit c hc
    have z1 : b * u + 0 * v = b * u := by ring
    have z2 : 0 * u + f * v = f * v := by ring
    have hstep : 35 / 100 < P.step := lt_of_lt_of_le (by norm_num) (le_max_left _ _)
    have ht := trace_short (view := P.view) hW hx hy hdx hdy (by rw [zero_mul, sub_zero]; exact hdet) (by rw [z1, z2]; exact hn) hσ hstep hL2 hL3 f2
      (L / hyp (b * u) (f * v)) (by rw [z1, z2]) f3 (by
        rw [z1, z2]
        convert f4 using 2 <;> ring)
    rw [z1, z2] at ht
    have s1 : a + b * c.1 + 0 * c.2 = a + b * c.1 := by ring
    have s2 : d + 0 * c.1 + f * c.2 = d + f * c.2 := by ring
    have s3 : b * u * (L / hyp (b * u) (f * v)) = L * (b * u / hyp (b * u) (f * v)) := by ring
    have s4 : f * v * (L / hyp (b * u) (f * v)) = L * (f * v / hyp (b * u) (f * v)) := by ring
    rw [s1, s2, s3, s4] at ht
    have htc : traceCurve g (P.fields qs g) P.step (hyp u v) P.view .tail c L = trace g (P.fields qs g) ⟨L, 1, P.step, hyp u v, P.view⟩ 512 c := by
      unfold traceCurve
      rw [if_neg (show ¬ L ≤ 0 by linarith)]
    unfold buildCurve buildLoop
    dsimp only
    rw [htc, ht]
    dsimp only
    rw [if_pos]
    refine ⟨by simp, ?_⟩
    have hn0 : 0 < hyp (b * u) (f * v) := lt_trans eps_pos hn
    refine short_accepted (p := (a + b * c.1, d + f * c.2)) (m := (L * (b * u / hyp (b * u) (f * v)), L * (f * v / hyp (b * u) (f * v)))) (len := L) ?_ hL2 hL4
    dsimp only
    rw [hyp_scale, abs_of_pos (by linarith)]
    have : hyp (b * u / hyp (b * u) (f * v)) (f * v / hyp (b * u) (f * v)) = 1 := by
      rw [show b * u / hyp (b * u) (f * v) = (hyp (b * u) (f * v))⁻¹ * (b * u) by ring,
        show f * v / hyp (b * u) (f * v) = (hyp (b * u) (f * v))⁻¹ * (f * v) by ring, hyp_scale, abs_of_pos (inv_pos.2 hn0), inv_mul_cancel₀ hn0.ne']
    rw [this, mul_one]
  -- the whole plot
  have hA : resolveAnchor P.anchor P.direction = .tail := by
    generalize P.anchor = x at *; generalize P.direction = y at *
    generalize hz : Anchor.tail = z at *
    cases ha <;> first | rfl | simp_all [resolveAnchor]
  unfold curly at h
  rw [hp, Option.bind_some] at h
  have hcell : 0 < g.nx * g.ny := by positivity
  split at h
  · rename_i hnil
    exfalso
    unfold finite at hnil
    rw [List.filterMap_eq_nil_iff] at hnil
    have := hnil 0 (List.mem_range.2 hcell)
    rw [hmag] at this; cases this
  rename_i m ms hms
  obtain ⟨e1, e2⟩ := const_fold (σ := hyp u v) (m := m) (ms := ms) (by
    intro z hz
    rw [← hms] at hz
    unfold finite at hz
    obtain ⟨k, _, hk⟩ := List.mem_filterMap.1 hz
    rw [hmag] at hk
    exact (Option.some.inj hk).symm)
  rw [e1, e2] at h
  rcases hd : styleDefault P.style (pg.grid.nx * pg.grid.ny) with _ | dflt
  · rw [hd] at h; cases h
  rw [hd, Option.bind_some] at h
  rcases hs : selectCenters qsort (P.scene qs pg) P.ρx P.ρy P.minDistance P.profile P.starts with _ | cs
  · rw [hs] at h; cases h
  rw [hs] at h
  obtain rfl := Option.some.inj h
  obtain ⟨s1, s2, _, s4⟩ := C288_centers qsort hq _ _ _ _ _ _ _ hs
  have s1' : ∀ x ∈ cs, x.1 ∈ P.starts.getD (defaultCands pg P.ρx P.ρy) := fun x hx => s1.subset (List.mem_map_of_mem hx)
  have hmg : ∀ x ∈ cs, x.2 = hyp u v := by
    intro x hx
    have t := (s2 x hx).2.1
    rw [hM x.1 (hfit _ (s1' x hx)).2.1] at t
    exact (Option.some.inj t).symm
  have hglyph : ∀ x ∈ cs, ∃ G, P.glyphAt qs g (hyp u v) (hyp u v) dflt x = some G ∧ G.center = x.1 ∧
      G.curve = [(x.1, (a + b * x.1.1, d + f * x.1.2)),
      ((x.1.1 + L / hyp (b * u) (f * v) * u, x.1.2 + L / hyp (b * u) (f * v) * v),
        (a + b * x.1.1 + L * (b * u / hyp (b * u) (f * v)), d + f * x.1.2 + L * (f * v / hyp (b * u) (f * v))))] := by
    intro x hx
    unfold Plot.glyphAt
    rw [hA, hmg x hx, ← hL, hcurve x.1 (s1' x hx)]
    exact ⟨_, rfl, rfl, rfl⟩
  constructor
  · intro G hG
    obtain ⟨x, hx, hxG⟩ := List.mem_filterMap.1 hG
    obtain ⟨G', h1, h2, h3⟩ := hglyph x hx
    rw [hxG] at h1
    cases h1
    rw [h2, h3]
  · intro c hc
    obtain ⟨f1, f2, _, _⟩ := hfit c hc
    rcases s4 c hc _ _ f1 (hP c f2) (hM c f2) with hin | ⟨x, hx, p, hpx, hlt⟩
    · left
      obtain ⟨G, h1, h2, _⟩ := hglyph _ hin
      exact ⟨G, List.mem_filterMap.2 ⟨_, hin, h1⟩, h2⟩
    · right
      obtain ⟨G, h1, h2, _⟩ := hglyph x hx
      refine ⟨G, List.mem_filterMap.2 ⟨_, hx, h1⟩, ?_⟩
      rw [hP x.1 (hfit _ (s1' x hx)).2.1] at hpx
      obtain rfl := Option.some.inj hpx
      rw [h2]
      convert hlt using 1
      unfold Spec.far2
      dsimp only [Plot.scene]
      ring

/-! ## Examples -/

/-- Eastward wind on the unit square, on a panel of `100` by `H` pixels. -/
noncomputable def squarePlot (H : ℝ) (starts : Option (List (ℝ × ℝ))) (refLength : Option ℝ) : Plot where
  x := [0, 1]
  y := [0, 1]
  u _ := some 1
  v _ := some 0
  T p := some (0 + 100 * p.1, 0 + H * p.2)
  view := ⟨0, 0, 100, H⟩
  nonUniform := false
  ρx := 1
  ρy := 1
  starts := starts
  anchor := none
  direction := .forward
  ref := none
  refLength := refLength
  minFrac := 0
  minDistance := none
  profile := false
  arrowsize := 1
  style := none

theorem squarePlot_grid (H : ℝ) (s : Option (List (ℝ × ℝ))) (r : Option ℝ) :
    pyGrid (squarePlot H s r).x (squarePlot H s r).y (squarePlot H s r).nonUniform = some ⟨⟨2, 2, 0, 0, 1, 1⟩, 1, 1⟩ := by
  have h : axis [0, 1] false = some (0, 1, ((([0, 1] : List ℝ).length - 1 : ℕ) : ℝ) * 1) :=
    C286_uniform [0, 1] 0 1 one_pos (by simp) (by
      intro i hi
      have : i = 0 ∨ i = 1 := by simp at hi; omega
      rcases this with rfl | rfl <;> simp) false
  have e : mkGrid 2 2 0 0 1 1 = ⟨2, 2, 0, 0, 1, 1⟩ := by
    unfold mkGrid safe
    norm_num [eps]
  unfold pyGrid
  change ((axis [0, 1] false).bind fun a => (axis [0, 1] false).map fun b => _) = _
  rw [h]
  simp [squarePlot, e]

theorem squarePlot_some (H : ℝ) (s : Option (List (ℝ × ℝ))) (hs : ∀ l, s = some l → ∀ c ∈ l, 0 ≤ c.1 ∧ c.1 ≤ 1 ∧ 0 ≤ c.2 ∧ c.2 ≤ 1) (r : Option ℝ)
    (qs : List ℝ → List ℝ) (qsort : List Entry → List Entry) : ∃ gs, curly qs qsort (squarePlot H s r) = some gs := by
  rw [← Option.ne_none_iff_exists']
  intro h
  rw [C291_errors, squarePlot_grid] at h
  rcases h with h | ⟨pg, h, _, ⟨f, hf, _⟩ | ⟨l, hl, c, hc, hout⟩⟩
  · cases h
  · cases hf
  · cases h
    obtain ⟨h1, h2, h3, h4⟩ := hs l hl c hc
    dsimp only at hout
    rcases hout with h | h | h | h <;> linarith

/-- **C296** (false). On a panel 13 times higher than wide, a single cell filling it is not used, and nothing is drawn. -/
theorem C296_false : ¬ C296_statement := by
  intro h
  obtain ⟨gs, hgs⟩ := squarePlot_some 1300 none (by simp) none qsortUp qsortM
  have hp := squarePlot_grid 1300 none none
  refine h qsortUp qsortM _ gs _ 100 1300 qsortUp_ok qsortM_isQsort hp (by norm_num) (by norm_num) (fun p => ?_) ?_ ?_ ?_ ?_ (fun _ => rfl)
    (fun _ => rfl) rfl hgs ?_
  · simp [squarePlot]
  · simp [squarePlot]
  · simp [squarePlot]
  · simp [squarePlot, Plot.w]
  · norm_num [squarePlot, Plot.h]
  · exact C296_elongated qsortUp qsortUp_ok qsortM qsortM_isQsort _ gs hgs _ hp 0 100 0 1300 (fun _ => rfl) (by norm_num) (by norm_num)
      (by norm_num) (by norm_num)

/-- The hypotheses of C295_uniform are met: an arrow of 1.5 pixels is drawn from the middle of the square eastward. C290 to C294 have a plot
with a glyph. -/
theorem squarePlot_glyph : ∃ gs, curly qsortUp qsortM (squarePlot 100 (some [(1 / 2, 1 / 2)]) (some (15 / 1000))) = some gs ∧
    ∃ G ∈ gs, G.center = (1 / 2, 1 / 2) ∧
      G.curve = [((1 / 2, 1 / 2), (50, 50)), ((1 / 2 + 15 / 1000, 1 / 2), (50 + 3 / 2, 50))] := by
  obtain ⟨gs, hgs⟩ := squarePlot_some 100 (some [(1 / 2, 1 / 2)]) (by
    intro l hl c hc
    cases hl
    obtain rfl := List.mem_singleton.1 hc
    norm_num) (some (15 / 1000)) qsortUp qsortM
  have hp := squarePlot_grid 100 (some [(1 / 2, 1 / 2)]) (some (15 / 1000))
  refine ⟨gs, hgs, ?_⟩
  set P := squarePlot 100 (some [(1 / 2, 1 / 2)]) (some (15 / 1000)) with hP
  have hw : P.w = 100 := by simp [hP, squarePlot, Plot.w]
  have hh : P.h = 100 := by simp [hP, squarePlot, Plot.h]
  have e1 : hyp 1 0 = 1 := by unfold hyp; simp
  have e2 : hyp (100 * 1) (100 * 0) = 100 := by
    unfold hyp
    rw [show (100 * 1 * (100 * 1) + 100 * 0 * (100 * 0) : ℝ) = 100 ^ 2 by norm_num, Real.sqrt_sq (by norm_num)]
  have hL : (3 / 2 : ℝ) = Length.glyphLength P.w P.h P.ρx P.ρy (hyp 1 0) (hyp 1 0) P.ref P.refLength P.minFrac (hyp 1 0) := by
    rw [e1, hw, hh]
    have hr : P.ref = none := rfl
    have hrl : P.refLength = some (15 / 1000) := rfl
    have ht : max (1 : ℝ) Length.tiny = 1 := by unfold Length.tiny; norm_num
    have ht0 : (1 : ℝ) - 1 ≤ Length.tiny := by unfold Length.tiny; norm_num
    have hm : max (100 * (15 / 1000) : ℝ) 1 = 3 / 2 := by norm_num
    have hsc : ∀ z d : ℝ, Length.scale 1 1 0 (3 / 2) z d = ⟨1, 1, 3 / 2, 3 / 2, 3 / 2, false⟩ := by
      intro z d
      unfold Length.scale
      dsimp only
      rw [ht, if_pos ht0, if_neg (show ¬ ((0 : ℝ) < 3 / 2 ∧ (0 : ℝ) < 0) by simp), if_neg (lt_irrefl (0 : ℝ)),
        if_pos (show (0 : ℝ) < 3 / 2 by norm_num)]
    unfold Length.glyphLength
    rw [hr, hrl]
    dsimp only [Option.getD]
    rw [hm, hsc]
    unfold Length.curveLength
    dsimp only
    rw [if_pos ht0]
  have hfit : ∀ c : ℝ × ℝ, c = (1 / 2, 1 / 2) → (⟨⟨2, 2, 0, 0, 1, 1⟩, 1, 1⟩ : PGrid).holds c ∧ (⟨2, 2, 0, 0, 1, 1⟩ : Grid).within c.1 c.2 ∧
      (⟨2, 2, 0, 0, 1, 1⟩ : Grid).within (c.1 + 3 / 2 / hyp (100 * 1) (100 * 0) * 1) (c.2 + 3 / 2 / hyp (100 * 1) (100 * 0) * 0) ∧
      P.view.contains (0 + 100 * (c.1 + 3 / 2 / hyp (100 * 1) (100 * 0) * 1), 0 + 100 * (c.2 + 3 / 2 / hyp (100 * 1) (100 * 0) * 0)) := by
    rintro c rfl
    rw [e2]
    have hv : P.view = ⟨0, 0, 100, 100⟩ := rfl
    rw [hv]
    unfold PGrid.holds Grid.within Grid.xi Grid.yi View.contains
    norm_num
  obtain ⟨h1, h2⟩ := C295_uniform qsortUp qsortUp_ok qsortM qsortM_isQsort P gs hgs _ hp 0 100 0 100 1 0 (3 / 2) (fun _ => rfl) (by norm_num)
    (by norm_num) (by norm_num) (by unfold eps; norm_num) (fun _ => rfl) (fun _ => rfl) (by rw [e1]; unfold eps; norm_num)
    (by rw [e2]; unfold eps; norm_num) hL (by norm_num) (le_max_left _ _) (by
      rw [hw, hh]
      unfold hyp
      have : (100 : ℝ) ≤ Real.sqrt (100 * 100 + 100 * 100) := Real.le_sqrt_of_sq_le (by norm_num)
      generalize Real.sqrt (100 * 100 + 100 * 100) = z at *
      linarith) .forward (fun c hc => hfit c (List.mem_singleton.1 hc))
  obtain ⟨pg, hp', hsub, _⟩ := C290_placed qsortUp qsortM qsortM_isQsort P gs hgs .tail .forward
  have hcen : ∀ G ∈ gs, G.center = (1 / 2, 1 / 2) := fun G hG => List.mem_singleton.1 (hsub.subset (List.mem_map_of_mem hG))
  have : ∃ G, G ∈ gs := by
    rcases h2 (1 / 2, 1 / 2) (List.mem_singleton.2 rfl) with ⟨G, hG, _⟩ | ⟨G, hG, _⟩ <;> exact ⟨G, hG⟩
  obtain ⟨G, hG⟩ := this
  refine ⟨G, hG, hcen G hG, ?_⟩
  rw [h1 G hG, hcen G hG, e2]
  norm_num

end Skyborn.Plot.Curly
