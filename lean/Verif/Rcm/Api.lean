/-
`rcm2rgrid`, the Python function: when it succeeds, and its result in terms of the kernel's closed form.
-/
import Verif.Rcm.Kernel
import Verif.Rcm.Dist

namespace Skyborn.Rcm

open Classical

/-- The number stored at `[g, j, i]`; `none` if it is missing. Elements equal to the largest float64 count as missing: that is the
number the kernels use for missing values. -/
noncomputable def Spec.datum (mp : V) (fi : NDArr V) (g j i : ℕ) : Option ℝ :=
  if fi.get [g, j, i] = mp ∨ fi.get [g, j, i] = some huge then none else fi.get [g, j, i]

/-- NaN occurs only as the missing value. -/
def Spec.Clean (mp : V) (fi : NDArr V) : Prop := ∀ ix, InB fi.shape ix → fi.get ix = none → mp = none

/-- The shapes of the five arrays of `rcm2rgrid`, with the sizes the kernel accepts. -/
structure Spec.Shapes (lat2d lon2d : NDArr ℝ) (fi : NDArr V) (lat1d lon1d : NDArr ℝ) (ngrd nyi nxi nyo nxo : ℕ) : Prop where
  lat2d : lat2d.shape = [nyi, nxi]
  lon2d : lon2d.shape = [nyi, nxi]
  fi : fi.shape = [ngrd, nyi, nxi]
  lat1d : lat1d.shape = [nyo]
  lon1d : lon1d.shape = [nxo]
  nyi : 2 ≤ nyi
  nxi : 2 ≤ nxi
  nyo : 2 ≤ nyo
  nxo : 2 ≤ nxo

/-- The source as the kernel sees it. -/
noncomputable def srcOf (mp : V) (lat2d lon2d : NDArr ℝ) (fi : NDArr V) (nxi nyi ngrd : ℕ) : Src :=
  ⟨nxi, nyi, ngrd, fun i j => lon2d.get [j - 1, i - 1], fun i j => lat2d.get [j - 1, i - 1], fieldsOf mp fi⟩

/-- The kernel's closed form at the element `[g, j, i]` before the row filling. -/
noncomputable def rawAt (mp : V) (lat2d lon2d : NDArr ℝ) (fi : NDArr V) (lat1d lon1d : NDArr ℝ) (ngrd nyi nxi nyo nxo g j i : ℕ) : ℝ :=
  rawVal (srcOf mp lat2d lon2d fi nxi nyi ngrd) huge 2 1 0.0001
    (fastOf (srcOf mp lat2d lon2d fi nxi nyi ngrd) 2 nxo nyo (fun i => lon1d.get [i - 1]) (fun j => lat1d.get [j - 1]) (i + 1) (j + 1))
    (lon1d.get [i]) (lat1d.get [j]) (g + 1)

/-- `rcm2rgrid` succeeds on arrays of the right shapes. -/
theorem rcm2rgrid_ok {lat2d lon2d : NDArr ℝ} {fi : NDArr V} {lat1d lon1d : NDArr ℝ} {ngrd nyi nxi nyo nxo : ℕ}
    (hs : Spec.Shapes lat2d lon2d fi lat1d lon1d ngrd nyi nxi nyo nxo) (msg : Option V) :
    ∃ out, rcm2rgrid (some lat2d) (some lon2d) fi lat1d lon1d msg = .ok (out, ⟨fi.shape, fun ix => encode (missing msg) (fi.get ix)⟩) ∧
      out.shape = [ngrd, nyo, nxo] ∧ ∀ g j, g < ngrd → j < nyo → ∃ row : ℕ → ℝ,
        (∀ i, i < nxo → row (i + 1) = rawAt (missing msg) lat2d lon2d fi lat1d lon1d ngrd nyi nxi nyo nxo g j i) ∧
        ∀ i, i < nxo → out.get [g, j, i] = decode (missing msg) (shortGaps row nxo huge (i + 1)) := by
  obtain ⟨raw, e, hraw⟩ := drcm2rgrid_eq (S := srcOf (missing msg) lat2d lon2d fi nxi nyi ngrd) (nyo := nyo) (nxo := nxo)
    (yo := fun j => lat1d.get [j - 1]) (xo := fun i => lon1d.get [i - 1]) (xmsg := huge) (ncrit := 1) hs.nxi hs.nyi hs.nxo hs.nyo
  rw [srcOf] at e
  rw [rcm2rgrid]
  simp only [hs.lat2d, hs.lon2d, hs.fi, hs.lat1d, hs.lon1d]
  rw [if_neg (by simp), if_neg (by simp), if_neg (by have := hs.nyo; have := hs.nxo; omega), e]
  refine ⟨_, rfl, rfl, fun g j hg hj => ⟨fun i => raw i (j + 1) (g + 1), fun i hi => ?_, fun i hi => ?_⟩⟩
  · beta_reduce
    rw [hraw (i + 1) (j + 1) (g + 1) (by omega) (by omega) (by omega) (by omega) (by omega) (by exact hg)]
    rfl
  · simp

/-- What success of `rcm2rgrid` tells about its arguments. -/
theorem rcm2rgrid_shapes {a b : Option (NDArr ℝ)} {fi : NDArr V} {lat1d lon1d : NDArr ℝ} {msg : Option V} {r : NDArr V × NDArr V}
    (h : rcm2rgrid a b fi lat1d lon1d msg = .ok r) : ∃ lat2d lon2d ngrd nyi nxi nyo nxo, a = some lat2d ∧ b = some lon2d ∧
      Spec.Shapes lat2d lon2d fi lat1d lon1d ngrd nyi nxi nyo nxo := by
  cases a with
  | none => simp [rcm2rgrid] at h
  | some lat2d =>
    cases b with
    | none => simp [rcm2rgrid] at h
    | some lon2d =>
      rw [rcm2rgrid] at h
      dsimp only at h
      split at h
      next nyi nxi nyi' nxi' ngrd fy fx nyo nxo e1 e2 e3 e4 e5 =>
        by_cases c1 : nxi' ≠ nxi ∨ nyi' ≠ nyi
        · rw [if_pos c1] at h; cases h
        rw [if_neg c1] at h
        by_cases c2 : fx ≠ nxi ∨ fy ≠ nyi
        · rw [if_pos c2] at h; cases h
        rw [if_neg c2] at h
        by_cases c3 : nyo = 0 ∨ nxo = 0
        · rw [if_pos c3] at h; cases h
        rw [if_neg c3] at h
        push Not at c1 c2
        obtain ⟨rfl, rfl⟩ := c1
        obtain ⟨rfl, rfl⟩ := c2
        by_cases c4 : fx ≤ 1 ∨ fy ≤ 1 ∨ nxo ≤ 1 ∨ nyo ≤ 1
        · rw [drcm2rgrid] at h
          simp only [c4, if_true] at h
          cases h
        · exact ⟨lat2d, lon2d, ngrd, fy, fx, nyo, nxo, rfl, rfl, e1, e2, e3, e4, e5, by omega, by omega, by omega, by omega⟩
      next => cases h

/-- The kernel's value of a source element. -/
theorem fieldsOf_eq {mp : V} {fi : NDArr V} (hc : Spec.Clean mp fi) {g j i : ℕ} (hb : InB fi.shape [g, j, i]) :
    fieldsOf mp fi (i + 1) (j + 1) (g + 1) = (Spec.datum mp fi g j i).getD huge := by
  rw [fieldsOf, Spec.datum, encode]
  simp only [Nat.add_sub_cancel]
  by_cases h1 : fi.get [g, j, i] = mp
  · rw [if_pos h1, if_pos (Or.inl h1)]; rfl
  · rw [if_neg h1]
    by_cases h2 : fi.get [g, j, i] = some huge
    · rw [if_pos (Or.inr h2), h2]; rfl
    · rw [if_neg (not_or.mpr ⟨h1, h2⟩)]
      cases e : fi.get [g, j, i] with
      | none => exact absurd (by rw [e, hc _ hb e]) h1
      | some v => rfl

theorem datum_ne_huge {mp : V} {fi : NDArr V} {g j i : ℕ} {v : ℝ} (h : Spec.datum mp fi g j i = some v) : v ≠ huge := by
  intro hv
  rw [Spec.datum] at h
  by_cases hc : fi.get [g, j, i] = mp ∨ fi.get [g, j, i] = some huge
  · rw [if_pos hc] at h; cases h
  · rw [if_neg hc] at h
    exact hc (Or.inr (by rw [h, hv]))

/-- A source value that is not the kernel's missing value is the number in the array. -/
theorem field_valid {mp : V} {fi : NDArr V} (hc : Spec.Clean mp fi) {g j i : ℕ} (hb : InB fi.shape [g, j, i])
    (h : fieldsOf mp fi (i + 1) (j + 1) (g + 1) ≠ huge) : Spec.datum mp fi g j i = some (fieldsOf mp fi (i + 1) (j + 1) (g + 1)) := by
  rw [fieldsOf_eq hc hb] at h ⊢
  cases e : Spec.datum mp fi g j i with
  | none => rw [e] at h; simp at h
  | some v => rfl

theorem inB3 {a b c g j i : ℕ} : InB [a, b, c] [g, j, i] ↔ g < a ∧ j < b ∧ i < c := by simp [InB]

theorem decode_ne {mp : V} {v : ℝ} (h : v ≠ huge) : decode mp v = some v := by rw [decode, if_neg h]

/-! ### The filled row -/

/-- Every value of the filled row is missing, a value of the row, or between two values of the row left and right of it. -/
theorem shortGaps_cases (x : ℕ → ℝ) (npts : ℕ) (xmsg : ℝ) (i : ℕ) (h1 : 1 ≤ i) (h2 : i ≤ npts) :
    shortGaps x npts xmsg i = xmsg ∨ (x i ≠ xmsg ∧ shortGaps x npts xmsg i = x i) ∨
      ∃ a b, (1 ≤ a ∧ a < i ∧ i < b ∧ b ≤ npts) ∧ x a ≠ xmsg ∧ x b ≠ xmsg ∧
        min (x a) (x b) ≤ shortGaps x npts xmsg i ∧ shortGaps x npts xmsg i ≤ max (x a) (x b) := by
  have hg := C167_short_gaps x npts xmsg
  rcases cases3 npts xmsg x i h1 h2 with c | ⟨a, b, c⟩ | c
  · exact Or.inr (Or.inl ⟨c, hg.valid i h1 h2 c⟩)
  · by_cases hl : b - a - 1 ≤ 2
    · right; right
      refine ⟨a, b, c.1, c.2.1, c.2.2.1, ?_⟩
      rw [hg.short a i b c hl]
      have hab : (a : ℝ) < i := by exact_mod_cast c.1.2.1
      have hib : (i : ℝ) < b := by exact_mod_cast c.1.2.2.1
      have hd : (0 : ℝ) < b - a := by linarith
      have t0 : 0 ≤ ((i : ℝ) - a) / (b - a) := div_nonneg (by linarith) hd.le
      have t1 : ((i : ℝ) - a) / (b - a) ≤ 1 := by rw [div_le_one hd]; linarith
      generalize ((i : ℝ) - a) / (b - a) = t at t0 t1
      constructor
      · rcases le_total (x a) (x b) with h | h
        · rw [min_eq_left h]; nlinarith
        · rw [min_eq_right h]; nlinarith
      · rcases le_total (x a) (x b) with h | h
        · rw [max_eq_right h]; nlinarith
        · rw [max_eq_left h]; nlinarith
    · exact Or.inl (hg.long a i b c (by omega))
  · exact Or.inl (hg.ends i h1 h2 c)

end Skyborn.Rcm
