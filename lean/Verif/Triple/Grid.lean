import Verif.Triple.Run
import Verif.Triple.Spec

/-! The Python side of `triple_to_grid`, and what does not depend on uninitialised memory. -/

namespace Skyborn.Triple

theorem rd_congr {α : Type} {n : ℕ} {a b : ℕ → α} (h : ∀ i, 1 ≤ i → i ≤ n → a i = b i) : rd n a = rd n b := by
  funext i
  unfold rd
  split
  · next hi => rw [h i hi.1 hi.2]
  · rfl

/-! ### Everything is read through `rd` -/

theorem findEq_congr {n : ℕ} {g g' : ℕ → ℝ} (h : rd n g = rd n g') (v : ℝ) : ∀ left i, findEq n g v left i = findEq n g' v left i := by
  intro left
  induction left with
  | zero => intro i; rfl
  | succ left ih => intro i; rw [findEq, findEq, h]; simp only [ih]

theorem exactLoop_congr {mx ny : ℕ} {gx gx' gy gy' : ℕ → ℝ} (hx : rd mx gx = rd mx gx') (hy : rd ny gy = rd ny gy') (b : Obs) :
    ∀ left i, exactLoop mx ny gx gy b left i = exactLoop mx ny gx' gy' b left i := by
  intro left
  induction left with
  | zero => intro i; rfl
  | succ left ih => intro i; rw [exactLoop, exactLoop, hy]; simp only [ih, findEq_congr hx]

theorem exactCell_congr {mx ny : ℕ} {gx gx' gy gy' : ℕ → ℝ} (hx : rd mx gx = rd mx gx') (hy : rd ny gy = rd ny gy') (dx dy : ℝ) (p q : Bool) (b : Obs) :
    exactCell mx ny gx gy dx dy p q b = exactCell mx ny gx' gy' dx dy p q b := by
  unfold exactCell exactEven
  rw [exactLoop_congr hx hy, hx, hy]

theorem cellLoop_congr {n : ℕ} {g g' : ℕ → ℝ} (h : rd n g = rd n g') (v : ℝ) : ∀ left i, cellLoop n g v left i = cellLoop n g' v left i := by
  intro left
  induction left with
  | zero => intro i; rfl
  | succ left ih => intro i; rw [cellLoop, cellLoop, h]; simp only [ih]

theorem axisTarget_congr {n : ℕ} {g g' : ℕ → ℝ} (h : rd n g = rd n g') (d : ℝ) (flag : Bool) (v : ℝ) (s : V) :
    axisTarget n g d flag v s = axisTarget n g' d flag v s := by
  unfold axisTarget
  rw [h, cellLoop_congr h]

/-- The kernel depends on its arrays only through what lies inside their bounds. -/
theorem trip2grd2_congr {kpts mx ny : ℕ} {o o' : ℕ → Obs} {gx gx' gy gy' : ℕ → ℝ} (ho : rd kpts o = rd kpts o') (hx : rd mx gx = rd mx gx')
    (hy : rd ny gy = rd ny gy') (zmsg : ℝ) (p q : Bool) (method : ℤ) (dd : ℝ) (sx sy : V) :
    trip2grd2 kpts mx ny o zmsg gx gy p q method dd sx sy = trip2grd2 kpts mx ny o' zmsg gx' gy' p q method dd sx sy := by
  unfold trip2grd2 exactPass nearPass
  simp only [ho, hx, hy, exactCell_congr hx hy, axisTarget_congr hx, axisTarget_congr hy]

/-! ### The cell contents are determined -/

theorem CellResult.unique {kpts : ℕ} {o : ℕ → Obs} {f : Obs → Option (ℕ × ℕ)} {t : Obs → Option (ℕ × ℕ × V)} {zmsg dd : ℝ} {m n : ℕ} {g g' : V}
    (h : CellResult kpts o f t zmsg dd m n g) (h' : CellResult kpts o f t zmsg dd m n g') : g = g' := by
  rcases h with ⟨j, a1, a2, a3, a4, a5⟩ | ⟨a1, a2, a3⟩ | ⟨a1, a2, j, d, a3, a4, a5, a6, a7, a8, a9, a10⟩
  · rcases h' with ⟨i, b1, b2, b3, b4, b5⟩ | ⟨b1, -⟩ | ⟨b1, -⟩
    · have : j = i := by
        rcases lt_trichotomy j i with h | h | h
        · exact absurd b3 (a4 i h b2)
        · exact h
        · exact absurd a3 (b4 j h a2)
      rw [a5, b5, this]
    · exact absurd a3 (b1 j a1 a2)
    · exact absurd a3 (b1 j a1 a2)
  · rcases h' with ⟨i, b1, b2, b3, -⟩ | ⟨-, b2, -⟩ | ⟨b1, b2, i, e, b3, b4, b5, b6, b7, -⟩
    · exact absurd b3 (a1 i b1 b2)
    · rw [a2, b2]
    · exfalso
      rcases a3 with a3 | a3
      · obtain ⟨k, k1, k2, k3⟩ := b2
        exact a3 k k1 k2 k3
      · exact a3 i b3 b4 e b5 ⟨b6, b7⟩
  · rcases h' with ⟨i, b1, b2, b3, -⟩ | ⟨-, b2, b3⟩ | ⟨b1, b2, i, e, b3, b4, b5, b6, b7, b8, b9, b10⟩
    · exact absurd b3 (a1 i b1 b2)
    · exfalso
      rcases b3 with b3 | b3
      · obtain ⟨k, k1, k2, k3⟩ := a2
        exact b3 k k1 k2 k3
      · exact b3 j a3 a4 d a5 ⟨a6, a7⟩
    · have : j = i := by
        rcases lt_trichotomy j i with h | h | h
        · have h1 := b10 j d a3 h a5
          have h2 := a9 i e b3 b4 b5
          exact absurd h1 (not_lt.mpr h2)
        · exact h
        · have h1 := a10 i e b3 h b5
          have h2 := b9 j d a3 a4 a5
          exact absurd h1 (not_lt.mpr h2)
      rw [a8, b8, this]

/-- With great-circle distances, or with two unevenly spaced axes, the initial fractions do not matter. -/
theorem tgt_indep {mx ny : ℕ} (hx : 1 ≤ mx) (hy : 1 ≤ ny) (gx gy : ℕ → ℝ) (dx dy : ℝ) (p q : Bool) (method : ℤ) (sx sy sx' sy' : V)
    (h : method ≠ 0 ∨ (p = false ∧ q = false)) (b : Obs) :
    tgt mx ny gx gy dx dy p q method sx sy b = tgt mx ny gx gy dx dy p q method sx' sy' b := by
  obtain ⟨i, hi⟩ := axisTarget_run hy gy dy q b.y
  obtain ⟨j, hj⟩ := axisTarget_run hx gx dx p b.x
  obtain ⟨s, e1, -, e2⟩ := hi sy
  obtain ⟨s', e1', -, -⟩ := hi sy'
  obtain ⟨r, c1, -, c2⟩ := hj sx
  obtain ⟨r', c1', -, -⟩ := hj sx'
  unfold tgt
  rw [e1, e1', c1, c1']
  simp only [Option.bind_eq_bind, Option.bind_some]
  by_cases hc : 1 ≤ j ∧ j ≤ mx ∧ 1 ≤ i ∧ i ≤ ny
  · rw [if_pos hc, if_pos hc]
    rcases h with h | ⟨rfl, rfl⟩
    · unfold distance
      rw [if_neg h, if_neg h]
    · have h1 := e2 sy' rfl hc.2.2.1
      have h2 := c2 sx' rfl hc.1
      rw [e1'] at h1
      rw [c1'] at h2
      simp only [Option.some.injEq, Prod.mk.injEq, true_and] at h1 h2
      rw [h1, h2]
  · rw [if_neg hc, if_neg hc]

theorem trip2grd2_indep {kpts mx ny : ℕ} (hx : 3 ≤ mx) (hy : 3 ≤ ny) (o : ℕ → Obs) (zmsg : ℝ) (gx gy : ℕ → ℝ) (p q : Bool) (method : ℤ)
    (dd : ℝ) (sx sy sx' sy' : V) (h : method ≠ 0 ∨ (p = false ∧ q = false)) :
    trip2grd2 kpts mx ny o zmsg gx gy p q method dd sx sy = trip2grd2 kpts mx ny o zmsg gx gy p q method dd sx' sy' := by
  obtain ⟨g, e, hg⟩ := trip2grd2_run (kpts := kpts) hx hy o zmsg gx gy p q method dd sx sy
  obtain ⟨g', e', hg'⟩ := trip2grd2_run (kpts := kpts) hx hy o zmsg gx gy p q method dd sx' sy'
  rw [e, e']
  congr 1
  funext m n
  have ht : tgt mx ny gx gy |gx 3 - gx 2| |gy 3 - gy 2| p q method sx sy = tgt mx ny gx gy |gx 3 - gx 2| |gy 3 - gy 2| p q method sx' sy' :=
    funext fun b => tgt_indep (mx := mx) (ny := ny) (le_trans (by norm_num) hx) (le_trans (by norm_num) hy) gx gy _ _ p q method sx sy sx' sy' h b
  have h1 := hg m n
  rw [ht] at h1
  exact h1.unique (hg' m n)

theorem holds_rd {kz : ℕ} {w w' : ℕ → Obs} {P : List Obs} (h : Holds (kz, w) P) (h' : Holds (kz, w') P) : rd kz w = rd kz w' := by
  refine rd_congr fun i h1 h2 => ?_
  obtain ⟨i, rfl⟩ : ∃ j, i = j + 1 := ⟨i - 1, by omega⟩
  have hk := h.1
  dsimp only at hk
  have e1 := h.2 i (by omega)
  have e2 := h'.2 i (by omega)
  dsimp only at e1 e2
  rw [e1, e2]

/-- The whole kernel does not depend on uninitialised memory then. -/
theorem triple2grid1_indep (G G' : Garbage) {kz mx ny : ℕ} (hx : 3 ≤ mx) (hy : 3 ≤ ny) (o : ℕ → Obs) (zmsg : ℝ) (gx gy : ℕ → ℝ) (domain : ℝ)
    (method : ℤ) (distmx : ℝ) (h : method ≠ 0 ∨ (¬ LooksEven mx gx ∧ ¬ LooksEven ny gy)) :
    triple2grid1 G kz mx ny o zmsg gx gy domain method distmx = triple2grid1 G' kz mx ny o zmsg gx gy domain method distmx := by
  obtain ⟨⟨k, ko, w⟩, e, h1, h2⟩ := strip_run (kz := kz) (mx := mx) (ny := ny) (by omega) (by omega) o zmsg gx gy G.w
  obtain ⟨⟨k', ko', w'⟩, e', h1', h2'⟩ := strip_run (kz := kz) (mx := mx) (ny := ny) (by omega) (by omega) o zmsg gx gy G'.w
  dsimp only at h1 h2 h1' h2'
  obtain ⟨mf, em, hm⟩ := even_run (n := mx) (by omega) gx
  obtain ⟨nf, en, hn⟩ := even_run (n := ny) (by omega) gy
  have hk : k = k' := h1.1.trans h1'.1.symm
  subst hk
  have hflag : method ≠ 0 ∨ (mf = false ∧ nf = false) := by
    refine h.imp id fun ⟨a, b⟩ => ⟨?_, ?_⟩
    · rw [← hm] at a; simpa using a
    · rw [← hn] at b; simpa using b
  unfold triple2grid1
  rw [e, e', em, en]
  simp only [Option.bind_eq_bind, Option.bind_some]
  congr 1
  have ho := holds_rd h1 h1'
  by_cases hko : ko = 0
  · have hko' : ko' = 0 := h2'.mpr (h2.mp hko)
    rw [if_pos hko, if_pos hko', trip2grd2_congr ho rfl rfl]
    exact trip2grd2_indep hx hy _ _ _ _ _ _ _ _ _ _ _ _ hflag
  · have hko' : ko' ≠ 0 := fun hc => hko (h2.mpr (h2'.mp hc))
    rw [if_neg hko, if_neg hko']
    obtain ⟨bx, ex, hbx⟩ := bigAxis_run (n := mx) (by omega) gx domain G.gbx
    obtain ⟨by1, ey, hby⟩ := bigAxis_run (n := ny) (by omega) gy domain G.gby
    obtain ⟨bx', ex', hbx'⟩ := bigAxis_run (n := mx) (by omega) gx domain G'.gbx
    obtain ⟨by1', ey', hby'⟩ := bigAxis_run (n := ny) (by omega) gy domain G'.gby
    rw [ex, ey, ex', ey']
    simp only [Option.bind_some]
    rw [trip2grd2_congr ho (rd_congr fun i a b => (hbx i a b).trans (hbx' i a b).symm) (rd_congr fun i a b => (hby i a b).trans (hby' i a b).symm),
      trip2grd2_indep (by omega) (by omega) _ _ _ _ _ _ _ _ _ _ G'.slpx G'.slpy hflag]

/-! ### `triple_to_grid` -/

theorem mapM_ok {α β ε : Type} {f : α → Except ε β} {F : α → β} : ∀ {l : List α}, (∀ a ∈ l, f a = .ok (F a)) → l.mapM f = .ok (l.map F) := by
  intro l
  induction l with
  | nil => intro _; rfl
  | cons a l ih =>
    intro h
    rw [List.mapM_cons, h a (by simp), ih fun b hb => h b (by simp [hb])]
    rfl

/-- A call whose arguments pass the checks of triple_to_grid.py:458-520. -/
structure Good (lead : List ℕ) (kz mx ny : ℕ) (data : Arr) (x y gx gy : NDArr ℝ) (method : ℤ) (distmx : Option ℝ) : Prop where
  data : data.shape = lead ++ [kz]
  x : x.shape = [kz]
  y : y.shape = [kz]
  gx : gx.shape = [mx]
  gy : gy.shape = [ny]
  method : method = 0 ∧ distmx = none ∨ method = 1
  kz : kz ≠ 0
  lead : lead.prod ≠ 0

theorem unravel_lead {lead l : List ℕ} (hl : InB lead l) {kz k : ℕ} (hk : k < kz) : unravel (lead ++ [kz]) (ravel lead l * kz + k) = l ++ [k] := by
  have h : InB (lead ++ [kz]) (l ++ [k]) := (InB_append hl.length).mpr ⟨hl, by simp [InB, hk]⟩
  have := unravel_ravel h
  rw [ravel_append hl.length] at this
  simpa [ravel] using this

/-- The slice of the data at lead position `i`. -/
noncomputable def sliceOf (g : ℕ → Garbage) (M : ℝ) (kz mx ny : ℕ) (data : Arr) (x y gx gy : NDArr ℝ) (method : ℤ) (domain : ℝ) (distmx : Option ℝ)
    (mp : Option V) (i : ℕ) : Except Err (ℕ → V) :=
  sliceGrid (g i) M kz mx ny (fun k => data.get (unravel data.shape (i * kz + k))) (fun k => x.get [k]) (fun k => y.get [k]) (fun m => gx.get [m])
    (fun n => gy.get [n]) domain method distmx (mp.getD none)

/-- `triple_to_grid` when every slice succeeds. -/
theorem tripleToGrid_run (g : ℕ → Garbage) (M : ℝ) {lead : List ℕ} {kz mx ny : ℕ} {data : Arr} {x y gx gy : NDArr ℝ} {method : ℤ} {distmx : Option ℝ}
    (h : Good lead kz mx ny data x y gx gy method distmx) (domain : ℝ) (mp : Option V) (F : ℕ → ℕ → V)
    (hF : ∀ i, i < lead.prod → sliceOf g M kz mx ny data x y gx gy method domain distmx mp i = .ok (F i)) :
    ∃ res, tripleToGrid g M data x y gx gy method domain distmx mp = .ok res ∧ res.shape = lead ++ [ny, mx] ∧
      ∀ l a b, InB lead l → a < ny → b < mx → res.get (l ++ [a, b]) = F (ravel lead l) (a * mx + b) := by
  obtain ⟨h1, h2, h3, h4, h5, h6, h7, h8⟩ := h
  have hlast : data.shape.getLastD 0 = kz := by rw [h1]; simp
  have hdrop : data.shape.dropLast = lead := by rw [h1]; simp
  refine ⟨⟨lead ++ [ny, mx], fun ix => (((List.range lead.prod).map F).getD (ravel (lead ++ [ny, mx]) ix / (mx * ny)) fun _ => none)
    (ravel (lead ++ [ny, mx]) ix % (mx * ny))⟩, ?_, rfl, fun l a b hl ha hb => ?_⟩
  · unfold tripleToGrid
    rw [hlast, hdrop]
    simp only [h2, h3, h4, h5, List.getD_cons_zero, List.length_singleton]
    rw [if_neg (by simp), if_neg (by simp), if_neg (by simp), if_neg (by rcases h6 with ⟨h, -⟩ | h <;> simp [h]),
      if_neg (by rcases h6 with ⟨h, h'⟩ | h <;> simp [*]), if_neg h7, if_neg h8]
    have := mapM_ok (l := List.range lead.prod) (f := sliceOf g M kz mx ny data x y gx gy method domain distmx mp) (F := F)
      (fun i hi => hF i (List.mem_range.mp hi))
    unfold sliceOf at this
    rw [this]
  · have hr := ravel_lt hl
    have hab : a * mx + b < mx * ny := by
      calc a * mx + b < a * mx + mx := by omega
        _ = (a + 1) * mx := by ring
        _ ≤ ny * mx := Nat.mul_le_mul_right _ ha
        _ = mx * ny := Nat.mul_comm _ _
    have hrav : ravel (lead ++ [ny, mx]) (l ++ [a, b]) = ravel lead l * (mx * ny) + (a * mx + b) := by
      rw [ravel_append hl.length]
      simp [ravel, Nat.mul_comm ny mx]
    dsimp only
    rw [hrav]
    have hd : (ravel lead l * (mx * ny) + (a * mx + b)) / (mx * ny) = ravel lead l := by
      rw [Nat.mul_comm, Nat.mul_add_div (by omega), Nat.div_eq_of_lt hab, Nat.add_zero]
    have hm : (ravel lead l * (mx * ny) + (a * mx + b)) % (mx * ny) = a * mx + b := by
      rw [Nat.mul_comm, Nat.mul_add_mod, Nat.mod_eq_of_lt hab]
    rw [hd, hm, List.getD_eq_getElem?_getD, List.getElem?_map, List.getElem?_range hr]
    rfl

/-- The kernel call of one slice. -/
noncomputable def kernel (G : Garbage) (M : ℝ) (kz mx ny : ℕ) (z : ℕ → V) (x y gx gy : ℕ → ℝ) (domain : ℝ) (method : ℤ) (distmx : Option ℝ) (mp : V) :
    Option (ℕ → ℕ → V) :=
  triple2grid1 G kz mx ny (fun k => ⟨x (k - 1), y (k - 1), encode M mp (z (k - 1))⟩) M (fun m => gx (m - 1)) (fun n => gy (n - 1)) domain method
    (distmx.getD (10 ^ 20))

theorem sliceGrid_ok {G : Garbage} {M : ℝ} {kz mx ny : ℕ} {z : ℕ → V} {x y gx gy : ℕ → ℝ} {domain : ℝ} {method : ℤ} {distmx : Option ℝ} {mp : V}
    {grid : ℕ → ℕ → V} (h : kernel G M kz mx ny z x y gx gy domain method distmx mp = some grid) :
    sliceGrid G M kz mx ny z x y gx gy domain method distmx mp = .ok fun k => decode M mp (grid (k / ny + 1) (k % ny + 1)) := by
  unfold kernel at h
  unfold sliceGrid
  rw [h]

end Skyborn.Triple
