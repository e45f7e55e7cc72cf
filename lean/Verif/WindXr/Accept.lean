/-
C241: which labelled winds `VectorWind` accepts.
-/
import Verif.WindXr.Props

namespace Skyborn.WindXr

open Skyborn Windspharm Sphere

variable {K α : Type} [Field K] [LinearOrder K] [IsStrictOrderedRing K]

/-- Latitudes turned north to south (judged by the first two). -/
def Spec.northFirst (lats : List K) : List K := if lats.getD 0 0 < lats.getD 1 0 then lats.reverse else lats

/-- The grid type: named (upper and lower case alike), or recognised from the latitudes north to south. -/
def Spec.GridIs (gauss : ℕ → Option (ℕ → K)) (lats : List K) (gridtype : Option String) (g : Grid) : Prop :=
  match gridtype with
  | none => (inspectGridtype gauss (Spec.northFirst lats) = some .regular ∧ g = .regular) ∨
      (inspectGridtype gauss (Spec.northFirst lats) = some .gaussian ∧ g = .gaussian)
  | some n => (n.toLower = "regular" ∧ g = .regular) ∨ (n.toLower = "gaussian" ∧ g = .gaussian)

/-- All values are numbers. -/
def Spec.AllNumbers (a : WArr K Cell) : Prop := ∀ f, Spec.Point a f → ∃ r, Spec.at a f = .num r

/-- Some value is NaN or missing. -/
def Spec.SomeNan (a : WArr K Cell) : Prop := ∃ f, Spec.Point a f ∧ Spec.at a f = .nan

theorem regular_ends {n : ℕ} (hn : 2 ≤ n) : (45 : K) ≤ regularLat n 0 ∧ (regularLat n (n - 1) : K) ≤ -45 := by
  have h1 : (2 : K) ≤ n := by exact_mod_cast hn
  have h2 : (n : K) - 1 ≠ 0 := by linarith
  have hcast : ((n - 1 : ℕ) : K) = (n : K) - 1 := by rw [Nat.cast_sub (by omega)]; simp
  have h3 : (180 : K) / n ≤ 90 := by rw [div_le_iff₀ (by linarith)]; linarith
  unfold regularLat linspace
  rw [hcast]
  split
  · constructor
    · simp; norm_num
    · rw [mul_div_cancel₀ _ h2]; norm_num
  · constructor
    · simp; linarith
    · dsimp only
      rw [mul_div_cancel₀ _ h2]; linarith

/-- Numbered rows are no grid. -/
theorem inspect_numbers (gauss : ℕ → Option (ℕ → K)) {n : ℕ} (hn : 2 ≤ n) :
    inspectGridtype gauss ((List.range n).map fun k : ℕ => (k : K)) = none ∧
    inspectGridtype gauss ((List.range n).map fun k : ℕ => (k : K)).reverse = none := by
  obtain ⟨h1, h2⟩ := regular_ends (K := K) hn
  have hget : ∀ k, k < n → ((List.range n).map fun k : ℕ => (k : K)).getD k 0 = k := by
    intro k hk
    rw [List.getD_eq_getElem _ _ (by simpa using hk)]; simp
  have hrev : ∀ k, k < n → ((List.range n).map fun k : ℕ => (k : K)).reverse.getD k 0 = ((n - 1 - k : ℕ) : K) := by
    intro k hk
    rw [List.getD_eq_getElem _ _ (by simpa using hk), List.getElem_reverse]
    simp
  constructor
  · unfold inspectGridtype
    simp only [List.length_map, List.length_range]
    rw [if_neg (by omega), if_pos, if_pos]
    · rw [List.any_eq_true]
      refine ⟨0, by simp; omega, ?_⟩
      rw [decide_eq_true_eq, hget 0 (by omega)]
      rw [gt_iff_lt, Nat.cast_zero, zero_sub, abs_neg, abs_of_nonneg (by linarith)]
      linarith
    · rw [List.all_eq_true]
      intro k hk
      have hk' : k < n - 1 := by simpa using hk
      rw [decide_eq_true_eq, hget _ (by omega), hget _ (by omega), hget _ (by omega), hget _ (by omega)]
      push_cast
      simp
  · unfold inspectGridtype
    simp only [List.length_reverse, List.length_map, List.length_range]
    rw [if_neg (by omega), if_pos, if_pos]
    · rw [List.any_eq_true]
      refine ⟨n - 1, by simp; omega, ?_⟩
      rw [decide_eq_true_eq, hrev (n - 1) (by omega)]
      rw [show n - 1 - (n - 1) = 0 by omega, gt_iff_lt, Nat.cast_zero, zero_sub, abs_neg, abs_of_nonpos (by linarith)]
      linarith
    · rw [List.all_eq_true]
      intro k hk
      have hk' : k < n - 1 := by simpa using hk
      rw [decide_eq_true_eq, hrev _ (by omega), hrev _ (by omega), hrev _ (by omega), hrev _ (by omega)]
      have c1 : ((n - 1 - (k + 1) : ℕ) : K) = n - 1 - (k + 1) := by
        rw [Nat.cast_sub (by omega), Nat.cast_sub (by omega)]; push_cast; rfl
      have c2 : ((n - 1 - k : ℕ) : K) = n - 1 - k := by
        rw [Nat.cast_sub (by omega), Nat.cast_sub (by omega)]; push_cast; rfl
      have c3 : ((n - 1 - (0 + 1) : ℕ) : K) = n - 1 - 1 := by
        rw [Nat.cast_sub (by omega), Nat.cast_sub (by omega)]; push_cast; simp
      have c4 : ((n - 1 - 0 : ℕ) : K) = n - 1 := by
        rw [Nat.sub_zero, Nat.cast_sub (by omega)]; push_cast; rfl
      rw [c1, c2, c3, c4]
      have e1 : ((n : K) - 1 - (k + 1) - (n - 1 - k)) = -1 := by ring
      have e2 : ((n : K) - 1 - 1 - (n - 1)) = -1 := by ring
      rw [e1, e2]
      simp

theorem lower_regular : ("regular" : String).toLower = "regular" := by decide +kernel
theorem lower_gaussian : ("gaussian" : String).toLower = "gaussian" := by decide +kernel

/-- The grid type the constructor finds. -/
theorem grid_iff (gauss : ℕ → Option (ℕ → K)) {u : WArr K Cell} (hu : Spec.Proper u) {lat lon : String} {c : Coord K} (hf : Spec.Frame u lat lon c)
    (gridtype : Option String) (g : Grid) :
    (∃ s, gridName gauss (coordOf (turned u lat (asc c)) lat).vals gridtype = .ok s ∧ gridOf s = some g) ↔ Spec.GridIs gauss c.vals gridtype g := by
  cases gridtype with
  | some n =>
    unfold gridName Spec.GridIs
    simp only
    by_cases h1 : n.toLower = "regular"
    · rw [if_pos (Or.inl h1), h1]
      have : gridOf "regular" = some .regular := by unfold gridOf; rw [lower_regular, if_pos rfl]
      constructor
      · rintro ⟨s, e, hs⟩
        injection e with e
        rw [← e, this] at hs
        injection hs with hs
        exact Or.inl ⟨rfl, hs.symm⟩
      · rintro (⟨-, rfl⟩ | ⟨h, -⟩)
        · exact ⟨_, rfl, this⟩
        · exact absurd h (by decide)
    · by_cases h2 : n.toLower = "gaussian"
      · rw [if_pos (Or.inr h2), h2]
        have : gridOf "gaussian" = some .gaussian := by
          unfold gridOf; rw [lower_gaussian, if_neg (by decide), if_pos rfl]
        constructor
        · rintro ⟨s, e, hs⟩
          injection e with e
          rw [← e, this] at hs
          injection hs with hs
          exact Or.inr ⟨rfl, hs.symm⟩
        · rintro (⟨h, -⟩ | ⟨-, rfl⟩)
          · exact absurd h (by decide)
          · exact ⟨_, rfl, this⟩
      · rw [if_neg (by simp [h1, h2])]
        simp [h1, h2]
  | none =>
    have key : inspectGridtype gauss (coordOf (turned u lat (asc c)) lat).vals = inspectGridtype gauss (Spec.northFirst c.vals) := by
      obtain ⟨-, rfl, -, -, hl, hc⟩ := frame_parts hu hf
      unfold Spec.northFirst
      by_cases hb : c.vals.getD 0 0 < c.vals.getD 1 0
      · have ha : asc c = true := by unfold asc; simpa using hb
        rw [if_pos hb, ha]
        show inspectGridtype gauss (coordOf (reverse u c.name) c.name).vals = _
        rw [coordOf_reverse hu]
        rcases carries_coordOf u c.name with ⟨h1, h2⟩ | ⟨h1, h2⟩
        · rw [if_pos ⟨rfl, _, h1, h2⟩, ← hc]
        · rw [if_neg fun hx => by obtain ⟨-, c', q1, q2⟩ := hx; exact h1 c' q1 q2]
          rw [← hc] at h2 ⊢
          obtain ⟨m, hm⟩ : ∃ m, m = Spec.size u c.name := ⟨_, rfl⟩
          have h2' : c.vals = (List.range m).map fun k : ℕ => (k : K) := by rw [hm]; conv_lhs => rw [h2]
          obtain ⟨i1, i2⟩ := inspect_numbers gauss (n := m) (by rw [hm]; exact hf.rows)
          rw [h2', i1, i2]
      · have ha : asc c = false := by unfold asc; simpa using hb
        rw [if_neg hb, ha]
        show inspectGridtype gauss (coordOf u c.name).vals = _
        rw [← hc]
    unfold gridName Spec.GridIs
    simp only [key]
    have r1 : gridOf "regular" = some .regular := by unfold gridOf; rw [lower_regular, if_pos rfl]
    have r2 : gridOf "gaussian" = some .gaussian := by unfold gridOf; rw [lower_gaussian, if_neg (by decide), if_pos rfl]
    cases inspectGridtype gauss (Spec.northFirst c.vals) with
    | none => simp
    | some t =>
      cases t
      · simp [r1, eq_comm]
      · simp [r2, eq_comm]

theorem gridName_error {gauss : ℕ → Option (ℕ → K)} {l : List K} {g : Option String} {e : XErr} (hg : gridName gauss l g = .error e) : e = .valueError := by
  unfold gridName at hg
  split at hg
  · split at hg <;> first | cases hg; done | (injection hg with hg; rw [← hg])
  · split at hg
    · cases hg
    · injection hg with hg; rw [← hg]

theorem gridName_grid {gauss : ℕ → Option (ℕ → K)} {l : List K} {g : Option String} {s : String} (hg : gridName gauss l g = .ok s) :
    ∃ g, gridOf s = some g := by
  unfold gridName at hg
  unfold gridOf
  split at hg
  · split at hg
    · injection hg with hg; subst hg; rw [lower_regular]; exact ⟨_, if_pos rfl⟩
    · injection hg with hg; subst hg; rw [lower_gaussian, if_neg (by decide)]; exact ⟨_, if_pos rfl⟩
    · cases hg
  · split at hg
    · next h =>
      injection hg with hg
      subst hg
      rcases h with h | h
      · rw [h, lower_regular]; exact ⟨_, if_pos rfl⟩
      · rw [h, lower_gaussian, if_neg (by decide)]; exact ⟨_, if_pos rfl⟩
    · cases hg

theorem arranged_values {a : WArr K Cell} (h : Spec.Proper a) {lat lon : String} {lats : List K} (hf : Placed a lat lon lats) {asc : Bool}
    (ha : asc = decide (lats.getD 0 0 < lats.getD 1 0)) (P : Cell → Prop) :
    (∀ idx, InB (transposeTo (turned a lat asc) (lat :: lon :: Spec.rest a.dims lat lon)).data.shape idx →
      P ((transposeTo (turned a lat asc) (lat :: lon :: Spec.rest a.dims lat lon)).data.get idx)) ↔ ∀ f, Spec.Point a f → P (Spec.at a f) := by
  have hL := lay_arranged h hf ha
  have hp := (apiNames_ok h.dims hf.memLat hf.memLon hf.ne).2
  constructor
  · intro hall f hpt
    have hm := move_point hf hpt
    have e := hL.2 _ (fun d hd => hm d (hp.mem_iff.mp hd))
    have hin := hall ((lat :: lon :: Spec.rest a.dims lat lon).map fun d => Spec.move lat lats d (f d))
      (by rw [hL.1, inB_map]; exact fun d hd => hm d (hp.mem_iff.mp hd))
    rw [e] at hin
    have e2 : Spec.at a (fun d => Spec.move lat lats d (Spec.move lat lats d (f d))) = Spec.at a f := by
      unfold Spec.at
      congr 1
      exact List.map_congr_left fun d hd => move_move hf hpt hd
    rw [← e2]
    exact hin
  · intro hall idx hin
    have hnd : (lat :: lon :: Spec.rest a.dims lat lon).Nodup := hp.nodup_iff.mpr h.dims
    have hlen : idx.length = (lat :: lon :: Spec.rest a.dims lat lon).length := by rw [hin.length, hL.1, List.length_map]
    have ei := exists_assign hnd hlen
    rw [← ei] at hin ⊢
    rw [hL.1, inB_map] at hin
    rw [hL.2 _ hin]
    exact hall _ (move_point hf fun d hd => hin d (hp.mem_iff.mpr hd))

/-- C241: `VectorWind` accepts two labelled winds exactly if they have the same dimensions in the same order, the same coordinate values and
the same sizes, all values are numbers, exactly one dimension passes for latitude and exactly one, another, for longitude, with at least 3 and 4
points, the grid type is named or recognised, and radius, Legendre option and size suit the transforms. It raises IndexError exactly for a
single latitude (or none) on otherwise identified axes, and never anything but ValueError, IndexError and the errors of
`standard.VectorWind`. Up to 1280 rows. -/
theorem C241_accept_partial (lib : Grid → Leg → ℕ → ℕ → ℚ → Inst) (gauss : ℕ → Option (ℕ → K)) {u v : WArr K Cell} (hu : Spec.Proper u)
    (hv : Spec.Proper v) (rsphere : ℚ) (legfunc : String) (gridtype : Option String)
    (hmax : ∀ lat lon c, Spec.Frame u lat lon c → Spec.size u lat ≤ 1280 ∧ Spec.size u lon ≤ 1073741824) :
    ((∃ w, construct lib gauss u v rsphere legfunc gridtype = .ok w) ↔
      u.dims = v.dims ∧ (∀ d ∈ u.dims, Spec.size v d = Spec.size u d) ∧
      (∀ d ∈ u.dims, ∀ c c', Spec.Carries u d c → Spec.Carries v d c' → c'.vals = c.vals) ∧
      Spec.AllNumbers u ∧ Spec.AllNumbers v ∧ 0 < rsphere ∧ (legfunc = "stored" ∨ legfunc = "computed") ∧
      ∃ lat lon c g, Spec.Frame u lat lon c ∧ 3 ≤ Spec.size u lat ∧ 4 ≤ Spec.size u lon ∧ Spec.GridIs gauss c.vals gridtype g ∧
        ¬ (g = .gaussian ∧ legfunc = "stored" ∧ Spec.size u lon / 2 + 2 < Spec.size u lat)) ∧
    (construct lib gauss u v rsphere legfunc gridtype = .error .indexError ↔
      Spec.Match u v ∧ ∃ lat lon c c', Spec.Only u Spec.LatLike lat c ∧ Spec.Only u Spec.LonLike lon c' ∧ Spec.size u lat < 2) := by
  have split3 : Spec.Match u v → ∀ lat lon c, Spec.Frame u lat lon c → _ := fun hm lat lon c hf =>
    construct_eq lib gauss hu hv hm hf rsphere legfunc gridtype
  constructor
  · constructor
    · rintro ⟨w, h⟩
      obtain ⟨lat, lon, c, hh, g, s, l, hg, hgs, hl, hr, -⟩ := holds hu hv h
      have hacc := split3 hh.match' lat lon c hh.frame
      rw [h, hg] at hacc
      simp only at hacc
      obtain ⟨m1, m2⟩ := hmax lat lon c hh.frame
      have hpu := placed hu hh.frame
      have hLu := lay_arranged hu hpu (asc := asc c) rfl
      have hsh : (transposeTo (turned u lat (asc c)) (order u lat lon)).data.shape = Spec.size u lat :: Spec.size u lon ::
        (Spec.rest u.dims lat lon).map (Spec.size u) := by unfold order; rw [hLu.1]; rfl
      have hC := C159_accept_partial (transposeTo (turned u lat (asc c)) (order u lat lon)).data
        (transposeTo (turned v lat (asc c)) (order u lat lon)).data s rsphere legfunc (by
          rw [hsh]; rintro a b r e; simp only [List.cons.injEq] at e; obtain ⟨rfl, rfl, -⟩ := e; exact ⟨m1, m2⟩)
      have hok : ∃ r, accept (transposeTo (turned u lat (asc c)) (order u lat lon)).data
          (transposeTo (turned v lat (asc c)) (order u lat lon)).data s rsphere legfunc = .ok r := by
        cases hacc' : accept (transposeTo (turned u lat (asc c)) (order u lat lon)).data
          (transposeTo (turned v lat (asc c)) (order u lat lon)).data s rsphere legfunc with
        | error r => rw [hacc'] at hacc; cases hacc
        | ok r => exact ⟨r, rfl⟩
      obtain ⟨f1, f2, f3, f4, f5, f6, nlat, nlon, rest, f7, f8, f9, f10⟩ := hC.1.mp hok
      rw [hsh] at f7
      simp only [List.cons.injEq] at f7
      obtain ⟨rfl, rfl, -⟩ := f7
      have hpv : Placed v lat lon c.vals := ⟨hh.match'.1 ▸ hpu.memLat, hh.match'.1 ▸ hpu.memLon, hpu.ne, by
        rw [hpu.len, hh.sizes lat hpu.memLat]⟩
      have hord : order u lat lon = lat :: lon :: Spec.rest v.dims lat lon := by unfold order; rw [hh.match'.1]
      refine ⟨hh.match'.1, hh.sizes, ?_, ?_, ?_, f4, f6, lat, lon, c, g, hh.frame, f8, f9, (grid_iff gauss hu hh.frame gridtype g).mp ⟨s, hg, hgs⟩, ?_⟩
      · intro d hd c1 c2 q1 q2
        have hs := hh.match'.2 d hd c1 c2 q1 q2
        have l1 : c1.vals.length = Spec.size u d := by rw [(carries_iff hu.names).mp q1, coordOf_length hu]
        have l2 : c2.vals.length = Spec.size v d := by rw [(carries_iff hv.names).mp q2, coordOf_length hv]
        have ll : c1.vals.length = c2.vals.length := by rw [l1, l2, hh.sizes d hd]
        rcases hs with e | ⟨x, e, hx⟩ | ⟨y, e, hy⟩
        · exact e.symm
        · rw [e] at ll ⊢
          match hq : c2.vals, ll with
          | [z], _ => rw [hx z (by rw [hq]; simp)]
        · rw [e] at ll ⊢
          match hq : c1.vals, ll with
          | [z], _ => rw [hy z (by rw [hq]; simp)]
      · exact (arranged_values hu hpu (asc := asc c) rfl fun x => ∃ r, x = .num r).mp f1
      · rw [hord] at f2
        exact (arranged_values hv hpv (asc := asc c) rfl fun x => ∃ r, x = .num r).mp f2
      · rintro ⟨rfl, q2, q3⟩
        refine f10 ⟨?_, q2, q3⟩
        rcases f5 with f5 | f5
        · unfold gridOf at hgs
          rw [if_pos f5] at hgs
          cases hgs
        · exact f5
    · rintro ⟨h1, h2, h3, h4, h5, h6, h7, lat, lon, c, g, hf, h8, h9, h10, h11⟩
      have hm : Spec.Match u v := ⟨h1, fun d hd c c' q1 q2 => Or.inl (h3 d hd c c' q1 q2).symm⟩
      obtain ⟨s, hg, hgs⟩ := (grid_iff gauss hu hf gridtype g).mpr h10
      have hpu := placed hu hf
      have hpv : Placed v lat lon c.vals := ⟨h1 ▸ hpu.memLat, h1 ▸ hpu.memLon, hpu.ne, by rw [hpu.len, h2 lat hpu.memLat]⟩
      have hord : order u lat lon = lat :: lon :: Spec.rest v.dims lat lon := by unfold order; rw [h1]
      have hLu := lay_arranged hu hpu (asc := asc c) rfl
      have hLv := lay_arranged hv hpv (asc := asc c) rfl
      have hsh : (transposeTo (turned u lat (asc c)) (order u lat lon)).data.shape = Spec.size u lat :: Spec.size u lon ::
        (Spec.rest u.dims lat lon).map (Spec.size u) := by unfold order; rw [hLu.1]; rfl
      obtain ⟨m1, m2⟩ := hmax lat lon c hf
      have hC := C159_accept_partial (transposeTo (turned u lat (asc c)) (order u lat lon)).data
        (transposeTo (turned v lat (asc c)) (order u lat lon)).data s rsphere legfunc (by
          rw [hsh]; rintro a b r e; simp only [List.cons.injEq] at e; obtain ⟨rfl, rfl, -⟩ := e; exact ⟨m1, m2⟩)
      have hss : s.toLower = "regular" ∧ g = .regular ∨ s.toLower = "gaussian" ∧ g = .gaussian := by
        unfold gridOf at hgs
        split at hgs
        · next q => injection hgs with hgs; exact Or.inl ⟨q, hgs.symm⟩
        · split at hgs
          · next q => injection hgs with hgs; exact Or.inr ⟨q, hgs.symm⟩
          · cases hgs
      obtain ⟨⟨g', l', x, y⟩, hr⟩ := hC.1.mpr ⟨(arranged_values hu hpu (asc := asc c) rfl fun x => ∃ r, x = .num r).mpr h4,
        by rw [hord]; exact (arranged_values hv hpv (asc := asc c) rfl fun x => ∃ r, x = .num r).mpr h5,
        by
          rw [hsh, hord, hLv.1]
          simp only [List.map_cons]
          rw [h2 lat hpu.memLat, h2 lon hpu.memLon, ← h1]
          congr 2
          exact (List.map_congr_left fun d hd => h2 d (List.mem_filter.mp hd).1).symm,
        h6, by rcases hss with ⟨q, -⟩ | ⟨q, -⟩ <;> simp [q], h7, _, _, _, hsh, h8, h9, by
          rintro ⟨q1, q2, q3⟩
          refine h11 ⟨?_, q2, q3⟩
          rcases hss with ⟨q, -⟩ | ⟨-, q⟩
          · rw [q] at q1; exact absurd q1 (by decide)
          · exact q⟩
      refine ⟨⟨u.dims, (transposeTo (turned u lat (asc c)) (order u lat lon)).data.shape,
        dimCoords (transposeTo (turned u lat (asc c)) (order u lat lon)),
        lib g' l' (Spec.size u lat) (Spec.size u lon) rsphere, x, y⟩, ?_⟩
      rw [split3 hm lat lon c hf, hg]
      simp only [hr]
  · constructor
    · intro h
      by_cases hm : Spec.Match u v
      swap
      · rw [construct_unmatched lib gauss hu hv hm] at h; cases h
      refine ⟨hm, ?_⟩
      by_cases hf : ∃ lat lon c, Spec.Frame u lat lon c
      · obtain ⟨lat, lon, c, hf⟩ := hf
        rw [split3 hm lat lon c hf] at h
        exfalso
        cases hg : gridName gauss (coordOf (turned u lat (asc c)) lat).vals gridtype with
        | error e => rw [hg] at h; simp only at h; rw [gridName_error hg] at h; cases h
        | ok s =>
          rw [hg] at h
          simp only at h
          split at h
          · injection h with h; cases h
          · cases h
      · rcases no_frame hu hf with h1 | ⟨c, h1, h2 | ⟨c', h2, h3 | ⟨⟨b, h3⟩, h4⟩⟩⟩
        · unfold construct at h; simp only [bind, Except.bind, (validate_iff hu hv).mpr hm, h1] at h; cases h
        · unfold construct at h; simp only [bind, Except.bind, (validate_iff hu hv).mpr hm, h1, h2] at h; cases h
        · have o1 := (only_iff hu isLatitude_iff c).mp h1
          refine ⟨c.name, c'.name, c, c', o1, (only_iff hu isLongitude_iff c').mp h2, ?_⟩
          rw [ascending_eq] at h3
          have hl : c.vals.length = Spec.size u c.name := by
            conv_lhs => rw [(carries_iff hu.names).mp o1.2.1]
            exact coordOf_length hu _
          by_contra hge
          rw [if_pos (by omega)] at h3
          cases h3
        · exfalso
          have p5 := find_turned hu h1 b
          have hd := turned_dims u c.name b
          have hmm : c.name ∈ u.dims := ((only_iff hu isLatitude_iff c).mp h1).1
          unfold turned at p5 hd
          unfold construct at h
          simp only [bind, Except.bind, (validate_iff hu hv).mpr hm, h1, h2, h3, p5, coordOf_name, hd, h4, apiNames_same hmm] at h
          cases hg : gridName gauss (coordOf (if b = true then reverse u c.name else u) c.name).vals gridtype with
          | ok g => rw [hg] at h; cases h
          | error e => rw [hg] at h; simp only at h; rw [gridName_error hg] at h; cases h
    · rintro ⟨hm, lat, lon, c, c', o1, o2, hlt⟩
      have en : c.name = lat := by rw [(carries_iff hu.names).mp o1.2.1, coordOf_name]
      have en' : c'.name = lon := by rw [(carries_iff hu.names).mp o2.2.1, coordOf_name]
      have p1 := (only_iff hu isLatitude_iff c).mpr (en ▸ o1)
      have p2 := (only_iff hu isLongitude_iff c').mpr (en' ▸ o2)
      have hl : c.vals.length = Spec.size u lat := by rw [(carries_iff hu.names).mp o1.2.1]; exact coordOf_length hu _
      have p3 : ascending c = .error .indexError := by rw [ascending_eq, if_neg (by omega)]
      unfold construct
      simp only [bind, Except.bind, (validate_iff hu hv).mpr hm, p1, p2, p3]

end Skyborn.WindXr
