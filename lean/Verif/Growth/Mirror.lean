/-
`baroc_growth_rate` on any arrays: the hemispheres, the ends of a latitude band, the units of pressure.
-/
import Verif.Growth.BarocSym

namespace Skyborn.Growth

open Classical

/-! ### C184: hemispheres -/

/-- All latitudes on the other side of the equator. -/
def Spec.negate (a : NDArr (Option ℝ)) : NDArr (Option ℝ) := ⟨a.shape, fun idx => (a.get idx).map fun x => -x⟩

/-- The place on the other side of the equator. -/
def Place.mirror (q : Place) : Place := ⟨-q.f, q.beta, q.cos⟩

theorem place_lat_neg (x : ℝ) : Place.lat (-x) = (Place.lat x).mirror := by
  unfold Place.lat Place.mirror fBetaLat
  dsimp only
  rw [neg_mul, Real.sin_neg, Real.cos_neg, mul_neg]

theorem place_band_neg (a b : ℝ) : Place.band (-a) (-b) = (Place.band a b).mirror := by
  unfold Place.band Place.mirror fBetaBounds
  dsimp only
  rw [neg_mul, neg_mul, Real.sin_neg, Real.cos_neg, Real.sin_neg, Real.cos_neg]
  congr 1
  ring

theorem profileVector_neg (a : NDArr (Option ℝ)) (n : ℕ) :
    profileVector (Spec.negate a) n = (profileVector a n).map fun v i => (v i).map fun x => -x := by
  unfold profileVector Spec.negate
  dsimp only
  rcases a.shape with _ | ⟨m, _ | ⟨k, l⟩⟩
  · rfl
  · dsimp only
    split
    · rfl
    · split <;> rfl
  · rfl

theorem placeOf_neg (b : Option (ℝ × ℝ)) (lat : Option (NDArr (Option ℝ))) :
    placeOf (b.map fun q => (-q.1, -q.2)) (lat.map Spec.negate) = (placeOf b lat).map fun q => q.map Place.mirror := by
  unfold placeOf
  cases b with
  | some b => simp only [Option.map_some, place_band_neg, Except.map]
  | none =>
    cases lat with
    | none => rfl
    | some a =>
      simp only [Option.map_none, Option.map_some]
      rw [profileVector_neg]
      cases profileVector a 1 with
      | error e => rfl
      | ok v =>
        simp only [Except.map, Option.map_map]
        congr 2
        funext x
        exact place_lat_neg x

theorem placesOf_neg (n : ℕ) (b : Option (ℝ × ℝ)) (lat : Option (NDArr (Option ℝ))) :
    placesOf n (b.map fun q => (-q.1, -q.2)) (lat.map Spec.negate) = (placesOf n b lat).map fun q i => (q i).map Place.mirror := by
  unfold placesOf
  cases b with
  | some b => simp only [Option.map_some, place_band_neg, Except.map]
  | none =>
    cases lat with
    | none => rfl
    | some a =>
      simp only [Option.map_none, Option.map_some]
      rw [profileVector_neg]
      cases profileVector a n with
      | error e => rfl
      | ok v =>
        simp only [Except.map, Option.map_map]
        congr 1
        funext i
        congr 1
        funext x
        exact place_lat_neg x

theorem zonal_mirror (S : Setting) (q : Place) : zonalLength S q.mirror = zonalLength S q := rfl

theorem dbaroc_neg (qz : Solver) (n : ℕ) (u theta p t : ℕ → ℝ) (f beta : ℝ) (window mode count : ℕ) (len : ℝ) :
    dbaroc qz n u theta p t (-f) beta window mode count len = dbaroc qz n u theta p t f beta window mode count len := by
  have : ∀ w z, barocSpectrum qz n u w z (-f) beta (waveFactor mode len) = barocSpectrum qz n u w z f beta (waveFactor mode len) := by
    intro w z
    funext k
    simp only [barocSpectrum, neg_mul_neg]
  unfold dbaroc
  simp only [this]

theorem solveOne_mirror (qz : Solver) (S : Setting) (u t : ℕ → Option ℝ) (tp : Option ℝ) (q : Except Err (Option Place)) :
    solveOne qz S u t tp (q.map fun q => q.map Place.mirror) = solveOne qz S u t tp q := by
  rcases q with e | _ | q
  · rfl
  · rfl
  · unfold solveOne
    simp only [Except.map, Option.map_some, zonal_mirror]
    have : ∀ u theta p t, dbaroc qz S.levels u theta p t q.mirror.f q.mirror.beta S.window S.mode S.count (zonalLength S q) =
        dbaroc qz S.levels u theta p t q.f q.beta S.window S.mode S.count (zonalLength S q) := fun u theta p t => dbaroc_neg qz _ u theta p t _ _ _ _ _ _
    simp only [this]

theorem runRow_mirror (qz : Solver) (S : Setting) (u t : ℕ → Option ℝ) (tp : Option ℝ) (q : Option Place) :
    runRow qz S u t tp (q.map Place.mirror) = runRow qz S u t tp q := by
  unfold runRow
  cases tp with
  | none => rfl
  | some a =>
    cases q with
    | none => rfl
    | some q =>
      have : ∀ u theta p t, dbaroc qz S.levels u theta p t q.mirror.f q.mirror.beta S.window S.mode S.count (zonalLength S q) =
          dbaroc qz S.levels u theta p t q.f q.beta S.window S.mode S.count (zonalLength S q) := fun u theta p t => dbaroc_neg qz _ u theta p t _ _ _ _ _ _
      simp only [Option.map_some, zonal_mirror, profileGrowth, this]

theorem solveRows_mirror (qz : Solver) (S : Setting) (n : ℕ) (u t : ℕ → ℕ → Option ℝ) (place : ℕ → Option Place) (tp : ℕ → Option ℝ) (rows : List ℕ) :
    solveRows qz S n u t (fun i => (place i).map Place.mirror) tp rows = solveRows qz S n u t place tp rows := by
  unfold solveRows
  have hz : (∃ i ∈ rows, ∃ q, (place i).map Place.mirror = some q ∧ zonalLength S q ≤ 0) ↔ ∃ i ∈ rows, ∃ q, place i = some q ∧ zonalLength S q ≤ 0 := by
    refine exists_congr fun i => and_congr_right fun _ => ?_
    constructor
    · rintro ⟨q, hq, h⟩
      obtain ⟨q', h1, rfl⟩ := Option.map_eq_some_iff.mp hq
      exact ⟨q', h1, h⟩
    · rintro ⟨q, hq, h⟩
      exact ⟨q.mirror, by rw [hq]; rfl, h⟩
  simp only [runRow_mirror, hz]

theorem batchRun_mirror (qz : Solver) (S : Setting) (n : ℕ) (u t : ℕ → ℕ → Option ℝ) (place : ℕ → Option Place) (explicit : Option (ℕ → Option ℝ))
    (s : Trop.Scratch) (o : ℕ → ℕ → ℕ → Trop.Cell) :
    batchRun qz S n u t (fun i => (place i).map Place.mirror) explicit s o = batchRun qz S n u t place explicit s o := by
  have hv : validRow S u t (fun i => (place i).map Place.mirror) explicit = validRow S u t place explicit := by
    funext i
    unfold validRow
    rw [ne_eq, Option.map_eq_none_iff]
  unfold batchRun
  simp only [hv, solveRows_mirror]

theorem manyProfiles_mirror (qz : Solver) (S : Setting) (um tm : ℕ × (ℕ → ℕ → Option ℝ)) (lat : Option (NDArr (Option ℝ))) (b : Option (ℝ × ℝ))
    (trop : Option (NDArr (Option ℝ))) (s : Trop.Scratch) (o : ℕ → ℕ → ℕ → Trop.Cell) :
    manyProfiles qz S um tm (lat.map Spec.negate) (b.map fun q => (-q.1, -q.2)) trop s o = manyProfiles qz S um tm lat b trop s o := by
  unfold manyProfiles
  simp only [Except.bind, bind]
  cases broadcast um (max um.1 tm.1) with
  | error e => rfl
  | ok u =>
    cases broadcast tm (max um.1 tm.1) with
    | error e => rfl
    | ok t =>
      simp only [placesOf_neg]
      cases placesOf (max um.1 tm.1) b lat with
      | error e => rfl
      | ok q =>
        simp only [Except.map, batchRun_mirror]

theorem oneProfile_mirror (qz : Solver) (S : Setting) (u t : ℕ → Option ℝ) (lat : Option (NDArr (Option ℝ))) (b : Option (ℝ × ℝ))
    (trop : Option (NDArr (Option ℝ))) (w : Trop.Work) :
    oneProfile qz S u t (lat.map Spec.negate) (b.map fun q => (-q.1, -q.2)) trop w = oneProfile qz S u t lat b trop w := by
  unfold oneProfile
  simp only [placeOf_neg, solveOne_mirror]

theorem dispatch_mirror (qz : Solver) (S : Setting) (u t : NDArr (Option ℝ)) (lat : Option (NDArr (Option ℝ))) (b : Option (ℝ × ℝ))
    (trop : Option (NDArr (Option ℝ))) (w : Trop.Work) (s : Trop.Scratch) (o : ℕ → ℕ → ℕ → Trop.Cell) :
    dispatch qz S u t (lat.map Spec.negate) (b.map fun q => (-q.1, -q.2)) trop w s o = dispatch qz S u t lat b trop w s o := by
  unfold dispatch
  simp only [Option.isNone_map, Option.isSome_map, oneProfile_mirror, manyProfiles_mirror]

theorem neg_between (a b x : ℝ) : (min (-a) (-b) ≤ -x ∧ -x ≤ max (-a) (-b)) ↔ min a b ≤ x ∧ x ≤ max a b := by
  rw [min_neg_neg, max_neg_neg, neg_le_neg_iff, neg_le_neg_iff]
  exact and_comm

theorem weightedMean_neg (sel : List ℕ) (lat : ℕ → ℝ) (x : ℕ → Option ℝ) : weightedMean sel (fun j => -lat j) x = weightedMean sel lat x := by
  unfold weightedMean
  simp only [neg_mul, Real.cos_neg]

theorem bandField_neg (a : NDArr (Option ℝ)) (np nlat : ℕ) (lat : ℕ → ℝ) (sel : List ℕ) :
    bandField a np nlat (fun j => -lat j) sel = bandField a np nlat lat sel := by
  unfold bandField
  simp only [weightedMean_neg]

theorem reduceBand_neg (u t : NDArr (Option ℝ)) (lat : Option (NDArr (Option ℝ))) (a b : ℝ) (np : ℕ) :
    reduceBand u t (lat.map Spec.negate) (-a) (-b) np = (reduceBand u t lat a b np).map fun r => (r.1, r.2.1, r.2.2.map Spec.negate) := by
  unfold reduceBand
  split
  · rfl
  · cases lat with
    | none => rfl
    | some l =>
      simp only [Option.map_some]
      have hsh : (Spec.negate l).shape = l.shape := rfl
      rw [hsh]
      rcases l.shape with _ | ⟨m, _ | ⟨k, ls⟩⟩
      · rfl
      · dsimp only
        have hsel : bandRows (-a) (-b) m (Spec.negate l) = bandRows a b m l := by
          unfold bandRows
          refine List.filter_congr fun j _ => ?_
          show insideBand (-a) (-b) ((l.get [j]).map fun x => -x) = _
          cases l.get [j] with
          | none => rfl
          | some x => exact decide_eq_decide.mpr (neg_between a b x)
        have hlat : (fun j => ((Spec.negate l).get [j]).getD 0) = fun j => -((l.get [j]).getD 0) := by
          funext j
          show ((l.get [j]).map fun x => -x).getD 0 = _
          cases l.get [j] with
          | none => simp
          | some x => rfl
        rw [hlat]
        simp only [hsel, bandField_neg]
        split
        · rfl
        · simp only [Except.bind, bind]
          cases bandField u np m (fun j => (l.get [j]).getD 0) (bandRows a b m l) with
          | error e => rfl
          | ok u' =>
            dsimp only
            cases bandField t np m (fun j => (l.get [j]).getD 0) (bandRows a b m l) with
            | error e => rfl
            | ok t' => rfl
      · rfl

theorem boundsOf_neg (bounds : Option (List ℝ)) :
    boundsOf (bounds.map fun l => l.map fun x => -x) = (boundsOf bounds).map fun b => b.map fun q => (-q.1, -q.2) := by
  unfold boundsOf
  rcases bounds with _ | _ | ⟨x, _ | ⟨y, _ | ⟨z, l⟩⟩⟩ <;> rfl

/-- C184: moving the latitude, the latitude band or the latitude coordinate to the other hemisphere changes nothing: for any arrays, settings, and outcome. -/
theorem C184_mirror (qz : Solver) (u t pressure : NDArr (Option ℝ)) (lat : Option (NDArr (Option ℝ))) (bounds : Option (List ℝ))
    (lon : Option (NDArr (Option ℝ))) (mode method : String) (trop : Option (NDArr (Option ℝ))) (levels window : Option ℤ)
    (w : Trop.Work) (s : Trop.Scratch) (o : ℕ → ℕ → ℕ → Trop.Cell) :
    barocGrowth qz u t pressure (lat.map Spec.negate) (bounds.map fun l => l.map fun x => -x) lon mode method trop levels window w s o =
      barocGrowth qz u t pressure lat bounds lon mode method trop levels window w s o := by
  unfold barocGrowth
  rw [boundsOf_neg]
  cases boundsOf bounds with
  | error e => rfl
  | ok b =>
    simp only [Except.map, Except.bind, bind]
    cases settings pressure lon mode method levels window with
    | error e => rfl
    | ok S =>
      dsimp only
      cases b with
      | none => exact dispatch_mirror qz S u t lat none trop w s o
      | some b =>
        simp only [Option.map_some]
        rw [reduceBand_neg]
        cases reduceBand u t lat b.1 b.2 S.np with
        | error e => rfl
        | ok r => exact dispatch_mirror qz S r.1 r.2.1 r.2.2 (some b) trop w s o

/-- C184: the two ends of a latitude band may be given in either order. -/
theorem C184_swap (qz : Solver) (u t pressure : NDArr (Option ℝ)) (lat : Option (NDArr (Option ℝ))) (a b : ℝ)
    (lon : Option (NDArr (Option ℝ))) (mode method : String) (trop : Option (NDArr (Option ℝ))) (levels window : Option ℤ)
    (w : Trop.Work) (s : Trop.Scratch) (o : ℕ → ℕ → ℕ → Trop.Cell) :
    barocGrowth qz u t pressure lat (some [b, a]) lon mode method trop levels window w s o =
      barocGrowth qz u t pressure lat (some [a, b]) lon mode method trop levels window w s o := by
  have hp : Place.band b a = Place.band a b := by
    unfold Place.band fBetaBounds
    rw [add_comm (Real.sin (b * _)), add_comm (Real.cos (b * _))]
  have hone : ∀ S u t lat, oneProfile qz S u t lat (some (b, a)) trop w = oneProfile qz S u t lat (some (a, b)) trop w := by
    intro S u t lat
    have : placeOf (some (b, a)) lat = placeOf (some (a, b)) lat := by simp only [placeOf, hp]
    unfold oneProfile
    rw [this]
  have hmany : ∀ S um tm lat, manyProfiles qz S um tm lat (some (b, a)) trop s o = manyProfiles qz S um tm lat (some (a, b)) trop s o := by
    intro S um tm lat
    have : ∀ n, placesOf n (some (b, a)) lat = placesOf n (some (a, b)) lat := fun n => by simp only [placesOf, hp]
    unfold manyProfiles
    simp only [this]
  have hd : ∀ S u t lat, dispatch qz S u t lat (some (b, a)) trop w s o = dispatch qz S u t lat (some (a, b)) trop w s o := by
    intro S u t lat
    unfold dispatch
    simp only [hone, hmany, Option.isNone_some, Option.isSome_some]
  have hr : ∀ np, reduceBand u t lat b a np = reduceBand u t lat a b np := fun np => by
    unfold reduceBand bandRows
    have : insideBand b a = insideBand a b := by
      funext x
      cases x with
      | none => rfl
      | some x => simp only [insideBand, min_comm b a, max_comm b a]
    rw [this]
  unfold barocGrowth boundsOf
  simp only [Except.bind, bind, hd, hr]

end Skyborn.Growth
