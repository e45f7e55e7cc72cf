/-
`geostrophic_wind` on arrays of any rank computes the specification on every horizontal slice.
-/
import Verif.Geo.Kernel
import Verif.Windspharm.ToolsProps

namespace Skyborn.Geo
open Skyborn Windspharm

theorem isCyclic_iff (lon : List ℝ) : isCyclic lon = true ↔ Spec.Cyclic lon := by
  unfold isCyclic Spec.Cyclic
  simp only []
  by_cases h : lon.length < 3
  · rw [if_pos h]; simp; omega
  · rw [if_neg h]
    have hs : ∀ (g : ℕ → ℝ) n, ∑ k ∈ Finset.range n, (g (k + 1) - g k) = g n - g 0 := fun g n => Finset.sum_range_sub g n
    rw [hs (fun k => lon.getD k 0)]
    have hc : ((lon.length - 1 : ℕ) : ℝ) = (lon.length : ℝ) - 1 := by rw [Nat.cast_sub (by omega)]; simp
    rw [hc]
    generalize lon.getD (lon.length - 1) 0 - lon.getD 0 0 = sp
    generalize sp / ((lon.length : ℝ) - 1) = dl
    have hno : ¬ (decide (|sp + dl - 360| < 1) = true ∧ |dl| ≤ 1 ∧ 1 < |dl|) := by rintro ⟨-, h1, h2⟩; linarith
    rw [if_neg hno]
    simp only [Bool.or_eq_true, decide_eq_true_eq]
    constructor
    · intro h'; exact ⟨by omega, h'⟩
    · exact fun h' => h'.2

theorem z2geouv_eq {n m : ℕ} (hn : 2 ≤ n) (hm : 2 ≤ m) (z : ℕ → ℕ → ℝ) (zmsg : ℝ) (glon glat : ℕ → ℝ) (iopt : ℕ) (r0 : Rows)
    (zz0 : ℕ → ℕ → ℝ) (hg : glat 1 < glat 2) :
    z2geouv z n m zmsg glon glat iopt r0 zz0 = z2guv z n m zmsg glon glat iopt r0 zz0 := by
  unfold z2geouv
  rw [if_neg (by omega), rd_ok (a := glat) (i := 2) (by omega) (by omega), rd_ok (a := glat) (i := 1) (by omega) (by omega)]
  simp only [Option.bind_eq_bind, Option.bind_some]
  rw [if_pos hg]

/-- The statement about one horizontal field: `w` holds the specified wind of `z`. -/
def Holds (n m : ℕ) (cyc : Bool) (z : ℕ → ℕ → ℝ) (lat : ℕ → ℝ) (dlon missing : ℝ) (i j : ℕ) (u v : ℝ) : Prop :=
  u = (Spec.zonal n z lat missing i j).getD missing ∧
  v = reportV m cyc j missing (Spec.meridional m cyc z lat dlon missing i j)

theorem z2geouv3d_eq {n m n3 : ℕ} (hn : 2 ≤ n) (hm : 2 ≤ m) (z : ℕ → ℕ → ℕ → ℝ) (zmsg : ℝ) (glon glat : ℕ → ℝ) (cyc : Bool) (r0 : Rows)
    (zz0 : ℕ → ℕ → ℝ) (out0 : ℕ → Wind) (hg : glat 1 < glat 2) :
    ∃ out, z2geouv3d z n m n3 zmsg glon glat (if cyc then 1 else 0) r0 zz0 out0 = some out ∧ ∀ k i j, k < n3 → i < n → j < m →
      Holds n m cyc (fun a b => z (a + 1) (b + 1) (k + 1)) (fun a => glat (a + 1)) (glon 2 - glon 1) zmsg i j
        ((out (k + 1)).u (i + 1) (j + 1)) ((out (k + 1)).v (i + 1) (j + 1)) := by
  obtain ⟨out, e, h⟩ := doLoopM_inv (lo := 1) (hi := n3) (by omega) (s := out0)
    (f := fun k out => do
      let w ← z2geouv (fun i j => z i j k) n m zmsg glon glat (if cyc then 1 else 0) r0 zz0
      wr n3 out k w)
    (fun q out => ∀ k i j, k + 1 < q → i < n → j < m →
      Holds n m cyc (fun a b => z (a + 1) (b + 1) (k + 1)) (fun a => glat (a + 1)) (glon 2 - glon 1) zmsg i j
        ((out (k + 1)).u (i + 1) (j + 1)) ((out (k + 1)).v (i + 1) (j + 1)))
    (by intro k i j h; omega)
    (by
      intro q out g1 g2 p
      rw [z2geouv_eq hn hm _ _ _ _ _ _ _ hg]
      obtain ⟨w, e, hw⟩ := z2guv_eq hn hm (fun i j => z i j q) zmsg glon glat (if cyc then 1 else 0) r0 zz0
      rw [e]
      simp only [Option.bind_eq_bind, Option.bind_some]
      rw [wr_ok g1 g2]
      refine ⟨_, rfl, fun k i j hk hi hj => ?_⟩
      by_cases hkq : k + 1 = q
      · subst hkq
        rw [Function.update_self]
        have := hw i j hi hj
        have hd : decide ((if cyc then 1 else 0) = 1) = cyc := by cases cyc <;> rfl
        rw [hd] at this
        exact this
      · rw [Function.update_of_ne hkq]
        exact p k i j (by omega) hi hj)
  exact ⟨out, e, fun k i j hk hi hj => h k i j (by omega) hi hj⟩

theorem north_lt {n i : ℕ} (h : i < n) : Spec.north n i < n := by unfold Spec.north; omega
theorem south_lt {n i : ℕ} (h : i < n) : Spec.south i < n := by unfold Spec.south; omega
theorem east_lt {m j : ℕ} (cyc : Bool) (h : j < m) : Spec.east m cyc j < m := by
  unfold Spec.east; split
  · exact Nat.mod_lt _ (by omega)
  · omega
theorem west_lt {m j : ℕ} (cyc : Bool) (h : j < m) : Spec.west m cyc j < m := by
  unfold Spec.west; split
  · exact Nat.mod_lt _ (by omega)
  · omega

theorem zonal_congr {n m : ℕ} {z z' : ℕ → ℕ → ℝ} {lat lat' : ℕ → ℝ} {missing : ℝ} {i j : ℕ} (hi : i < n) (hj : j < m)
    (hz : ∀ a b, a < n → b < m → z a b = z' a b) (hl : ∀ a, a < n → lat a = lat' a) :
    Spec.zonal n z lat missing i j = Spec.zonal n z' lat' missing i j := by
  unfold Spec.zonal
  rw [hl i hi, hz _ j (north_lt hi) hj, hz _ j (south_lt hi) hj, hl _ (north_lt hi), hl _ (south_lt hi)]

theorem meridional_congr {n m : ℕ} {cyc : Bool} {z z' : ℕ → ℕ → ℝ} {lat lat' : ℕ → ℝ} {dlon missing : ℝ} {i j : ℕ} (hi : i < n) (hj : j < m)
    (hz : ∀ a b, a < n → b < m → z a b = z' a b) (hl : ∀ a, a < n → lat a = lat' a) :
    Spec.meridional m cyc z lat dlon missing i j = Spec.meridional m cyc z' lat' dlon missing i j := by
  unfold Spec.meridional
  rw [hl i hi, hz i _ hi (east_lt cyc hj), hz i _ hi (west_lt cyc hj)]

theorem Holds.congr {n m : ℕ} {cyc : Bool} {z z' : ℕ → ℕ → ℝ} {lat lat' : ℕ → ℝ} {dlon missing : ℝ} {i j : ℕ} {u v : ℝ} (hi : i < n)
    (hj : j < m) (hz : ∀ a b, a < n → b < m → z a b = z' a b) (hl : ∀ a, a < n → lat a = lat' a)
    (h : Holds n m cyc z lat dlon missing i j u v) : Holds n m cyc z' lat' dlon missing i j u v := by
  unfold Holds at h ⊢
  rw [← zonal_congr hi hj hz hl, ← meridional_congr hi hj hz hl]
  exact h

theorem getD_set (l : List ℕ) (k a d : ℕ) : (l.set k a).getD d 0 = if d = k ∧ k < l.length then a else l.getD d 0 := by
  simp only [List.getD, List.getElem?_set]
  by_cases h : k = d
  · subst h
    by_cases hk : k < l.length
    · simp [hk]
    · simp [hk]
  · rw [if_neg h, if_neg (by tauto)]

/-- Which axes are latitude and longitude: named by the dimension string; a 2-D array must be (latitude, longitude). -/
structure Named (order : List Char) (ndim y x : ℕ) : Prop where
  good : GoodOrder order ndim
  hy : y = order.idxOf 'y'
  hx : x = order.idxOf 'x'
  flat : ndim = 2 → y = 0

theorem Named.ylt {order : List Char} {ndim y x : ℕ} (h : Named order ndim y x) : y < ndim := by
  rw [h.hy]; exact lt_of_lt_of_le h.good.py h.good.len
theorem Named.xlt {order : List Char} {ndim y x : ℕ} (h : Named order ndim y x) : x < ndim := by
  rw [h.hx]; exact lt_of_lt_of_le h.good.px h.good.len
theorem Named.xy {order : List Char} {ndim y x : ℕ} (h : Named order ndim y x) : x ≠ y := by
  rw [h.hx, h.hy]; exact h.good.ne

theorem place_set {shape idx : List ℕ} {x y a b : ℕ} (hxy : x ≠ y) (hy : y < idx.length) (hx : x < idx.length) :
    place shape x y ((idx.set y a).set x b) = [a, b, (place shape x y idx).getD 2 0] := by
  unfold place
  rw [getD_set, getD_set, getD_set]
  rw [if_neg (by tauto), if_pos ⟨rfl, hy⟩, if_pos ⟨rfl, by simpa using hx⟩]
  simp only [List.getD_cons_succ, List.getD_cons_zero]
  congr 4
  apply List.map_congr_left
  intro d hd
  have := (List.mem_filter.mp hd).2
  simp only [decide_eq_true_eq] at this
  rw [getD_set, getD_set, if_neg (by tauto), if_neg (by tauto)]

theorem inB_set {shape idx : List ℕ} (h : InB shape idx) {x y a b : ℕ} (ha : a < shape.getD y 0) (hb : b < shape.getD x 0) :
    InB shape ((idx.set y a).set x b) := by
  have hb' := inB_iff.mp h
  refine inB_iff.mpr ⟨by simpa using hb'.1, fun d hd => ?_⟩
  rw [getD_set, getD_set]
  split
  · rename_i h'; rw [h'.1]; exact hb
  · split
    · rename_i h'; rw [h'.1]; exact ha
    · exact hb'.2 d hd

theorem fvec_getD (l : List ℝ) (a : ℕ) : fvec l (a + 1) = l.getD a 0 := by simp [fvec]

/-- The main fact: winds on every horizontal slice, for latitudes given south to north. -/
theorem wind_asc (f32 : ℝ → ℝ) (z : NDArr ℝ) (lon lat : List ℝ) (order : List Char) (missing : ℝ) (r0 : Rows) (zz0 : ℕ → ℕ → ℝ)
    (out0 : ℕ → Wind) {y x : ℕ} (hN : Named order z.shape.length y x) (hlat : lat.length = z.shape.getD y 0)
    (hlon : lon.length = z.shape.getD x 0) (hn : 2 ≤ lat.length) (hm : 2 ≤ lon.length) (hinc : lat.Pairwise (· < ·)) :
    ∃ u v, geostrophicWind f32 z lon lat order missing r0 zz0 out0 = .ok (u, v) ∧ u.shape = z.shape ∧ v.shape = z.shape ∧
      ∀ idx, InB z.shape idx → Holds lat.length lon.length (decide (Spec.Cyclic lon)) (Spec.slice (fun k => f32 (z.get k)) y x idx)
        (fun a => lat.getD a 0) (lon.getD 1 0 - lon.getD 0 0) missing (idx.getD y 0) (idx.getD x 0) (u.get idx) (v.get idx) := by
  have hsn : ensureSN z lat order = .ok (z, lat) := by
    unfold ensureSN
    match lat, hn with
    | g0 :: rest, hn =>
      simp only []
      rw [if_neg]
      have hne : rest ≠ [] := by rintro rfl; simp at hn
      rw [List.getLast_cons hne]
      have := (List.pairwise_cons.mp hinc).1 _ (List.getLast_mem hne)
      simpa using this.le
  have hio : (if isCyclic lon then 1 else 0) = (if decide (Spec.Cyclic lon) = true then 1 else 0) := by
    rw [show isCyclic lon = decide (Spec.Cyclic lon) by
      by_cases h : Spec.Cyclic lon
      · rw [(isCyclic_iff lon).mpr h]; simp [h]
      · have : isCyclic lon = false := by
          rw [← Bool.not_eq_true]; exact fun hc => h ((isCyclic_iff lon).mp hc)
        rw [this]; simp [h]]
  have hg : fvec lat 1 < fvec lat 2 := by
    rw [show (2 : ℕ) = 1 + 1 from rfl, fvec_getD, show (1 : ℕ) = 0 + 1 from rfl, fvec_getD]
    rw [List.getD_eq_getElem _ _ (by omega), List.getD_eq_getElem _ _ (by omega)]
    exact List.pairwise_iff_getElem.mp hinc 0 1 (by omega) (by omega) (by omega)
  have hdl : fvec lon 2 - fvec lon 1 = lon.getD 1 0 - lon.getD 0 0 := by
    rw [show (2 : ℕ) = 1 + 1 from rfl, fvec_getD, show (1 : ℕ) = 0 + 1 from rfl, fvec_getD]
  unfold geostrophicWind
  simp only [hsn, hio, Except.bind, bind]
  by_cases h2 : z.shape.length > 2
  · rw [if_pos h2]
    obtain ⟨p, info, ep, hrec⟩ := C21_recover z hN.good
    obtain ⟨p', info', ep', hps, hpv⟩ := C22_prep_layout z hN.good
    rw [ep] at ep'
    simp only [Option.some.injEq, Prod.mk.injEq] at ep'
    obtain ⟨rfl, rfl⟩ := ep'
    rw [← hN.hx, ← hN.hy] at hps hpv
    unfold multidim
    rw [ep]
    simp only [orRaise, bind, Except.bind]
    rw [hps]
    dsimp only
    rw [if_neg (not_not.mpr hlat), if_neg (not_not.mpr hlon)]
    generalize hn3 : ((otherDims z.shape.length x y).map fun d => z.shape.getD d 0).prod = n3 at *
    rw [← hlat, ← hlon] at hps ⊢
    obtain ⟨out, eo, ho⟩ := z2geouv3d_eq (n3 := n3) hn hm (fun i j k => f32 (p.get [i - 1, j - 1, k - 1])) missing (fvec lon) (fvec lat)
      (decide (Spec.Cyclic lon)) r0 zz0 out0 hg
    rw [eo]
    simp only [orCrash]
    obtain ⟨u, eu, us, hu⟩ := hrec (⟨[lat.length, lon.length, n3], fun idx => (out (idx.getD 2 0 + 1)).u (idx.getD 0 0 + 1) (idx.getD 1 0 + 1)⟩ : NDArr ℝ) hps.symm
    obtain ⟨v, ev, vs, hv⟩ := hrec (⟨[lat.length, lon.length, n3], fun idx => (out (idx.getD 2 0 + 1)).v (idx.getD 0 0 + 1) (idx.getD 1 0 + 1)⟩ : NDArr ℝ) hps.symm
    rw [eu, ev]
    refine ⟨u, v, rfl, us, vs, fun idx hidx => ?_⟩
    rw [hu idx hidx, hv idx hidx, ← hN.hx, ← hN.hy]
    have hb := inB_iff.mp hidx
    have hpl := (hpv idx hidx).1
    rw [hps] at hpl
    have h0 : (place z.shape x y idx).getD 0 0 = idx.getD y 0 := rfl
    have h1 : (place z.shape x y idx).getD 1 0 = idx.getD x 0 := rfl
    have hk : (place z.shape x y idx).getD 2 0 < n3 := (inB_iff.mp hpl).2 2 (by simp)
    have hi : idx.getD y 0 < lat.length := by rw [hlat]; exact hb.2 y hN.ylt
    have hj : idx.getD x 0 < lon.length := by rw [hlon]; exact hb.2 x hN.xlt
    have := ho _ _ _ hk hi hj
    rw [hdl] at this
    dsimp only
    rw [h0, h1]
    refine Holds.congr hi hj ?_ ?_ this
    · intro a b ha hb'
      simp only [Nat.add_sub_cancel]
      unfold Spec.slice
      rw [← place_set hN.xy (by rw [hb.1]; exact hN.ylt) (by rw [hb.1]; exact hN.xlt)]
      rw [(hpv _ (inB_set hidx (by omega) (by omega))).2]
    · intro a _; rw [fvec_getD]
  · rw [if_neg h2]
    have hlen : z.shape.length = 2 := by have := hN.ylt; have := hN.xlt; have := hN.xy; omega
    have hy0 : y = 0 := hN.flat hlen
    have hx1 : x = 1 := by have := hN.xlt; have := hN.xy; omega
    obtain ⟨n, m, hs⟩ : ∃ n m, z.shape = [n, m] := by
      match z.shape, hlen with
      | [n, m], _ => exact ⟨n, m, rfl⟩
    subst hy0 hx1
    rw [hs] at hlat hlon
    simp only [List.getD_cons_zero, List.getD_cons_succ] at hlat hlon
    unfold calc2d
    rw [hs]
    dsimp only
    rw [if_neg (not_not.mpr hlon.symm), if_neg (not_not.mpr hlat.symm), ← hlat, ← hlon, z2geouv_eq hn hm _ _ _ _ _ _ _ hg]
    obtain ⟨w, e, hw⟩ := z2guv_eq hn hm (fun i j => f32 (z.get [i - 1, j - 1])) missing (fvec lon) (fvec lat)
      (if decide (Spec.Cyclic lon) = true then 1 else 0) r0 zz0
    rw [e]
    refine ⟨_, _, rfl, rfl, rfl, fun idx hidx => ?_⟩
    have hb := inB_iff.mp hidx
    have hi : idx.getD 0 0 < lat.length := by have := hb.2 0 (by simp); simpa using this
    have hj : idx.getD 1 0 < lon.length := by have := hb.2 1 (by simp); simpa using this
    have := hw _ _ hi hj
    have hd : decide ((if decide (Spec.Cyclic lon) = true then 1 else 0) = 1) = decide (Spec.Cyclic lon) := by
      by_cases hc : Spec.Cyclic lon <;> simp [hc]
    rw [hd, hdl] at this
    dsimp only
    refine Holds.congr hi hj ?_ ?_ (z := fun a b => f32 (z.get [a + 1 - 1, b + 1 - 1])) (lat := fun a => fvec lat (a + 1)) this
    · intro a b ha hb'
      simp only [Nat.add_sub_cancel]
      unfold Spec.slice
      have : (idx.set 0 a).set 1 b = [a, b] := by
        match idx, hb.1 with
        | [i, j], _ => rfl
      rw [this]
    · intro a _; rw [fvec_getD]

end Skyborn.Geo
