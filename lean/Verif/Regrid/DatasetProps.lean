/-
Lemmas about the dataset model of Verif/Regrid/Dataset.lean.
-/
import Verif.Regrid.Dataset
import Mathlib.Analysis.Real.Pi.Bounds
import Mathlib.Tactic.Linarith
import Mathlib.Tactic.Positivity

namespace Skyborn.Regrid

open Skyborn

theorem detect_iff {dims : List String} {lon lat : String} : detect dims = .ok (lon, lat) ↔ Spec.Names dims lon lat := by
  unfold detect Spec.Names
  by_cases a : "longitude" ∈ dims <;> by_cases b : "lon" ∈ dims <;> by_cases c : "long" ∈ dims <;> by_cases d : "x" ∈ dims <;>
    by_cases e : "latitude" ∈ dims <;> by_cases f : "lat" ∈ dims <;> by_cases g : "y" ∈ dims <;>
    simp [a, b, c, d, e, f, g, List.find?, eq_comm]

theorem names_unique {dims : List String} {lon lat lon' lat' : String} (h : Spec.Names dims lon lat) (h' : Spec.Names dims lon' lat') :
    lon' = lon ∧ lat' = lat := by
  rw [← detect_iff] at h h'
  rw [h] at h'
  injection h' with h'
  injection h' with a b
  exact ⟨a.symm, b.symm⟩

theorem names_facts {dims : List String} {lon lat : String} (h : Spec.Names dims lon lat) : lon ∈ dims ∧ lat ∈ dims ∧ lon ≠ lat := by
  obtain ⟨h1, h2⟩ := h
  rcases h1 with ⟨a, rfl⟩ | ⟨-, a, rfl⟩ | ⟨-, -, a, rfl⟩ | ⟨-, -, -, a, rfl⟩ <;>
    rcases h2 with ⟨b, rfl⟩ | ⟨-, b, rfl⟩ | ⟨-, -, b, rfl⟩ <;> exact ⟨a, b, by decide⟩

theorem asc_iff {n : ℕ} {x : ℕ → ℝ} : (∀ i, i + 1 < n → x (i + 1) - x i > 0) ↔ Spec.StrictInc n x := by
  constructor
  · intro h i j hij hj
    induction j with
    | zero => omega
    | succ j ih =>
      have := h j hj
      rcases Nat.lt_succ_iff_lt_or_eq.mp hij with g | rfl
      · have := ih g (by omega); linarith
      · linarith
  · intro h i hi
    have := h i (i + 1) (by omega) hi
    linarith

theorem desc_iff {n : ℕ} {x : ℕ → ℝ} : (∀ i, i + 1 < n → x (i + 1) - x i < 0) ↔ Spec.StrictDec n x := by
  constructor
  · intro h i j hij hj
    induction j with
    | zero => omega
    | succ j ih =>
      have := h j hj
      rcases Nat.lt_succ_iff_lt_or_eq.mp hij with g | rfl
      · have := ih g (by omega); linarith
      · linarith
  · intro h i hi
    have := h i (i + 1) (by omega) hi
    linarith

theorem allclose_refl (n : ℕ) (a : ℕ → ℝ) : allclose n a a := by
  intro i _
  rw [sub_self, abs_zero]
  positivity

theorem gridAllclose_refl (g : Grid ℝ) : gridAllclose g g := ⟨rfl, rfl, allclose_refl _ _, allclose_refl _ _⟩

theorem activeKernel_self (K : Kernel) (g tgt : Grid ℝ) : activeKernel K g tgt g = .ok (K g tgt) := by
  unfold activeKernel; rw [if_pos (gridAllclose_refl g)]

theorem flipVar_flipVar (n : ℕ) (lat : String) (v : Var) : flipVar n lat (flipVar n lat v) = v := by
  unfold flipVar
  by_cases h : lat ∈ v.dims
  · rw [if_pos h]
    simp only [h, if_true]
    obtain ⟨a, b, c, d⟩ := v
    simp only [Var.mk.injEq, true_and]
    funext ix
    congr 1
    funext e
    by_cases he : e = lat
    · subst he
      by_cases hn : ix e < n
      · have : n - 1 - ix e < n := by omega
        simp only [Function.update_self, hn, if_true, this]; omega
      · simp [hn]
    · simp [he]
  · rw [if_neg h, if_neg h]

theorem flipDS_flipDS (ds : DS) (lat : String) : flipDS (flipDS ds lat) lat = ds := by
  obtain ⟨a, b, c, d, e⟩ := ds
  unfold flipDS
  simp only [DS.mk.injEq, true_and, List.map_map]
  refine ⟨?_, ?_, ?_⟩
  · funext k i
    by_cases hk : k = lat
    · subst hk
      by_cases hi : i < b k
      · have h1 : b k - 1 - i < b k := by omega
        have h2 : b k - 1 - (b k - 1 - i) = i := by omega
        simp [hi, h1, h2]
      · simp [hi]
    · simp [hk]
  · convert List.map_id d; funext v; exact flipVar_flipVar _ _ v
  · convert List.map_id e; funext v; exact flipVar_flipVar _ _ v

theorem flipGrid_dsGrid (ds : DS) {lon lat : String} (h : lon ≠ lat) : flipGrid (dsGrid (flipDS ds lat) lon lat) = dsGrid ds lon lat := by
  unfold flipGrid dsGrid flipDS
  simp only [Grid.mk.injEq, true_and]
  refine ⟨?_, ?_⟩
  · funext i; simp [h]
  · funext j
    by_cases hj : j < ds.size lat
    · have h1 : ds.size lat - 1 - j < ds.size lat := by omega
      have h2 : ds.size lat - 1 - (ds.size lat - 1 - j) = j := by omega
      simp [hj, h1, h2]
    · simp [hj]

theorem flipVar_dims (n : ℕ) (lat : String) (v : Var) : (flipVar n lat v).dims = v.dims := by
  unfold flipVar; split <;> rfl

theorem flip_eq {n : ℕ} {lat : String} {v w : Var} (h0 : w.name = v.name) (h1 : w.dims = v.dims) (h2 : w.int = v.int)
    (h3 : lat ∉ v.dims → w.val = v.val)
    (h4 : lat ∈ v.dims → ∀ ix jx : String → ℕ, (∀ d, d ≠ lat → ix d = jx d) →
        (ix lat + jx lat + 1 = n ∨ (ix lat = jx lat ∧ n ≤ ix lat)) → w.val ix = v.val jx) : w = flipVar n lat v := by
  obtain ⟨a, b, c, d⟩ := w
  obtain ⟨a', b', c', d'⟩ := v
  simp only at h0 h1 h2 h3 h4
  subst h0 h1 h2
  unfold flipVar
  by_cases h : lat ∈ b
  · simp only [h, if_true, Var.mk.injEq, true_and]
    funext ix
    apply h4 h
    · intro e he; rw [Function.update_of_ne he]
    · rw [Function.update_self]
      by_cases hn : ix lat < n
      · left; rw [if_pos hn]; omega
      · right; rw [if_neg hn]; exact ⟨rfl, by omega⟩
  · rw [if_neg h, h3 h]

theorem reversed_eq {lat : String} {ds ds' : DS} (h : Spec.Reversed lat ds ds') : ds' = flipDS ds lat := by
  obtain ⟨h1, h2, h3, h4, h5, h6, h7⟩ := h
  obtain ⟨a, b, c, d, e⟩ := ds
  obtain ⟨a', b', c', d', e'⟩ := ds'
  simp only at h1 h2 h3 h4 h5 h6 h7
  subst h1 h2
  have key : ∀ {l l' : List Var}, List.Forall₂ (fun v w : Var => w.name = v.name ∧ w.dims = v.dims ∧ w.int = v.int ∧
      (lat ∉ v.dims → w.val = v.val) ∧
      (lat ∈ v.dims → ∀ ix jx : String → ℕ, (∀ d, d ≠ lat → ix d = jx d) →
        (ix lat + jx lat + 1 = b' lat ∨ (ix lat = jx lat ∧ b' lat ≤ ix lat)) → w.val ix = v.val jx)) l l' →
      l' = l.map (flipVar (b' lat) lat) := by
    intro l l' hl
    induction hl with
    | nil => rfl
    | cons g _ ih =>
      obtain ⟨g1, g2, g3, g4, g5⟩ := g
      rw [List.map_cons, ← ih, flip_eq g1 g2 g3 g4 g5]
  unfold flipDS
  simp only [DS.mk.injEq, true_and]
  refine ⟨?_, key h6, key h7⟩
  funext k i
  by_cases hk : k = lat
  · subst hk
    by_cases hi : i < b' k
    · rw [if_pos ⟨rfl, hi⟩]; exact h4 _ _ (by omega)
    · rw [if_neg (by tauto)]; exact h5 _ (by omega)
  · rw [if_neg (by tauto)]; exact h3 _ _ hk

theorem mapM_ok {α β : Type} {f : α → Except RErr β} {l : List α} {r : List β} (h : l.mapM f = .ok r) :
    List.Forall₂ (fun a b => f a = .ok b) l r := by
  induction l generalizing r with
  | nil => simp [pure, Except.pure] at h; subst h; exact .nil
  | cons a l ih =>
    rw [List.mapM_cons] at h
    cases ha : f a with
    | error e => rw [ha] at h; simp [bind, Except.bind] at h
    | ok b =>
      cases hl : l.mapM f with
      | error e => rw [ha, hl] at h; simp [bind, Except.bind] at h
      | ok r' =>
        rw [ha, hl] at h
        simp [bind, Except.bind, pure, Except.pure] at h
        subst h
        exact .cons ha (ih hl)

theorem mapM_exists {α β : Type} {f : α → Except RErr β} {l : List α} : (∃ r, l.mapM f = .ok r) ↔ ∀ a ∈ l, ∃ b, f a = .ok b := by
  constructor
  · rintro ⟨r, h⟩ a ha
    have := mapM_ok h
    clear h
    induction this with
    | nil => simp at ha
    | cons h1 _ ih =>
      rcases List.mem_cons.mp ha with rfl | g
      · exact ⟨_, h1⟩
      · exact ih g
  · intro h
    induction l with
    | nil => exact ⟨[], rfl⟩
    | cons a l ih =>
      obtain ⟨b, hb⟩ := h a (by simp)
      obtain ⟨r, hr⟩ := ih fun x hx => h x (by simp [hx])
      exact ⟨b :: r, by rw [List.mapM_cons, hb, hr]; rfl⟩

/-- The result once the dataset is oriented and the kernel is chosen. -/
noncomputable def finish (k : (ℕ → ℕ → Option ℝ) → Except RErr (ℕ → ℕ → Option ℝ)) (junk : ℝ) (target : Grid ℝ) (ds : DS) (lon lat : String) :
    Except RErr DS :=
  if anyPartial ds lon lat then .error .valueError
  else do
    let vars ← ds.vars.mapM (regridVar k junk ds lon lat)
    return assemble target ds lon lat vars

theorem method_eq {K : Kernel} {junk : ℝ} {source target : Grid ℝ} {ds : DS} {lon lat : String} {lon? lat? : Option String}
    (hn : names ds lon? lat? = .ok (lon, lat)) (h1 : lon ∈ ds.dims) (h2 : lat ∈ ds.dims) {ds1 : DS} (ho : orient ds lat = .ok ds1)
    {k} (hk : activeKernel K source target (dsGrid ds1 lon lat) = .ok k) :
    regridDataset K junk source target ds lon? lat? = finish k junk target ds1 lon lat := by
  unfold regridDataset finish
  rw [hn]
  simp only [bind, Except.bind]
  rw [if_neg (by tauto), ho]
  simp only
  split
  · rfl
  · rw [hk]

theorem names_auto {ds : DS} {lon lat : String} (h : Spec.Names ds.dims lon lat) : names ds none none = .ok (lon, lat) := by
  unfold names
  rw [detect_iff.mpr h]

theorem orient_asc {ds : DS} {lat : String} (h : Spec.StrictInc (ds.size lat) (ds.axis lat)) : orient ds lat = .ok ds := by
  unfold orient; rw [if_pos (asc_iff.mpr h)]

theorem orient_desc {ds : DS} {lat : String} (hn : ¬ Spec.StrictInc (ds.size lat) (ds.axis lat))
    (h : Spec.StrictDec (ds.size lat) (ds.axis lat)) : orient ds lat = .ok (flipDS ds lat) := by
  unfold orient; rw [if_neg (by rw [asc_iff]; exact hn), if_pos (desc_iff.mpr h)]

theorem orient_ok {ds ds1 : DS} {lat : String} (h : orient ds lat = .ok ds1) :
    (Spec.StrictInc (ds.size lat) (ds.axis lat) ∨ Spec.StrictDec (ds.size lat) (ds.axis lat)) ∧ (ds1 = ds ∨ ds1 = flipDS ds lat) := by
  unfold orient at h
  split at h
  · rename_i g; injection h with h; exact ⟨.inl (asc_iff.mp g), .inl h.symm⟩
  · split at h
    · rename_i g; injection h with h; exact ⟨.inr (desc_iff.mp g), .inr h.symm⟩
    · cases h

theorem fn_eq {tbl : Grid ℝ → Grid ℝ → Except RErr (ℕ → ℤ)} {junk : ℝ} {ds : DS} {target : Grid ℝ} {m : String} {K : Kernel}
    (hK : selectK tbl m = .ok K) {lon lat : String} (h : Spec.Names ds.dims lon lat) (lon? lat? : Option String) :
    regridDatasetFn tbl junk ds target m lon? lat? = regridDataset K junk (dsGrid ds lon lat) target ds lon? lat? := by
  unfold regridDatasetFn
  rw [detect_iff.mpr h, hK]
  rfl

theorem fn_asc {tbl : Grid ℝ → Grid ℝ → Except RErr (ℕ → ℤ)} {junk : ℝ} {ds : DS} {target : Grid ℝ} {m : String} {K : Kernel}
    (hK : selectK tbl m = .ok K) {lon lat : String} (h : Spec.Names ds.dims lon lat)
    (hi : Spec.StrictInc (ds.size lat) (ds.axis lat)) :
    regridDatasetFn tbl junk ds target m none none = finish (K (dsGrid ds lon lat) target) junk target ds lon lat := by
  obtain ⟨a, b, c⟩ := names_facts h
  rw [fn_eq hK h]
  exact method_eq (names_auto h) a b (orient_asc hi) (activeKernel_self _ _ _)

theorem flipDS_axis {ds : DS} {lat : String} {i : ℕ} (hi : i < ds.size lat) :
    (flipDS ds lat).axis lat i = ds.axis lat (ds.size lat - 1 - i) := by
  unfold flipDS; simp [hi]

theorem flipDS_strictDec {ds : DS} {lat : String} (hi : Spec.StrictInc (ds.size lat) (ds.axis lat)) :
    Spec.StrictDec ((flipDS ds lat).size lat) ((flipDS ds lat).axis lat) := by
  intro i j hij hj
  have hj' : j < ds.size lat := hj
  rw [flipDS_axis hj', flipDS_axis (by omega)]
  exact hi _ _ (by omega) (by omega)

theorem not_allclose {ds : DS} {lon lat : String} {n : ℕ} (hn : ds.size lat = n) (h90 : ∀ i, i < n → |ds.axis lat i| ≤ 90)
    (hspan : ds.axis lat (n - 1) - ds.axis lat 0 > 1 / 1000) : ¬ gridAllclose (dsGrid (flipDS ds lat) lon lat) (dsGrid ds lon lat) := by
  rintro ⟨-, -, -, h⟩
  have hpos : 0 < n := by
    rcases Nat.eq_zero_or_pos n with rfl | g
    · simp at hspan; norm_num at hspan
    · exact g
  have hs : (flipDS ds lat).size lat = n := hn
  have h0 := h 0 (by show 0 < (flipDS ds lat).size lat; omega)
  unfold dsGrid at h0
  simp only [hs, hn, hpos, if_true] at h0
  rw [flipDS_axis (by omega), hn, Nat.sub_zero] at h0
  unfold deg2rad at h0
  rw [← sub_mul] at h0
  have hpi := Real.pi_gt_three
  have b0 := h90 0 hpos
  rw [abs_mul, abs_mul, abs_of_pos (show 0 < ds.axis lat (n - 1) - ds.axis lat 0 by linarith),
    abs_of_pos (show (0 : ℝ) < Real.pi / 180 by positivity)] at h0
  nlinarith [mul_le_mul_of_nonneg_right b0 (show (0 : ℝ) ≤ Real.pi / 180 by positivity),
    mul_lt_mul_of_pos_right hspan (show (0 : ℝ) < Real.pi / 180 by positivity)]

theorem fn_desc {tbl : Grid ℝ → Grid ℝ → Except RErr (ℕ → ℤ)} {junk : ℝ} {ds : DS} {target : Grid ℝ} {m : String} {K : Kernel}
    (hK : selectK tbl m = .ok K) {lon lat : String} (h : Spec.Names ds.dims lon lat)
    (hi : Spec.StrictInc (ds.size lat) (ds.axis lat)) (h90 : ∀ i, i < ds.size lat → |ds.axis lat i| ≤ 90)
    (hspan : ds.axis lat (ds.size lat - 1) - ds.axis lat 0 > 1 / 1000) :
    regridDatasetFn tbl junk (flipDS ds lat) target m none none = finish (K (dsGrid ds lon lat) target) junk target ds lon lat := by
  obtain ⟨a, b, c⟩ := names_facts h
  have h' : Spec.Names (flipDS ds lat).dims lon lat := h
  have hn2 : 1 < ds.size lat := by
    by_contra g
    have : ds.size lat - 1 = 0 := by omega
    rw [this] at hspan
    norm_num at hspan
  have hdec := flipDS_strictDec hi
  rw [fn_eq hK h']
  refine method_eq (names_auto h') a b (ds1 := ds) ?_ ?_
  · rw [orient_desc _ hdec, flipDS_flipDS]
    intro g
    have g1 := g 0 1 (by omega) hn2
    have g2 := hdec 0 1 (by omega) hn2
    linarith
  · unfold activeKernel
    rw [if_neg (not_allclose rfl h90 hspan), flipGrid_dsGrid ds c, if_pos (gridAllclose_refl _)]

theorem active_ok {K : Kernel} {target : Grid ℝ} {ds ds1 : DS} {lon lat : String} (hne : lon ≠ lat) (h : ds1 = ds ∨ ds1 = flipDS ds lat) :
    ∃ src : Grid ℝ, src.nlon = ds.size lon ∧ src.nlat = ds.size lat ∧
      activeKernel K (dsGrid ds lon lat) target (dsGrid ds1 lon lat) = .ok (K src target) := by
  rcases h with rfl | rfl
  · exact ⟨_, rfl, rfl, activeKernel_self _ _ _⟩
  · unfold activeKernel
    split
    · exact ⟨_, rfl, rfl, rfl⟩
    · have : flipGrid (dsGrid ds lon lat) = dsGrid (flipDS ds lat) lon lat := by
        have := flipGrid_dsGrid (flipDS ds lat) hne
        rwa [flipDS_flipDS] at this
      rw [this, if_pos (gridAllclose_refl _)]
      exact ⟨_, rfl, rfl, rfl⟩

theorem bilinear_some {src tgt : Grid ℝ} (p1 : 0 < src.nlon) (p2 : 0 < src.nlat) (f : ℕ → ℕ → Option ℝ) :
    ∃ r, bilinearK src tgt f = .ok r := by
  unfold bilinearK
  by_cases hn : supportsNative src tgt = true
  · obtain ⟨R, e, -⟩ := native_spec hn (field := arr2 src.nlon src.nlat f) (s := []) rfl
    exact ⟨_, by rw [e]; rfl⟩
  · unfold bilinearRegrid
    rw [if_neg (by simp [trail, arr2]), if_neg hn, if_neg (by omega)]
    exact ⟨_, rfl⟩

theorem regridVar_free {k} {junk : ℝ} {ds : DS} {lon lat : String} {v : Var} (h : ¬ Spec.Horizontal lon lat v) :
    regridVar k junk ds lon lat v = .ok v := by
  unfold regridVar; rw [if_neg (show ¬ (lon ∈ v.dims ∧ lat ∈ v.dims) from h)]

theorem regridVar_ok {k} {junk : ℝ} {ds : DS} {lon lat : String} {v w : Var} (hv : Spec.Horizontal lon lat v)
    (h : regridVar k junk ds lon lat v = .ok w) :
    w.name = v.name ∧ w.dims = v.dims ∧ w.int = v.int ∧
      (∀ d ∈ v.dims, d ≠ lon → d ≠ lat → 0 < ds.size d) ∧
      ∀ ix : String → ℕ, (∀ d ∈ v.dims, d ≠ lon → d ≠ lat → ix d < ds.size d) →
        ∃ r, k (slice ds lon lat v ix) = .ok r ∧ w.val ix = if v.int then toInt junk (r (ix lon) (ix lat)) else r (ix lon) (ix lat) := by
  unfold regridVar at h
  rw [if_pos (show lon ∈ v.dims ∧ lat ∈ v.dims from hv)] at h
  dsimp only at h
  by_cases g1 : ∃ d ∈ v.dims.filter fun d => decide (d ≠ lon ∧ d ≠ lat), ds.size d = 0
  · rw [if_pos g1] at h; cases h
  · rw [if_neg g1] at h
    by_cases g2 : ∃ ix : String → ℕ, (∀ d ∈ v.dims.filter fun d => decide (d ≠ lon ∧ d ≠ lat), ix d < ds.size d) ∧
        ∃ e, k (slice ds lon lat v ix) = .error e
    · rw [if_pos g2] at h; cases h
    · rw [if_neg g2] at h
      injection h with h
      subst h
      refine ⟨rfl, ?_, rfl, ?_, ?_⟩
      · show (if _ then _ else _) = _
        split
        · rfl
        · rename_i g; exact not_not.mp g
      · intro d hd h1 h2
        by_contra g
        exact g1 ⟨d, List.mem_filter.mpr ⟨hd, by simp [h1, h2]⟩, by omega⟩
      · intro ix hix
        cases hk : k (slice ds lon lat v ix) with
        | error e =>
          exfalso
          refine g2 ⟨ix, ?_, e, hk⟩
          intro d hd
          rw [List.mem_filter] at hd
          simp only [decide_eq_true_eq] at hd
          exact hix d hd.1 hd.2.1 hd.2.2
        | ok r => exact ⟨r, rfl, by simp only [hk]⟩

theorem regridVar_exists {k} {junk : ℝ} {ds : DS} {lon lat : String} {v : Var} (hk : ∀ f, ∃ r, k f = .ok r) :
    (∃ w, regridVar k junk ds lon lat v = .ok w) ↔ (Spec.Horizontal lon lat v → ∀ d ∈ v.dims, d ≠ lon → d ≠ lat → 0 < ds.size d) := by
  constructor
  · rintro ⟨w, h⟩ hv
    exact (regridVar_ok hv h).2.2.2.1
  · intro h
    by_cases hv : Spec.Horizontal lon lat v
    · unfold regridVar
      rw [if_pos (show lon ∈ v.dims ∧ lat ∈ v.dims from hv)]
      dsimp only
      rw [if_neg, if_neg]
      · exact ⟨_, rfl⟩
      · rintro ⟨ix, -, e, he⟩
        obtain ⟨r, hr⟩ := hk (slice ds lon lat v ix)
        rw [hr] at he; cases he
      · rintro ⟨d, hd, h0⟩
        rw [List.mem_filter] at hd
        simp only [decide_eq_true_eq] at hd
        have := h hv d hd.1 hd.2.1 hd.2.2
        omega
    · exact ⟨v, regridVar_free hv⟩

theorem anyPartial_iff {ds : DS} {lon lat : String} : anyPartial ds lon lat = false ↔
    (∀ v ∈ ds.vars, Spec.Horizontal lon lat v ∨ Spec.Free lon lat v) ∧ ∀ v ∈ ds.coords, Spec.Horizontal lon lat v ∨ Spec.Free lon lat v := by
  have key : ∀ v : Var, partialDims lon lat v = false ↔ Spec.Horizontal lon lat v ∨ Spec.Free lon lat v := by
    intro v
    unfold partialDims Spec.Horizontal Spec.Free
    by_cases a : lon ∈ v.dims <;> by_cases b : lat ∈ v.dims <;> simp [a, b]
  unfold anyPartial
  simp only [Bool.or_eq_false_iff, List.any_eq_false, Bool.not_eq_true, key]

theorem finish_ok {k} {junk : ℝ} {target : Grid ℝ} {ds R : DS} {lon lat : String} (h : finish k junk target ds lon lat = .ok R) :
    anyPartial ds lon lat = false ∧ ∃ vars, R = assemble target ds lon lat vars ∧
      List.Forall₂ (fun v w => regridVar k junk ds lon lat v = .ok w) ds.vars vars := by
  unfold finish at h
  split at h
  · cases h
  · rename_i g
    refine ⟨by simpa using g, ?_⟩
    cases hm : ds.vars.mapM (regridVar k junk ds lon lat) with
    | error e => rw [hm] at h; simp [bind, Except.bind] at h
    | ok vars =>
      rw [hm] at h
      simp only [bind, Except.bind, pure, Except.pure] at h
      injection h with h
      exact ⟨vars, h.symm, mapM_ok hm⟩

theorem finish_exists {k} {junk : ℝ} {target : Grid ℝ} {ds : DS} {lon lat : String} : (∃ R, finish k junk target ds lon lat = .ok R) ↔
    anyPartial ds lon lat = false ∧ ∀ v ∈ ds.vars, ∃ w, regridVar k junk ds lon lat v = .ok w := by
  rw [← mapM_exists]
  unfold finish
  constructor
  · rintro ⟨R, h⟩
    have := finish_ok (show finish k junk target ds lon lat = .ok R from h)
    refine ⟨this.1, ?_⟩
    obtain ⟨vars, -, hf⟩ := this.2
    rw [mapM_exists]
    intro a ha
    obtain ⟨b, -, hb⟩ := (List.forall₂_iff_get.mp hf |> fun g => (by
      obtain ⟨i, hi, rfl⟩ := List.mem_iff_getElem.mp ha
      exact ⟨vars[i]'(g.1 ▸ hi), trivial, g.2 i hi (g.1 ▸ hi)⟩ : ∃ b, True ∧ regridVar k junk ds lon lat a = .ok b))
    exact ⟨b, hb⟩
  · rintro ⟨h1, vars, h2⟩
    rw [if_neg (by simp [h1]), h2]
    exact ⟨_, rfl⟩

end Skyborn.Regrid
