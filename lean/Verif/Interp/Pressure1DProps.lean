/-
Theorems about `interp_pressure_1d`: C66, C67, C68.
-/
import Verif.Interp.Pressure1DLemmas
import Mathlib.Tactic.NormNum
import Mathlib.Tactic.Ring

namespace Skyborn.Interp

/-! ### Specification -/

/-- The usable source levels, in input order, as pairs (pressure, value): both are finite and neither is the missing value. -/
noncomputable def Spec.levels (mv : Option ℝ) : List (Option ℝ) → List (Option ℝ) → List (ℝ × ℝ)
  | some x :: data, some p :: src =>
    open Classical in if some x = mv ∨ some p = mv then Spec.levels mv data src else (p, x) :: Spec.levels mv data src
  | _ :: data, _ :: src => Spec.levels mv data src
  | _, _ => []

/-- The requested pressures that are not missing. -/
noncomputable def Spec.targets (mv : Option ℝ) : List (Option ℝ) → List ℝ
  | [] => []
  | some t :: ts => open Classical in if some t = mv then Spec.targets mv ts else t :: Spec.targets mv ts
  | none :: ts => Spec.targets mv ts

/-- A well-formed request: what the docstring asks of the arguments. The last clause excludes the one float64 value
(the largest) that the implementation reserves as its internal marker. -/
structure Spec.Good (data src tgt : List (Option ℝ)) (useLog : Bool) (mv : Option ℝ) : Prop where
  lengths : data.length = src.length
  two : 2 ≤ (Spec.levels mv data src).length
  mono : ((Spec.levels mv data src).map Prod.fst).Pairwise (· < ·) ∨ ((Spec.levels mv data src).map Prod.fst).Pairwise (· > ·)
  tmono : (Spec.targets mv tgt).Pairwise (· < ·) ∨ (Spec.targets mv tgt).Pairwise (· > ·)
  pos : useLog = true → (∀ q ∈ Spec.levels mv data src, 0 < q.1) ∧ ∀ t ∈ Spec.targets mv tgt, 0 < t
  small : ∀ r : ℝ, (some r ∈ src ∨ some r ∈ data) → r < spvl

/-- The first two source pressures are usable and ordered like the usable levels. -/
def Spec.Directed (data src : List (Option ℝ)) (mv : Option ℝ) : Prop :=
  ∃ (a b : ℝ) (rest : List (Option ℝ)), src = some a :: some b :: rest ∧ some a ≠ mv ∧ some b ≠ mv ∧
    (a < b ↔ ((Spec.levels mv data src).map Prod.fst).Pairwise (· < ·))

/-! ### Lemmas -/

theorem isMissing_some {mv : Option ℝ} {r : ℝ} : isMissing mv (some r) = true ↔ some r = mv := by
  simp [isMissing]

theorem isMissing_none {mv : Option ℝ} : isMissing mv none = true := by simp [isMissing]

theorem vsrc_eq (mv : Option ℝ) : ∀ (data src : List (Option ℝ)),
    ((data.zip src).filter fun q => !(isMissing mv q.1 || isMissing mv q.2)).filterMap Prod.snd =
      (Spec.levels mv data src).map Prod.fst
  | [], _ => by simp [Spec.levels]
  | _ :: _, [] => by simp [Spec.levels]
  | none :: data, p :: src => by
    rw [List.zip_cons_cons, List.filter_cons_of_neg (by simp [isMissing_none]), vsrc_eq mv data src]
    cases p <;> simp [Spec.levels]
  | some x :: data, none :: src => by
    rw [List.zip_cons_cons, List.filter_cons_of_neg (by simp [isMissing_none]), vsrc_eq mv data src]
    simp [Spec.levels]
  | some x :: data, some p :: src => by
    rw [Spec.levels]
    by_cases h : some x = mv ∨ some p = mv
    · rw [if_pos h, List.zip_cons_cons, List.filter_cons_of_neg, vsrc_eq mv data src]
      rcases h with h | h
      · simp [isMissing_some.mpr h]
      · simp [isMissing_some.mpr h]
    · rw [if_neg h, List.zip_cons_cons, List.filter_cons_of_pos, List.filterMap_cons_some (f := Prod.snd) (a := (some x, some p)) (b := p) rfl, vsrc_eq mv data src,
        List.map_cons]
      push Not at h
      have h1 : isMissing mv (some x) = false := by
        rw [← Bool.not_eq_true, isMissing_some]; exact h.1
      have h2 : isMissing mv (some p) = false := by
        rw [← Bool.not_eq_true, isMissing_some]; exact h.2
      simp [h1, h2]

theorem validOf_eq (mv : Option ℝ) : ∀ (l : List (Option ℝ)), validOf mv l = Spec.targets mv l
  | [] => by simp [validOf, Spec.targets]
  | none :: l => by
    have := validOf_eq mv l
    unfold validOf at *
    rw [List.filterMap_cons_none (by simp), this, Spec.targets]
  | some t :: l => by
    have := validOf_eq mv l
    unfold validOf at *
    rw [Spec.targets]
    by_cases h : some t = mv
    · rw [if_pos h, List.filterMap_cons_none (by rw [if_pos (isMissing_some.mpr h)]), this]
    · rw [if_neg h, List.filterMap_cons_some (b := t) (by rw [if_neg (by rw [isMissing_some]; exact h)]), this]

theorem encode_cons (mv v : Option ℝ) (l : List (Option ℝ)) :
    encode mv (v :: l) = (if isMissing mv v then spvl else v.getD spvl) :: encode mv l := rfl

theorem compact_eq (mv : Option ℝ) : ∀ (data src : List (Option ℝ)), (∀ r : ℝ, (some r ∈ src ∨ some r ∈ data) → r < spvl) →
    compactValid (encode mv src) (encode mv data) spvl = Spec.levels mv data src
  | [], src, _ => by simp [Spec.levels, compactValid, encode]
  | _ :: _, [], _ => by simp [Spec.levels, compactValid, encode]
  | x :: data, p :: src, h => by
    have ih := compact_eq mv data src (fun r hr => h r (by
      rcases hr with hr | hr
      · exact Or.inl (List.mem_cons_of_mem _ hr)
      · exact Or.inr (List.mem_cons_of_mem _ hr)))
    unfold compactValid at *
    rw [encode_cons, encode_cons, List.zip_cons_cons]
    by_cases hx : isMissing mv x = true
    · rw [if_pos hx, List.filter_cons_of_neg (by simp), ih]
      cases x with
      | none => cases p <;> rw [Spec.levels]
                all_goals simp
      | some x =>
        rw [isMissing_some] at hx
        cases p with
        | none => rw [Spec.levels]; simp
        | some p => rw [Spec.levels, if_pos (Or.inl hx)]
    · rw [if_neg hx]
      by_cases hp : isMissing mv p = true
      · rw [if_pos hp, List.filter_cons_of_neg (by simp), ih]
        cases x with
        | none => exact absurd isMissing_none hx
        | some x =>
          cases p with
          | none => rw [Spec.levels]; simp
          | some p =>
            rw [isMissing_some] at hp
            rw [Spec.levels, if_pos (Or.inr hp)]
      · rw [if_neg hp]
        cases x with
        | none => exact absurd isMissing_none hx
        | some x =>
          cases p with
          | none => exact absurd isMissing_none hp
          | some p =>
            rw [isMissing_some] at hp hx
            have h1 := h p (Or.inl (List.mem_cons_self))
            have h2 := h x (Or.inr (List.mem_cons_self))
            rw [Spec.levels, if_neg (by tauto), List.filter_cons_of_pos, ih]
            · simp
            · simp [h1.ne, h2.ne]

/-- The usable levels with pressures in decreasing order. -/
noncomputable def descLevels (L : List (ℝ × ℝ)) : List (ℝ × ℝ) :=
  open Classical in if (L.map Prod.fst).Pairwise (· < ·) then L.reverse else L

/-- The kernel on a directed request runs `pointValue` on the usable levels. -/
theorem kernel_eq {data src tgt : List (Option ℝ)} {u : Bool} {mv : Option ℝ} (hg : Spec.Good data src tgt u mv)
    (hdir : Spec.Directed data src mv) (vt : List ℝ) (hvt : vt.length ≠ 0) (linlog : ℤ) :
    kernel (encode mv src) (encode mv data) vt linlog spvl =
      ((copyDescending vt (isIncreasing vt)).mapM (pointValue ((descLevels (Spec.levels mv data src)).map Prod.fst)
        ((descLevels (Spec.levels mv data src)).map Prod.snd) linlog spvl)).bind
        fun out => some (copyDescending out (isIncreasing vt), 0) := by
  obtain ⟨a, b, rest, hsrc, ha, hb, hab⟩ := hdir
  have hlen : (encode mv src).length = src.length := by simp [encode]
  have hinc : isIncreasing (encode mv src) = decide (((Spec.levels mv data src).map Prod.fst).Pairwise (· < ·)) := by
    rw [hsrc, encode_cons, encode_cons, if_neg (by rw [isMissing_some]; exact ha), if_neg (by rw [isMissing_some]; exact hb)]
    simp only [isIncreasing, Option.getD_some]
    rw [decide_eq_decide, hab, hsrc]
  have hcomp : compactValid (copyDescending (encode mv src) (isIncreasing (encode mv src)))
      (copyDescending (encode mv data) (isIncreasing (encode mv src))) spvl = descLevels (Spec.levels mv data src) := by
    rw [hinc]
    unfold descLevels copyDescending
    by_cases h : ((Spec.levels mv data src).map Prod.fst).Pairwise (· < ·)
    · rw [if_pos h]
      simp only [decide_eq_true h, if_true]
      rw [← compact_eq mv data src hg.small]
      unfold compactValid
      rw [← List.filter_reverse, List.zip_eq_zipWith, List.zip_eq_zipWith, List.reverse_zipWith (by simp [encode, hg.lengths])]
    · simp only [decide_eq_false h, if_false, h, Bool.false_eq_true]
      exact compact_eq mv data src hg.small
  unfold kernel
  rw [if_neg (by
    have : 2 ≤ src.length := by rw [hsrc]; simp
    omega)]
  simp only []
  rw [hcomp]
  have hdl : (descLevels (Spec.levels mv data src)).length = (Spec.levels mv data src).length := by
    unfold descLevels; split_ifs <;> simp
  rw [if_neg (by have := hg.two; omega)]
  rfl

theorem mapM_some {α β : Type} {f : α → Option β} {g : α → β} : ∀ {l : List α}, (∀ a ∈ l, f a = some (g a)) →
    l.mapM f = some (l.map g)
  | [], _ => rfl
  | a :: l, h => by
    rw [List.mapM_cons, h a List.mem_cons_self, mapM_some (fun b hb => h b (List.mem_cons_of_mem _ hb))]
    rfl

theorem scatter_map (mv : Option ℝ) (g : ℝ → Option ℝ) : ∀ tgt : List (Option ℝ),
    scatter mv tgt ((Spec.targets mv tgt).map g) = tgt.map fun t => if isMissing mv t then mv else g (t.getD 0)
  | [] => rfl
  | none :: l => by
    rw [scatter.eq_def]
    simp only []
    rw [if_pos isMissing_none, Spec.targets, scatter_map mv g l, List.map_cons, if_pos isMissing_none]
  | some t :: l => by
    rw [scatter.eq_def, Spec.targets, List.map_cons]
    simp only []
    by_cases h : some t = mv
    · rw [if_pos (isMissing_some.mpr h), if_pos h, if_pos (isMissing_some.mpr h), scatter_map mv g l]
    · rw [if_neg (by rw [isMissing_some]; exact h), if_neg h, if_neg (by rw [isMissing_some]; exact h), List.map_cons]
      simp only [Option.getD_some]
      rw [scatter_map mv g l]

theorem strictMonotone_of {l : List ℝ} (h : l.Pairwise (· < ·) ∨ l.Pairwise (· > ·)) : strictMonotone l = true := by
  unfold strictMonotone
  rw [decide_eq_true_iff]
  exact h.imp List.Pairwise.isChain List.Pairwise.isChain

theorem desc_of_pairwise {l : List ℝ} (h : l.Pairwise (· > ·)) : Desc l := by
  intro i j hi hj hij
  exact List.pairwise_iff_getElem.mp h i j hi hj hij

theorem descLevels_desc {L : List (ℝ × ℝ)}
    (h : (L.map Prod.fst).Pairwise (· < ·) ∨ (L.map Prod.fst).Pairwise (· > ·)) : Desc ((descLevels L).map Prod.fst) := by
  unfold descLevels
  refine desc_of_pairwise ?_
  split_ifs with g
  · rw [List.map_reverse, List.pairwise_reverse]
    exact g
  · exact h.resolve_left g

theorem mem_descLevels {L : List (ℝ × ℝ)} {q : ℝ × ℝ} : q ∈ descLevels L ↔ q ∈ L := by
  unfold descLevels; split_ifs <;> simp

/-- Everything the routine does on a directed request. -/
theorem interp_eq {data src tgt : List (Option ℝ)} {u : Bool} {mv : Option ℝ} (ex : Bool) (hg : Spec.Good data src tgt u mv)
    (hdir : Spec.Directed data src mv) {val : ℝ → ℝ}
    (hval : ∀ t, pointValue ((descLevels (Spec.levels mv data src)).map Prod.fst)
        ((descLevels (Spec.levels mv data src)).map Prod.snd) (linlogOf u ex) spvl t = some (val t)) :
    interpPressure1d data src tgt u ex mv = .ok (tgt.map fun t => if isMissing mv t then mv else
      (if val (t.getD 0) = spvl then mv else some (val (t.getD 0)))) := by
  unfold interpPressure1d
  simp only []
  rw [if_neg (by rw [hg.lengths]; simp), vsrc_eq, validOf_eq]
  by_cases h0 : tgt.length = 0
  · rw [if_pos h0]
    rw [List.length_eq_zero_iff] at h0
    subst h0; rfl
  rw [if_neg h0, if_neg (by rw [List.length_map]; have := hg.two; omega), if_neg (by rw [strictMonotone_of hg.mono]; simp),
    if_neg (by rw [strictMonotone_of hg.tmono]; simp)]
  rw [if_neg]
  swap
  · intro hc
    rw [Bool.and_eq_true, Bool.or_eq_true, List.any_eq_true, List.any_eq_true] at hc
    obtain ⟨hu, hc | hc⟩ := hc
    · obtain ⟨p, hp, hp0⟩ := hc
      obtain ⟨q, hq, rfl⟩ := List.mem_map.mp hp
      have := (hg.pos hu).1 q hq
      rw [decide_eq_true_iff] at hp0; linarith
    · obtain ⟨p, hp, hp0⟩ := hc
      have := (hg.pos hu).2 p hp
      rw [decide_eq_true_iff] at hp0; linarith
  by_cases hv : (Spec.targets mv tgt).length = 0
  · rw [if_pos hv]
    have := scatter_map mv (fun t => if val t = spvl then mv else some (val t)) tgt
    rw [← this]
    rw [List.length_eq_zero_iff] at hv
    rw [hv]
    have gen : ∀ l : List (Option ℝ), scatter mv l [] = l.map fun _ => mv := by
      intro l
      induction l with
      | nil => rfl
      | cons a l ih =>
        rw [scatter.eq_def, List.map_cons]
        simp only []
        rw [ih]
        split <;> rfl
    rw [List.map_nil, gen]
  rw [if_neg hv]
  rw [kernel_eq hg hdir _ hv]
  have hll : (if u then (if ex then (-2 : ℤ) else 2) else (if ex then -1 else 1)) = linlogOf u ex := rfl
  rw [hll, mapM_some (g := val) (fun a _ => hval a)]
  simp only [Option.bind_some]
  rw [if_neg (by simp)]
  have hcd : copyDescending (List.map val (copyDescending (Spec.targets mv tgt) (isIncreasing (Spec.targets mv tgt))))
      (isIncreasing (Spec.targets mv tgt)) = (Spec.targets mv tgt).map val := by
    unfold copyDescending
    split
    · rw [List.map_reverse, List.reverse_reverse]
    · rfl
  rw [hcd, List.map_map]
  exact congrArg Except.ok (scatter_map mv (fun t => if val t = spvl then mv else some (val t)) tgt)

theorem clauses {D : List (ℝ × ℝ)} (hd : Desc (D.map Prod.fst)) (h2 : 2 ≤ D.length) {u ex : Bool} (t : ℝ)
    (hpos : u = true → ∀ q ∈ D, 0 < q.1) (hsm : ∀ q ∈ D, q.1 < spvl) :
    ∃ v, pointValue (D.map Prod.fst) (D.map Prod.snd) (linlogOf u ex) spvl t = some v ∧
      (∀ m₁ pa xa pb xb m₂, D = m₁ ++ (pa, xa) :: (pb, xb) :: m₂ → pb ≤ t → t ≤ pa → Spec.OnLine u pa xa pb xb t v) ∧
      (∀ q ∈ D, t = q.1 → v = q.2) ∧
      (ex = false → ((∀ q ∈ D, q.1 < t) ∨ (∀ q ∈ D, t < q.1)) → v = spvl) ∧
      (ex = true → t ≠ spvl → ∀ pa xa pb xb m, D = (pa, xa) :: (pb, xb) :: m → pa < t → Spec.OnLine u pa xa pb xb t v) ∧
      (ex = true → ∀ pa xa pb xb m, D = m ++ [(pa, xa), (pb, xb)] → t < pb →
        v = if u then extrapLogLow xa xb t pa pb else interpLinear xa xb t pa pb) := by
  have hL1 : (D.map Prod.fst).length = D.length := List.length_map _
  have hL2 : (D.map Prod.snd).length = D.length := List.length_map _
  obtain ⟨v, hv, c1, c2, c3, c4, c5⟩ := pointValue_spec (t := t) (u := u) (ex := ex) (xmsg := spvl) hd
    (by rw [hL1, hL2] : (D.map Prod.fst).length = (D.map Prod.snd).length) (by rw [hL1]; exact h2)
    (fun hu i hi => by rw [List.getElem_map]; exact hpos hu _ (List.getElem_mem _))
    (fun i hi => by rw [List.getElem_map]; exact hsm _ (List.getElem_mem _))
  refine ⟨v, hv, ?_, ?_, ?_, ?_, ?_⟩
  · intro m₁ pa xa pb xb m₂ hD hb ha
    subst hD
    have e0 : ∀ h, (m₁ ++ (pa, xa) :: (pb, xb) :: m₂)[m₁.length]'h = (pa, xa) := fun h => by simp
    have e1 : ∀ h, (m₁ ++ (pa, xa) :: (pb, xb) :: m₂)[m₁.length + 1]'h = (pb, xb) := fun h => by
      rw [List.getElem_append_right (by omega)]; simp
    have := c1 m₁.length (by simp)
    simp only [List.getElem_map, e0, e1] at this
    exact this hb ha
  · intro q hq e
    obtain ⟨i, hi, rfl⟩ := List.mem_iff_getElem.mp hq
    have := c2 i (by rw [hL1]; exact hi)
    simp only [List.getElem_map] at this
    exact this e
  · intro hex ho
    refine c3 hex ?_
    rcases ho with ho | ho
    · left; rw [List.getElem_map]; exact ho _ (List.getElem_mem _)
    · right; rw [List.getElem_map]; exact ho _ (List.getElem_mem _)
  · intro hex hts pa xa pb xb m hD ha
    subst hD
    have := c4 hex hts
    simp only [List.map_cons, List.getElem_cons_zero, List.getElem_cons_succ] at this
    exact this ha
  · intro hex pa xa pb xb m hD hb
    subst hD
    have e0 : ∀ h, (m ++ [(pa, xa), (pb, xb)])[(m ++ [(pa, xa), (pb, xb)]).length - 2]'h = (pa, xa) := fun h => by simp
    have e1 : ∀ h, (m ++ [(pa, xa), (pb, xb)])[(m ++ [(pa, xa), (pb, xb)]).length - 1]'h = (pb, xb) := fun h => by
      simp
    have := c5 hex
    simp only [List.getElem_map, hL1, e0, e1] at this
    exact this hb

theorem two_desc {data src tgt : List (Option ℝ)} {u : Bool} {mv : Option ℝ} (hg : Spec.Good data src tgt u mv) :
    2 ≤ (descLevels (Spec.levels mv data src)).length := by
  have : (descLevels (Spec.levels mv data src)).length = (Spec.levels mv data src).length := by
    unfold descLevels; split_ifs <;> simp
  rw [this]; exact hg.two

theorem pos_desc {data src tgt : List (Option ℝ)} {u : Bool} {mv : Option ℝ} (hg : Spec.Good data src tgt u mv) :
    u = true → ∀ q ∈ descLevels (Spec.levels mv data src), 0 < q.1 :=
  fun hu q hq => (hg.pos hu).1 q (mem_descLevels.mp hq)

theorem levels_mem {mv : Option ℝ} : ∀ {data src : List (Option ℝ)} {q : ℝ × ℝ}, q ∈ Spec.levels mv data src →
    some q.1 ∈ src ∧ some q.2 ∈ data ∧ some q.1 ≠ mv ∧ some q.2 ≠ mv
  | [], _, q, h => by simp [Spec.levels] at h
  | _ :: _, [], q, h => by simp [Spec.levels] at h
  | none :: data, p :: src, q, h => by
    have h : q ∈ Spec.levels mv data src := by cases p <;> simpa [Spec.levels] using h
    obtain ⟨a, b, c⟩ := levels_mem h
    exact ⟨List.mem_cons_of_mem _ a, List.mem_cons_of_mem _ b, c⟩
  | some x :: data, none :: src, q, h => by
    have h : q ∈ Spec.levels mv data src := by simpa [Spec.levels] using h
    obtain ⟨a, b, c⟩ := levels_mem h
    exact ⟨List.mem_cons_of_mem _ a, List.mem_cons_of_mem _ b, c⟩
  | some x :: data, some p :: src, q, h => by
    rw [Spec.levels] at h
    by_cases g : some x = mv ∨ some p = mv
    · rw [if_pos g] at h
      obtain ⟨a, b, c⟩ := levels_mem h
      exact ⟨List.mem_cons_of_mem _ a, List.mem_cons_of_mem _ b, c⟩
    · rw [if_neg g, List.mem_cons] at h
      rcases h with rfl | h
      · push Not at g
        exact ⟨List.mem_cons_self, List.mem_cons_self, g.2, g.1⟩
      · obtain ⟨a, b, c⟩ := levels_mem h
        exact ⟨List.mem_cons_of_mem _ a, List.mem_cons_of_mem _ b, c⟩

/-- **C66** `interp_pressure_1d`, interpolation. A well-formed request whose first two source pressures are usable and ordered like
the usable levels succeeds and gives one value per target. A missing target gives the missing value. A target between two
neighbouring usable levels gets the value at that pressure of the line through them, in `p` or in `log p`; at a usable level it gets
exactly the value of that level; with `extrapolate=False` a target outside the range of the levels gets the missing value. -/
theorem C66_interpolation {data src tgt : List (Option ℝ)} {useLog extrapolate : Bool} {mv : Option ℝ}
    (hg : Spec.Good data src tgt useLog mv) (hdir : Spec.Directed data src mv) :
    ∃ out, interpPressure1d data src tgt useLog extrapolate mv = .ok out ∧ out.length = tgt.length ∧
      (∀ k : ℕ, (tgt[k]? = some none ∨ tgt[k]? = some mv) → out[k]? = some mv) ∧
      ∀ (k : ℕ) (t : ℝ), tgt[k]? = some (some t) → some t ≠ mv →
        (∀ l₁ p₀ x₀ p₁ x₁ l₂, Spec.levels mv data src = l₁ ++ (p₀, x₀) :: (p₁, x₁) :: l₂ → min p₀ p₁ ≤ t → t ≤ max p₀ p₁ →
          ∃ v, out[k]? = some (some v) ∧ Spec.OnLine useLog p₀ x₀ p₁ x₁ t v ∧ min x₀ x₁ ≤ v ∧ v ≤ max x₀ x₁) ∧
        (∀ x, (t, x) ∈ Spec.levels mv data src → out[k]? = some (some x)) ∧
        (extrapolate = false → ((∀ q ∈ Spec.levels mv data src, q.1 < t) ∨ (∀ q ∈ Spec.levels mv data src, t < q.1)) →
          out[k]? = some mv) := by
  have hsm : ∀ q ∈ descLevels (Spec.levels mv data src), q.1 < spvl := fun q hq =>
    hg.small _ (Or.inl (levels_mem (mem_descLevels.mp hq)).1)
  choose val hval c1 c2 c3 c4 c5 using fun t => clauses (ex := extrapolate) (descLevels_desc (Spec.Good.mono hg)) (two_desc hg) t (pos_desc hg) hsm
  refine ⟨_, interp_eq extrapolate hg hdir hval, by simp, ?_, ?_⟩
  · intro k hk
    rw [List.getElem?_map]
    rcases hk with hk | hk
    · rw [hk]; simp [isMissing]
    · rw [hk]; simp [isMissing]
  · intro k t hk hmv
    rw [List.getElem?_map, hk]
    simp only [Option.map_some, Option.getD_some]
    rw [if_neg (by rw [isMissing_some]; exact hmv)]
    have hxs : ∀ q ∈ Spec.levels mv data src, q.2 < spvl := fun q hq => hg.small _ (Or.inr (levels_mem hq).2.1)
    refine ⟨?_, ?_, ?_⟩
    · intro l₁ p₀ x₀ p₁ x₁ l₂ hL hlo hhi
      have key : Spec.OnLine useLog p₀ x₀ p₁ x₁ t (val t) ∧ min x₀ x₁ ≤ val t ∧ val t ≤ max x₀ x₁ := by
        have hD : descLevels (Spec.levels mv data src) = if ((Spec.levels mv data src).map Prod.fst).Pairwise (· < ·) then
            (Spec.levels mv data src).reverse else Spec.levels mv data src := rfl
        by_cases hp : ((Spec.levels mv data src).map Prod.fst).Pairwise (· < ·)
        · rw [if_pos hp] at hD
          have hlt : p₀ < p₁ := by
            rw [hL, List.map_append, List.pairwise_append] at hp
            have := hp.2.1
            simp only [List.map_cons, List.pairwise_cons] at this
            exact this.1 _ (List.mem_cons_self)
          rw [min_eq_left hlt.le] at hlo
          rw [max_eq_right hlt.le] at hhi
          have := c1 t l₂.reverse p₁ x₁ p₀ x₀ l₁.reverse (by rw [hD, hL]; simp) hlo hhi
          have hb := this.between (fun hu => (hg.pos hu).1 (p₀, x₀) (by rw [hL]; simp)) hlo hhi hlt
          rw [min_comm, max_comm]
          exact ⟨this.symm, hb⟩
        · rw [if_neg hp] at hD
          replace hD := hD.trans hL
          have hlt : p₁ < p₀ := by
            have hp' := hg.mono.resolve_left hp
            rw [hL, List.map_append, List.pairwise_append] at hp'
            have := hp'.2.1
            simp only [List.map_cons, List.pairwise_cons] at this
            exact this.1 _ (List.mem_cons_self)
          rw [min_eq_right hlt.le] at hlo
          rw [max_eq_left hlt.le] at hhi
          have := c1 t l₁ p₀ x₀ p₁ x₁ l₂ hD hlo hhi
          exact ⟨this, this.between (fun hu => (hg.pos hu).1 (p₁, x₁) (by rw [hL]; simp)) hlo hhi hlt⟩
      have h0 := hxs (p₀, x₀) (by rw [hL]; simp)
      have h1 := hxs (p₁, x₁) (by rw [hL]; simp)
      have hlt : val t < spvl := lt_of_le_of_lt key.2.2 (max_lt h0 h1)
      exact ⟨val t, by rw [if_neg hlt.ne], key⟩
    · intro x hx
      have := c2 t (t, x) (mem_descLevels.mpr hx) rfl
      have hlt := hxs _ hx
      simp only at this hlt
      rw [this, if_neg hlt.ne]
    · intro hex ho
      have := c3 t hex (ho.imp (fun h q hq => h q (mem_descLevels.mp hq)) (fun h q hq => h q (mem_descLevels.mp hq)))
      rw [this, if_pos rfl]

/-- Removing the unusable levels from the request. -/
noncomputable def Spec.cleaned (mv : Option ℝ) (data src : List (Option ℝ)) : List (Option ℝ) × List (Option ℝ) :=
  ((Spec.levels mv data src).map fun q => some q.2, (Spec.levels mv data src).map fun q => some q.1)

theorem levels_clean {mv : Option ℝ} : ∀ (L : List (ℝ × ℝ)), (∀ q ∈ L, some q.1 ≠ mv ∧ some q.2 ≠ mv) →
    Spec.levels mv (L.map fun q => some q.2) (L.map fun q => some q.1) = L
  | [], _ => by simp [Spec.levels]
  | q :: L, h => by
    rw [List.map_cons, List.map_cons, Spec.levels, if_neg, levels_clean L (fun q hq => h q (List.mem_cons_of_mem _ hq))]
    have := h q List.mem_cons_self
    tauto

/-- **C67** (the part that holds): on a well-formed request whose first two source pressures are usable and ordered like the usable
levels, unusable levels (missing value or missing pressure) are ignored: the result is the one obtained without them.
What is missing: `C67_missing_levels_ignored_false`. -/
theorem C67_missing_levels_ignored_partial {data src tgt : List (Option ℝ)} {useLog extrapolate : Bool} {mv : Option ℝ}
    (hg : Spec.Good data src tgt useLog mv) (hdir : Spec.Directed data src mv) :
    interpPressure1d data src tgt useLog extrapolate mv =
      interpPressure1d (Spec.cleaned mv data src).1 (Spec.cleaned mv data src).2 tgt useLog extrapolate mv := by
  have hclean : Spec.levels mv (Spec.cleaned mv data src).1 (Spec.cleaned mv data src).2 = Spec.levels mv data src :=
    levels_clean _ (fun q hq => (levels_mem hq).2.2)
  have hg' : Spec.Good (Spec.cleaned mv data src).1 (Spec.cleaned mv data src).2 tgt useLog mv :=
    { lengths := by simp [Spec.cleaned]
      two := by rw [hclean]; exact hg.two
      mono := by rw [hclean]; exact hg.mono
      tmono := hg.tmono
      pos := by rw [hclean]; exact hg.pos
      small := by
        intro r hr
        simp only [Spec.cleaned, List.mem_map, Option.some.injEq] at hr
        rcases hr with ⟨q, hq, rfl⟩ | ⟨q, hq, rfl⟩
        · exact hg.small _ (Or.inl (levels_mem hq).1)
        · exact hg.small _ (Or.inr (levels_mem hq).2.1) }
  have hdir' : Spec.Directed (Spec.cleaned mv data src).1 (Spec.cleaned mv data src).2 mv := by
    have h2 := hg.two
    have hm := hg.mono
    unfold Spec.Directed
    rw [hclean]
    simp only [Spec.cleaned]
    have hmem : ∀ q ∈ Spec.levels mv data src, some q.1 ≠ mv := fun q hq => (levels_mem hq).2.2.1
    generalize Spec.levels mv data src = L at h2 hm hmem
    match L, h2, hm, hmem with
    | q₀ :: q₁ :: L, _, hm, hmem =>
      refine ⟨q₀.1, q₁.1, L.map fun q => some q.1, rfl, hmem _ (by simp), hmem _ (by simp), ?_⟩
      constructor
      · intro h
        rcases hm with hm | hm
        · exact hm
        · simp only [List.map_cons, List.pairwise_cons] at hm
          have := hm.1 q₁.1 List.mem_cons_self
          exact absurd h (not_lt.mpr (le_of_lt this))
      · intro h
        simp only [List.map_cons, List.pairwise_cons] at h
        exact h.1 q₁.1 List.mem_cons_self
  have hsm : ∀ q ∈ descLevels (Spec.levels mv data src), q.1 < spvl := fun q hq =>
    hg.small _ (Or.inl (levels_mem (mem_descLevels.mp hq)).1)
  choose val hval _c using fun t => clauses (ex := extrapolate) (descLevels_desc (Spec.Good.mono hg)) (two_desc hg) t (pos_desc hg) hsm
  rw [interp_eq extrapolate hg hdir hval, interp_eq extrapolate hg' hdir' (by rw [hclean]; exact hval)]

theorem spvl_big : (1000 : ℝ) < spvl := by
  unfold spvl
  have h1 : (1 : ℝ) ≤ (2 : ℝ) ^ 971 := one_le_pow₀ (by norm_num)
  have h2 : (1000 : ℝ) < (2 : ℝ) ^ 53 - 1 := by norm_num
  calc (1000 : ℝ) < 2 ^ 53 - 1 := h2
    _ = (2 ^ 53 - 1) * 1 := by ring
    _ ≤ (2 ^ 53 - 1) * 2 ^ 971 := mul_le_mul_of_nonneg_left h1 (by linarith)

/-- Numbers below 1000 are not the reserved value. -/
theorem small_of_lt {r : ℝ} (h : r < 1000) : r < spvl := h.trans spvl_big

/-- **C67** is false of the code. An increasing profile whose first pressure is NaN: levels (NaN, 9), (100, 1), (200, 2), (300, 3),
target 150, linear. Without the unusable level the answer is 1.5; with it the answer is missing, because the direction of the axis is
read off the first two raw pressures. -/
theorem C67_missing_levels_ignored_false :
    ¬ ∀ (data src tgt : List (Option ℝ)) (useLog extrapolate : Bool) (mv : Option ℝ), Spec.Good data src tgt useLog mv →
      interpPressure1d data src tgt useLog extrapolate mv =
        interpPressure1d (Spec.cleaned mv data src).1 (Spec.cleaned mv data src).2 tgt useLog extrapolate mv := by
  intro h
  have hL : Spec.levels none [some 9, some 1, some 2, some 3] [none, some 100, some 200, some 300] =
      [(100, 1), (200, 2), (300, 3)] := by simp [Spec.levels]
  have hg : Spec.Good [some 9, some 1, some 2, some 3] [none, some 100, some 200, some 300] [some 150] false none :=
    { lengths := rfl
      two := by rw [hL]; simp
      mono := by rw [hL]; left; simp; norm_num
      tmono := by left; simp [Spec.targets]
      pos := by intro h; cases h
      small := by
        intro r hr
        refine small_of_lt ?_
        simp only [List.mem_cons, Option.some.injEq, List.not_mem_nil, or_false, reduceCtorEq, false_or] at hr
        rcases hr with (rfl | rfl | rfl) | (rfl | rfl | rfl | rfl) <;> norm_num }
  have hcl : Spec.cleaned none [some 9, some 1, some 2, some 3] [none, some 100, some 200, some 300] =
      ([some 1, some 2, some 3], [some 100, some 200, some (300 : ℝ)]) := by
    unfold Spec.cleaned; rw [hL]; rfl
  have hL' : Spec.levels none [some 1, some 2, some 3] [some 100, some 200, some 300] =
      [((100 : ℝ), (1 : ℝ)), (200, 2), (300, 3)] := by simp [Spec.levels]
  have hg' : Spec.Good [some 1, some 2, some 3] [some 100, some 200, some 300] [some 150] false none :=
    { lengths := rfl
      two := by rw [hL']; simp
      mono := by rw [hL']; left; simp; norm_num
      tmono := by left; simp [Spec.targets]
      pos := by intro h; cases h
      small := by
        intro r hr
        refine small_of_lt ?_
        simp only [List.mem_cons, Option.some.injEq, List.not_mem_nil, or_false] at hr
        rcases hr with (rfl | rfl | rfl) | (rfl | rfl | rfl) <;> norm_num }
  have heq := h _ _ _ _ false _ hg
  rw [hcl] at heq
  simp only at heq
  obtain ⟨out, ho, hlen, _, hpt⟩ := C66_interpolation (extrapolate := false) hg' ⟨100, 200, [some 300], rfl, by simp, by simp, by
    rw [hL']; simp; norm_num⟩
  obtain ⟨v, hv, _⟩ := (hpt 0 150 rfl (by simp)).1 [] 100 1 200 2 [(300, 3)] hL' (by norm_num) (by norm_num)
  rw [ho] at heq
  have hs := spvl_big
  have hnil : out = [none] := by
    have : interpPressure1d [some 9, some 1, some 2, some 3] [none, some 100, some 200, some 300] [some 150] false false none =
        .ok [none] := by
      unfold interpPressure1d
      simp only []
      rw [if_neg (by simp), vsrc_eq, validOf_eq, hL, if_neg (by simp), if_neg (by simp),
        if_neg (by rw [strictMonotone_of (Or.inl (by simp; norm_num))]; simp),
        if_neg (by rw [strictMonotone_of (Or.inl (by simp [Spec.targets]))]; simp), if_neg (by simp),
        if_neg (by simp [Spec.targets])]
      have hk : kernel (encode none [none, some 100, some 200, some 300]) (encode none [some 9, some 1, some 2, some 3])
          (Spec.targets none [some 150]) 1 spvl = some ([spvl], 0) := by
        unfold kernel
        rw [if_neg (by simp [encode, Spec.targets])]
        have hinc : isIncreasing (encode none [none, some 100, some 200, some 300]) = false := by
          rw [encode_cons, encode_cons, if_pos isMissing_none, if_neg (by simp [isMissing])]
          simp only [isIncreasing, Option.getD_some, decide_eq_false_iff_not, not_lt]
          linarith
        have hinc2 : isIncreasing (Spec.targets none [some 150]) = false := by simp [Spec.targets, isIncreasing]
        rw [hinc, hinc2]
        simp only [copyDescending, Bool.false_eq_true, if_false]
        rw [compact_eq _ _ _ hg.small, hL, if_neg (by simp)]
        have hpv : pointValue [100, 200, 300] [1, 2, 3] 1 spvl 150 = some spvl := by
          unfold pointValue
          rw [if_neg (by linarith : ¬ (150 : ℝ) = spvl)]
          have : locExact 150 [100, 200, 300] 1 3 = some 0 := by
            rw [locExact, dif_pos (by decide)]
            simp only [show (1 : ℕ) + (3 - 1) / 2 = 2 from rfl, List.getElem?_cons_succ, List.getElem?_cons_zero]
            rw [if_neg (by norm_num), if_neg (by norm_num), locExact, dif_pos (by decide)]
            simp only [show (1 : ℕ) + 2 + (3 - (1 + 2)) / 2 = 3 from rfl, List.getElem?_cons_succ, List.getElem?_cons_zero]
            rw [if_neg (by norm_num), if_neg (by norm_num), locExact, dif_neg (by decide)]
          simp only [List.length_cons, List.length_nil, Nat.zero_add, Nat.reduceAdd]
          rw [this]
          simp only [Option.bind_eq_bind, Option.bind_some, lt_self_iff_false, if_false, List.getElem?_cons_zero,
            Nat.reduceSub, List.getElem?_cons_succ]
          rw [if_pos (by norm_num), if_neg (by norm_num)]
        simp only [List.map_cons, List.map_nil, Spec.targets]
        rw [if_neg (by simp), List.mapM_cons, hpv]
        rfl
      rw [show (if (false : Bool) then (if (false : Bool) then (-2 : ℤ) else 2) else (if (false : Bool) then -1 else 1)) = 1 from rfl, hk]
      simp [scatter, isMissing]
    rw [this] at heq
    exact (Except.ok.inj heq).symm
  rw [hnil] at hv
  simp at hv

/-- **C68** the full claim: with `extrapolate=True` a target beyond an end of the levels gets the value at that pressure of the line
through the two levels at that end. -/
def Spec.ExtrapolatesEnds (data src tgt : List (Option ℝ)) (useLog : Bool) (mv : Option ℝ) : Prop :=
  ∃ out, interpPressure1d data src tgt useLog true mv = .ok out ∧
    ∀ (k : ℕ) (t : ℝ), tgt[k]? = some (some t) → some t ≠ mv → t ≠ spvl →
      (∀ p₀ x₀ p₁ x₁ l, Spec.levels mv data src = (p₀, x₀) :: (p₁, x₁) :: l → ((p₁ < p₀ ∧ p₀ < t) ∨ (p₀ < p₁ ∧ t < p₀)) →
        ∀ v, Spec.OnLine useLog p₀ x₀ p₁ x₁ t v → v ≠ spvl → out[k]? = some (some v)) ∧
      (∀ p₀ x₀ p₁ x₁ l, Spec.levels mv data src = l ++ [(p₁, x₁), (p₀, x₀)] → ((p₁ < p₀ ∧ p₀ < t) ∨ (p₀ < p₁ ∧ t < p₀)) →
        ∀ v, Spec.OnLine useLog p₀ x₀ p₁ x₁ t v → v ≠ spvl → out[k]? = some (some v))

theorem onLine_unique {u : Bool} {p₀ x₀ p₁ x₁ t v w : ℝ} (hp : u = true → 0 < p₀ ∧ 0 < p₁) (hne : p₀ ≠ p₁)
    (h1 : Spec.OnLine u p₀ x₀ p₁ x₁ t v) (h2 : Spec.OnLine u p₀ x₀ p₁ x₁ t w) : v = w := by
  have hc : Spec.coord u p₁ - Spec.coord u p₀ ≠ 0 := by
    rcases lt_or_gt_of_ne hne with h | h
    · have := coord_lt (u := u) (fun e => (hp e).1) h; linarith
    · have := coord_lt (u := u) (fun e => (hp e).2) h; linarith
  unfold Spec.OnLine at h1 h2
  have := mul_right_cancel₀ hc (h1.trans h2.symm)
  linarith

/-- **C68** (the part that holds): with `method="linear"` at both ends. What is missing: `C68_extrapolation_false`
(`method="log"` at the low-pressure end). -/
theorem C68_extrapolation_linear_partial {data src tgt : List (Option ℝ)} {mv : Option ℝ}
    (hg : Spec.Good data src tgt false mv) (hdir : Spec.Directed data src mv) :
    Spec.ExtrapolatesEnds data src tgt false mv := by
  have hsm : ∀ q ∈ descLevels (Spec.levels mv data src), q.1 < spvl := fun q hq =>
    hg.small _ (Or.inl (levels_mem (mem_descLevels.mp hq)).1)
  choose val hval c1 c2 c3 c4 c5 using fun t => clauses (ex := true) (descLevels_desc (Spec.Good.mono hg)) (two_desc hg) t (pos_desc hg) hsm
  refine ⟨_, interp_eq true hg hdir hval, ?_⟩
  intro k t hk hmv hts
  rw [List.getElem?_map, hk]
  simp only [Option.map_some, Option.getD_some]
  rw [if_neg (by rw [isMissing_some]; exact hmv)]
  have fin : ∀ {p₀ x₀ p₁ x₁ v : ℝ}, p₀ ≠ p₁ → Spec.OnLine false p₀ x₀ p₁ x₁ t (val t) → Spec.OnLine false p₀ x₀ p₁ x₁ t v →
      v ≠ spvl → some (if val t = spvl then mv else some (val t)) = some (some v) := by
    intro p₀ x₀ p₁ x₁ v hne h1 h2 hv
    have := onLine_unique (fun e => by cases e) hne h1 h2
    rw [this, if_neg hv]
  have lin : ∀ {pa xa pb xb : ℝ}, pb < pa → val t = interpLinear xa xb t pa pb → Spec.OnLine false pb xb pa xa t (val t) := by
    intro pa xa pb xb hlt e
    have hne : pa - pb ≠ 0 := by linarith
    rw [e]
    unfold Spec.OnLine interpLinear Spec.coord
    simp only [Bool.false_eq_true, if_false]
    field_simp
    ring
  have hD : descLevels (Spec.levels mv data src) = if ((Spec.levels mv data src).map Prod.fst).Pairwise (· < ·) then
      (Spec.levels mv data src).reverse else Spec.levels mv data src := rfl
  constructor
  · intro p₀ x₀ p₁ x₁ l hL hout v hv hvs
    by_cases hp : ((Spec.levels mv data src).map Prod.fst).Pairwise (· < ·)
    · rw [if_pos hp] at hD
      have hlt : p₀ < p₁ := by
        rw [hL] at hp
        simp only [List.map_cons, List.pairwise_cons] at hp
        exact hp.1 _ List.mem_cons_self
      have hout : t < p₀ := by
        rcases hout with h | h
        · linarith [h.1]
        · exact h.2
      have := c5 t rfl p₁ x₁ p₀ x₀ l.reverse (by rw [hD, hL]; simp) hout
      simp only [Bool.false_eq_true, if_false] at this
      exact fin hlt.ne (lin hlt this) hv hvs
    · rw [if_neg hp] at hD
      replace hD := hD.trans hL
      have hlt : p₁ < p₀ := by
        have hp' := hg.mono.resolve_left hp
        rw [hL] at hp'
        simp only [List.map_cons, List.pairwise_cons] at hp'
        exact hp'.1 _ List.mem_cons_self
      have hout : p₀ < t := by
        rcases hout with h | h
        · exact h.2
        · linarith [h.1]
      exact fin hlt.ne' (c4 t rfl hts p₀ x₀ p₁ x₁ l hD hout) hv hvs
  · intro p₀ x₀ p₁ x₁ l hL hout v hv hvs
    by_cases hp : ((Spec.levels mv data src).map Prod.fst).Pairwise (· < ·)
    · rw [if_pos hp] at hD
      have hlt : p₁ < p₀ := by
        rw [hL, List.map_append, List.pairwise_append] at hp
        have := hp.2.1
        simp only [List.map_cons, List.pairwise_cons] at this
        exact this.1 _ List.mem_cons_self
      have hout : p₀ < t := by
        rcases hout with h | h
        · exact h.2
        · linarith [h.1]
      exact fin hlt.ne' (c4 t rfl hts p₀ x₀ p₁ x₁ l.reverse (by rw [hD, hL]; simp) hout) hv hvs
    · rw [if_neg hp] at hD
      replace hD := hD.trans hL
      have hlt : p₀ < p₁ := by
        have hp' := hg.mono.resolve_left hp
        rw [hL, List.map_append, List.pairwise_append] at hp'
        have := hp'.2.1
        simp only [List.map_cons, List.pairwise_cons] at this
        exact this.1 _ List.mem_cons_self
      have hout : t < p₀ := by
        rcases hout with h | h
        · linarith [h.1]
        · exact h.2
      have := c5 t rfl p₁ x₁ p₀ x₀ l hD hout
      simp only [Bool.false_eq_true, if_false] at this
      exact fin hlt.ne (lin hlt this) hv hvs

/-- **C68** (the part that holds): at the high-pressure end the claim holds for both methods. -/
theorem C68_extrapolation_high_partial {data src tgt : List (Option ℝ)} {useLog : Bool} {mv : Option ℝ}
    (hg : Spec.Good data src tgt useLog mv) (hdir : Spec.Directed data src mv) :
    ∃ out, interpPressure1d data src tgt useLog true mv = .ok out ∧
      ∀ (k : ℕ) (t : ℝ), tgt[k]? = some (some t) → some t ≠ mv → t ≠ spvl →
        ∀ p₀ x₀ p₁ x₁ l, (Spec.levels mv data src = (p₀, x₀) :: (p₁, x₁) :: l ∨ Spec.levels mv data src = l ++ [(p₁, x₁), (p₀, x₀)]) →
          p₁ < p₀ → p₀ < t → ∀ v, Spec.OnLine useLog p₀ x₀ p₁ x₁ t v → v ≠ spvl → out[k]? = some (some v) := by
  have hsm : ∀ q ∈ descLevels (Spec.levels mv data src), q.1 < spvl := fun q hq =>
    hg.small _ (Or.inl (levels_mem (mem_descLevels.mp hq)).1)
  choose val hval c1 c2 c3 c4 c5 using fun t => clauses (ex := true) (descLevels_desc (Spec.Good.mono hg)) (two_desc hg) t (pos_desc hg) hsm
  refine ⟨_, interp_eq true hg hdir hval, ?_⟩
  intro k t hk hmv hts p₀ x₀ p₁ x₁ l hL hlt hout v hv hvs
  rw [List.getElem?_map, hk]
  simp only [Option.map_some, Option.getD_some]
  rw [if_neg (by rw [isMissing_some]; exact hmv)]
  have hD : descLevels (Spec.levels mv data src) = if ((Spec.levels mv data src).map Prod.fst).Pairwise (· < ·) then
      (Spec.levels mv data src).reverse else Spec.levels mv data src := rfl
  have hmem : useLog = true → 0 < p₀ ∧ 0 < p₁ := by
    intro hu
    have h := (hg.pos hu).1
    constructor
    · exact h (p₀, x₀) (by rcases hL with h | h <;> rw [h] <;> simp)
    · exact h (p₁, x₁) (by rcases hL with h | h <;> rw [h] <;> simp)
  suffices hs : ∃ m, descLevels (Spec.levels mv data src) = (p₀, x₀) :: (p₁, x₁) :: m by
    obtain ⟨m, hm⟩ := hs
    have := onLine_unique hmem hlt.ne' (c4 t rfl hts p₀ x₀ p₁ x₁ m hm hout) hv
    rw [this, if_neg hvs]
  rcases hL with hL | hL
  · have hp : ¬ ((Spec.levels mv data src).map Prod.fst).Pairwise (· < ·) := by
      intro hp
      rw [hL] at hp
      simp only [List.map_cons, List.pairwise_cons] at hp
      have := hp.1 p₁ List.mem_cons_self
      linarith
    rw [if_neg hp] at hD
    replace hD := hD.trans hL
    exact ⟨l, hD⟩
  · have hp : ((Spec.levels mv data src).map Prod.fst).Pairwise (· < ·) := by
      refine hg.mono.resolve_right fun hp => ?_
      rw [hL, List.map_append, List.pairwise_append] at hp
      have := hp.2.1
      simp only [List.map_cons, List.pairwise_cons] at this
      have := this.1 _ List.mem_cons_self
      linarith
    rw [if_pos hp] at hD
    exact ⟨l.reverse, by rw [hD, hL]; simp⟩

theorem good_log : Spec.Good [some 0, some 1] [some 4, some 2] [some 1] true none where
  lengths := rfl
  two := by simp [Spec.levels]
  mono := by right; simp [Spec.levels]; norm_num
  tmono := by left; simp [Spec.targets]
  pos := by intro _; simp [Spec.levels, Spec.targets]
  small := by
    intro r hr
    refine small_of_lt ?_
    simp only [List.mem_cons, Option.some.injEq, List.not_mem_nil, or_false] at hr
    rcases hr with (rfl | rfl) | (rfl | rfl) <;> norm_num

/-- **C68** is false of the code: with `method="log"`, levels (4, 0), (2, 1) and target 1, the line in `log p` gives 2, the code gives 3
(beyond the low-pressure end the value jumps by a whole layer difference). -/
theorem C68_extrapolation_false :
    ¬ ∀ (data src tgt : List (Option ℝ)) (useLog : Bool) (mv : Option ℝ), Spec.Good data src tgt useLog mv →
      Spec.Directed data src mv → Spec.ExtrapolatesEnds data src tgt useLog mv := by
  intro h
  have hL : Spec.levels none [some 0, some 1] [some 4, some 2] = [((4 : ℝ), (0 : ℝ)), (2, 1)] := by simp [Spec.levels]
  have hdir : Spec.Directed [some 0, some 1] [some 4, some 2] none := ⟨4, 2, [], rfl, by simp, by simp, by rw [hL]; norm_num⟩
  obtain ⟨out, ho, hpt⟩ := h _ _ _ _ _ good_log hdir
  have hs := spvl_big
  have hlog : Real.log 4 = 2 * Real.log 2 := by
    rw [show (4 : ℝ) = 2 ^ 2 by norm_num, Real.log_pow]; norm_num
  have h2 : 0 < Real.log 2 := Real.log_pos (by norm_num)
  have h1 := (hpt 0 1 rfl (by simp) (by linarith)).2 2 1 4 0 [] hL (Or.inr ⟨by norm_num, by norm_num⟩) 2 (by
    unfold Spec.OnLine Spec.coord
    simp only [if_true]
    rw [hlog, Real.log_one]; ring) (by linarith)
  have hsm : ∀ q ∈ descLevels (Spec.levels none [some 0, some 1] [some 4, some 2]), q.1 < spvl := fun q hq =>
    good_log.small _ (Or.inl (levels_mem (mem_descLevels.mp hq)).1)
  choose val hval c1 c2 c3 c4 c5 using fun t => clauses (ex := true) (descLevels_desc (Spec.Good.mono good_log)) (two_desc good_log) t (pos_desc good_log) hsm
  have he := interp_eq true good_log hdir hval
  rw [ho] at he
  have he := Except.ok.inj he
  rw [he] at h1
  have hD : descLevels (Spec.levels none [some 0, some 1] [some 4, some 2]) = [] ++ [((4 : ℝ), (0 : ℝ)), (2, 1)] := by
    unfold descLevels
    rw [hL, if_neg (by simp; norm_num)]; rfl
  have h3 := c5 1 rfl 4 0 2 1 [] hD (by norm_num)
  rw [if_pos rfl] at h3
  have h4 : val 1 = 3 := by
    rw [h3]
    unfold extrapLogLow
    rw [hlog, Real.log_one]
    field_simp
    ring
  simp only [List.map_cons, List.map_nil, List.getElem?_cons_zero, Option.getD_some, h4, Option.some.injEq] at h1
  rw [if_neg (by simp [isMissing]), if_neg (by linarith)] at h1
  norm_num at h1

/-- The hypotheses are met by a request with a missing value, a missing pressure and a missing target. -/
example : Spec.Good [some 1, none, some 3, some 5, some 6] [some 1, some 2, some 3, none, some 6] [some 5, none, some 2] true none ∧
    Spec.Directed [some 1, none, some 3, some 5, some 6] [some 1, some 2, some 3, none, some 6] none := by
  have hL : Spec.levels none [some 1, none, some 3, some 5, some 6] [some 1, some 2, some 3, none, some 6] =
      [((1 : ℝ), (1 : ℝ)), (3, 3), (6, 6)] := by simp [Spec.levels]
  refine ⟨⟨rfl, by rw [hL]; simp, by rw [hL]; left; simp; norm_num, by right; simp [Spec.targets]; norm_num, ?_, ?_⟩, ?_⟩
  · intro _; rw [hL]; simp [Spec.targets]
  · intro r hr
    refine small_of_lt ?_
    simp only [List.mem_cons, Option.some.injEq, List.not_mem_nil, or_false, reduceCtorEq, false_or] at hr
    rcases hr with (rfl | rfl | rfl | rfl) | (rfl | rfl | rfl | rfl) <;> norm_num
  · exact ⟨1, 2, _, rfl, by simp, by simp, by rw [hL]; simp; norm_num⟩

end Skyborn.Interp
