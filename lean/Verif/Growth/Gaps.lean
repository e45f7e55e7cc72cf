import Verif.Growth.Layout
import Verif.Growth.Batch

/-! A single profile in which something is missing. -/

namespace Skyborn.Growth

/-- C187: a profile in which a wind or a temperature is missing gives NaN, with every setting with which a profile of this length gives a result. -/
theorem C187_missing {u t u' t' pressure : NDArr (Option ℝ)} {n i : ℕ} (hp : pressure.shape = [n]) (hu : u.shape = [n]) (ht : t.shape = [n]) (hu' : u'.shape = [n]) (ht' : t'.shape = [n])
    (hi : i < n) (hm : u.get [i] = none ∨ t.get [i] = none) {qz : Solver} {lat : Option (NDArr (Option ℝ))} {bounds : Option (List ℝ)} {lon : Option (NDArr (Option ℝ))}
    {mode method : String} {trop : Option (NDArr (Option ℝ))} {levels window : Option ℤ} {w : Trop.Work} {s : Trop.Scratch} {o : ℕ → ℕ → ℕ → Trop.Cell} {out : Out}
    (h : barocGrowth qz u' t' pressure lat bounds lon mode method trop levels window w s o = .ok out) :
    barocGrowth qz u t pressure lat bounds lon mode method trop levels window w s o = .ok (.one none) := by
  rw [baroc_two (by simp [hu']) (by simp [ht'])] at h
  rw [baroc_two (by simp [hu]) (by simp [ht])]
  cases hb : boundsOf bounds with
  | error e => rw [hb] at h; cases h
  | ok b =>
    rw [hb] at h
    cases hs : settings pressure lon mode method levels window with
    | error e => rw [hs] at h; cases h
    | ok S =>
      rw [hs] at h
      change dispatch qz S u' t' lat b trop w s o = .ok out at h
      show dispatch qz S u t lat b trop w s o = _
      obtain rfl := settings_np hp hs
      unfold dispatch at h ⊢
      by_cases c1 : lat.isNone ∧ b.isNone
      · rw [if_pos c1] at h; cases h
      rw [if_neg c1] at h ⊢
      by_cases c2 : lat.isSome ∧ b.isSome
      · rw [if_pos c2] at h; cases h
      rw [if_neg c2]
      have e : ∀ a : NDArr (Option ℝ), a.shape = [S.np] → coerce a S.np = .ok (1, fun _ j => a.get [j]) := by
        intro a ha
        unfold coerce
        rw [ha]
        simp
      rw [e u hu, e t ht]
      show (if u.shape.length = 1 ∧ t.shape.length = 1 then _ else _) = _
      rw [if_pos ⟨by simp [hu], by simp [ht]⟩]
      unfold oneProfile
      rw [if_pos]
      · rfl
      · exact ⟨i, hi, by tauto⟩

/-- C187_missing applies: a profile of two levels with which the call returns, and one without the wind at the second level. -/
example (qz : Solver) (w : Trop.Work) (s : Trop.Scratch) (o : ℕ → ℕ → ℕ → Trop.Cell) : ∃ lat trop,
    barocGrowth qz ⟨[2], fun i => if i = [1] then none else some 10⟩ ⟨[2], fun _ => some 250⟩ (Spec.array 2 fun i => if i = 1 then 1000 else 100) lat none none "high" "log" trop
      (some 3) (some 1) w s o = .ok (.one none) := by
  have h3 : (four.call 3).run qz w s o = .ok (.one none) :=
    run_outside (four_call 3) (tp := 5000) (by
      simp only [Spec.Call.Tropopause, Spec.Batch.call, four]
      norm_num) (by norm_num) (by rw [four_bottom]; norm_num) (by
      rw [four_pa, four_pa, if_pos rfl, if_neg (by simp [Spec.Batch.call, four])]
      norm_num) qz s o
  unfold Spec.Call.run at h3
  refine ⟨_, _, C187_missing (n := 2) (i := 1) rfl rfl rfl ?_ ?_ (by norm_num) (Or.inl rfl) h3⟩
  all_goals rfl

end Skyborn.Growth
