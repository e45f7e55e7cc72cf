import Verif.Trop.Props

/-! C117: what `trop_wmo` and `trop_wmo_profile` refuse. -/

namespace Skyborn.Trop
open Skyborn

theorem backend_pshape {p t : NDArr ℝ} {tmsg lapsec : ℝ} {punit nlevm : ℕ} {s : Scratch} {out0 : ℕ → ℕ → ℕ → Cell} {r : NDArr Cell}
    (h : backend p t tmsg lapsec punit nlevm s out0 = .ok r) : ∃ k, p.shape = [k] := by
  unfold backend at h
  dsimp only at h
  split at h
  · split at h
    · cases h
    · next hc => push Not at hc; exact ⟨_, hc.1⟩
  · split at h
    · cases h
    · next hc => push Not at hc; exact ⟨_, hc.1⟩
  · split at h
    · cases h
    · next hc => push Not at hc; exact ⟨_, hc.1⟩
  · cases h

theorem sort_pshape {check : Bool} {p t : NDArr ℝ} {k : ℕ} (h : (sortLevels check p t).1.shape = [k]) : p.shape = [p.shape.headD 0] := by
  unfold sortLevels at h
  dsimp only at h
  split at h
  · dsimp only [takeAxis] at h
    match hp : p.shape, h with
    | [a], _ => rfl
    | [], h => simp at h
    | a :: b :: l, h => simp at h
  · rw [h]; rfl

/-- **C117 (acceptance).** If `trop_wmo` returns, the pressure was one-dimensional and non-empty and had exactly as many levels as
the temperature has along `levdim`, and the non-negative axis arguments were valid axes, no two of them equal. -/
theorem C117_accepts (temperature pressure : NDArr (Option ℝ)) (xdim ydim levdim : ℤ) (timedim : Option ℤ) (unit : String)
    (lapsec missing : ℝ) (check : Bool) (s : Scratch) (out0 : ℕ → ℕ → ℕ → Cell) (r : NDArr Cell)
    (h : tropWmo temperature pressure xdim ydim levdim timedim unit lapsec missing check s out0 = .ok r) :
    ∃ m, 0 < m ∧ pressure.shape = [m] ∧
      ((0 ≤ levdim ∧ temperature.shape[levdim.toNat]? = some m) ∨
        (levdim < 0 ∧ temperature.shape[(levdim + temperature.shape.length).toNat]? = some m)) ∧
      (∀ d ∈ [xdim, ydim, levdim] ++ timedim.toList, 0 ≤ d → d < temperature.shape.length) ∧
      (([xdim, ydim, levdim] ++ timedim.toList).filter (fun d => 0 ≤ d)).Nodup := by
  unfold tropWmo at h
  simp only [bind, Except.bind] at h
  split at h
  · cases h
  next m hm =>
  split at h
  · cases h
  next hc =>
  split at h
  · cases h
  split at h
  · cases h
  split at h
  · cases h
  next hb =>
  have hps := sort_pshape (backend_pshape hb).choose_spec
  clear h hb
  have hlist : ([xdim, ydim, levdim] ++ timedim.toList).filter (fun d => 0 ≤ d) =
      [xdim, ydim, levdim, timedim.getD (-1)].filter (fun d => 0 ≤ d) := by
    cases timedim <;> simp [List.filter_cons]
  unfold checks at hc
  split at hc
  · cases hc
  next h1 =>
  split at hc
  · cases hc
  next h2 =>
  dsimp only at hc
  split at hc
  · cases hc
  next h3 =>
  split at hc
  · cases hc
  next h4 =>
  push Not at h1 h2 h3 h4
  refine ⟨m, Nat.pos_of_ne_zero h1.1, ?_, ?_, ?_, ?_⟩
  · change pressure.shape = [pressure.shape.headD 0] at hps
    rw [hps, h2]
  · unfold shapeAt at hm
    dsimp only at hm
    split at hm
    · next hl =>
      left
      refine ⟨hl.1, ?_⟩
      injection hm with hm
      have hlt : levdim.toNat < temperature.shape.length := by omega
      rw [← hm, List.getD_eq_getElem?_getD, List.getElem?_eq_getElem hlt]
      rfl
    · split at hm
      · next hl =>
        right
        refine ⟨hl.2, ?_⟩
        injection hm with hm
        have hlt : (levdim + temperature.shape.length).toNat < temperature.shape.length := by omega
        rw [← hm, List.getD_eq_getElem?_getD, List.getElem?_eq_getElem hlt]
        rfl
      · cases hm
  · intro d hd h0
    have : d ∈ ([xdim, ydim, levdim] ++ timedim.toList).filter (fun d => 0 ≤ d) := List.mem_filter.mpr ⟨hd, by simpa using h0⟩
    rw [hlist] at this
    exact h3 d this
  · rw [hlist]; exact h4

/-- **C117 (the error).** A pressure array with a different number of levels than the temperature has along `levdim` (both
non-empty) is refused with the length error, whatever the other arguments are. -/
theorem C117_length_error (temperature pressure : NDArr (Option ℝ)) (xdim ydim levdim : ℤ) (timedim : Option ℤ) (unit : String)
    (lapsec missing : ℝ) (check : Bool) (s : Scratch) (out0 : ℕ → ℕ → ℕ → Cell) (m k : ℕ) (ks : List ℕ)
    (hl : 0 ≤ levdim) (hm : temperature.shape[levdim.toNat]? = some m) (hk : pressure.shape = k :: ks) (h0 : 0 < m) (h1 : 0 < k)
    (hne : k ≠ m) :
    tropWmo temperature pressure xdim ydim levdim timedim unit lapsec missing check s out0 = .error .length := by
  obtain ⟨hlt, hget⟩ := List.getElem?_eq_some_iff.mp hm
  have e1 : shapeAt temperature levdim = .ok m := by
    unfold shapeAt
    dsimp only
    rw [if_pos ⟨hl, by omega⟩, List.getD_eq_getElem?_getD, hm]
    rfl
  have e2 : checks temperature.shape.length m (pressure.shape.headD 0) xdim ydim levdim timedim = .error .length := by
    unfold checks
    rw [hk, List.headD_cons, if_neg (by omega), if_pos hne]
  unfold tropWmo
  simp only [bind, Except.bind, e1, e2]

/-- **C117 (profile).** `trop_wmo_profile` returns only for two one-dimensional profiles of the same non-zero length. -/
theorem C117_profile (temperature pressure : NDArr (Option ℝ)) (unit : String) (lapsec missing : ℝ) (w : Work) (c : Cell)
    (h : tropWmoProfile temperature pressure unit lapsec missing w = .ok c) :
    ∃ m, 0 < m ∧ pressure.shape = [m] ∧ temperature.shape = [m] := by
  unfold tropWmoProfile at h
  split at h
  · next np nt h1 h2 =>
    split at h
    · cases h
    next h3 =>
    split at h
    · cases h
    next h4 =>
    push Not at h3 h4
    exact ⟨np, Nat.pos_of_ne_zero h3.1, h1, by rw [h2, h4]⟩
  · cases h

/-- Four pressure levels for a temperature with three levels along axis 0: refused. -/
example (t p : List ℕ → Option ℝ) (s : Scratch) (out0 : ℕ → ℕ → ℕ → Cell) :
    tropWmo ⟨[3, 2, 2], t⟩ ⟨[4], p⟩ 2 1 0 none "hPa" 2 (-999) true s out0 = .error .length :=
  C117_length_error _ _ _ _ _ _ _ _ _ _ _ _ 3 4 [] (by norm_num) rfl rfl (by norm_num) (by norm_num) (by norm_num)

/-- A (lev, lat, lon) call that is accepted, so that `C117_accepts` applies. -/
example (t p : List ℕ → Option ℝ) (s : Scratch) (o : ℕ → ℕ → ℕ → Cell) :
    ∃ out, tropWmo ⟨[3, 1, 2], t⟩ ⟨[3], p⟩ 2 1 0 none "hPa" 2 (-999) true s o = .ok out := by
  obtain ⟨_, out', _, e', -, -⟩ := C82_grid (temperature := ⟨[3, 1, 2], t⟩)
    (pressure := ⟨[3], p⟩) (xdim := 2) (ydim := 1) (levdim := 0) (timedim := none) rfl ⟨by norm_num, by norm_num, by norm_num, by norm_num⟩
    rfl (by norm_num) rfl "hPa" 2 (-999) true s o
  exact ⟨out', e'⟩

end Skyborn.Trop
