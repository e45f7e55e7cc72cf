import Verif.Gpi.Terms
import Verif.Gpi.Holes
import Verif.Gpi.Levels

/-! Cases that meet the hypotheses of C197_empty, C198 and C200. -/

namespace Skyborn.Gpi

open Skyborn

/-- C198 applies: three levels at 971, 970 and 50 mb, with a wind for the profile and so for the reversed one. -/
example : ∃ out v, potentialIntensity (num 303) (num 97000) (prof 3 (windy 0 0.9).p) (prof 3 (windy 0 0.9).t) (prof 3 (windy 0 0.9).r) none [] = .ok out ∧
    ((prof 3 (windy 0 0.9).p).get [0]).getD undef ≠ ((prof 3 (windy 0 0.9).p).get [3 - 1]).getD undef ∧ out.vmax [] = some v ∧ 0 < v := by
  obtain ⟨out, v, h1, _, h3, h4⟩ := windy_call
  refine ⟨out, v, h1, ?_, h3, h4⟩
  show (971 : ℝ) ≠ 50
  norm_num

/-- C197_empty applies: a point over warm water with a known pressure, and a profile without any temperature. -/
example : ∃ out, potentialIntensity (one (some 303)) (one (some 97000)) (prof 3 (windy 0 0.9).p) (cell 3 fun _ => none) (cell 3 fun k => some ((windy 0 0.9).r k)) none [] = .ok out ∧
    InB out.shape [0, 0] ∧ ∀ l, l < 3 → ¬ Spec.Known ((Spec.slice (cell 3 fun _ => none) [0, 0]).get [l]) := by
  have hv : ∀ n k, validStart (fun _ => undef) (fun k => (windy 0 0.9).r k) n k = k + n := by
    intro n
    induction n with
    | zero => intro k; rfl
    | succ n ih =>
      intro k
      rw [validStart, if_neg (by simp), ih]
      omega
  have hp : pointMissing 3 (windy 0 0.9).p 303 97000 (fun _ => undef) (fun k => (windy 0 0.9).r k) 0 0.9 = some (skipped (lnRatio 0.9) 0, none) := by
    unfold pointMissing
    rw [if_neg (ne_undef (by norm_num)), if_neg (by norm_num), hv, if_pos (by norm_num)]
  obtain ⟨out, h1, h2, _⟩ := cell_call (n := 3) (p := (windy 0 0.9).p) (t := fun _ => none) (r := fun k => some ((windy 0 0.9).r k)) (sst := some 303) (psl := some 97000)
    (by norm_num) (by show (50 : ℝ) ≤ 971; norm_num) (Or.inr (Or.inr ⟨1, by norm_num, by norm_num, rfl⟩)) hp
  refine ⟨out, h1, by rw [h2]; exact ⟨by norm_num, by norm_num, trivial⟩, ?_⟩
  rintro l _ ⟨v, h, _⟩
  cases h

theorem post_of_gt {v : ℝ} (h : -1000 ≤ v) : post v = some v := by
  unfold post
  rw [if_neg]
  unfold undef
  rw [abs_of_nonneg (by linarith), abs_of_nonpos (by norm_num)]
  push Not
  linarith

/-- C200 applies: all terms are numbers. -/
example : ∃ d v a b x y, piLogDecomposition (num 303) (num 97000) (prof 3 (windy 0 0.9).p) (prof 3 (windy 0 0.9).t) (prof 3 (windy 0 0.9).r) 0.9 "cape_star" [] = .ok d ∧
    d.lnpi [] = some a ∧ d.lneff [] = some b ∧ d.lndiseq [] = some x ∧ d.lnckcd = some y ∧ d.vmax [] = some v ∧ Spec.Terms 303 0.9 v 301 a b x y := by
  obtain ⟨res, h1, h2, h3, h4, h5, _⟩ := windy_core 0 0.9
  obtain ⟨_, _, _, x1, x2, _⟩ := sea_air
  have hp := profile_of (c := windy 0 0.9) (q := 97000) (by show 1 ≤ 3; omega) (by show (50 : ℝ) ≤ 971; norm_num) (by show (278.15 : ℝ) < 303; norm_num) rfl h1
  have ho : (windyOut 0).1 = 301 := by
    unfold windyOut
    simp
  rw [ho] at h4 h5
  have hv : 0.1 ≤ res.vmax ^ 2 := by
    rw [h4]
    unfold rd
    nlinarith
  cases core_outcome h1 with
  | diverged h => rw [h] at h2; cases h2
  | failed _ g _ _ _ => rw [g] at h3; exact absurd h3 (lt_irrefl _)
  | solved _ _ _ _ _ l _ =>
    have hc : 0 < res.tout ∧ res.tout < (windy 0 0.9).sst := by
      rw [h5]
      exact ⟨by norm_num, by show (301 : ℝ) < 303; norm_num⟩
    have hk : 0 < (windy 0 0.9).ckcd := by show (0 : ℝ) < 0.9; norm_num
    have lp := l.pi
    have le := l.eff
    have lk := l.ratio
    have ld := l.diseq
    rw [if_pos h3] at lp
    rw [if_pos hc, h5] at le
    rw [if_pos hk] at lk
    rw [if_pos ⟨h3, hc, hk⟩] at ld
    change res.lneff = Real.log ((303 - 301) / 301) at le
    change res.lnckcd = Real.log 0.9 at lk
    have b1 : -9 ≤ res.lnpi := by
      rw [lp]
      refine le_trans ?_ (Real.one_sub_inv_le_log_of_pos (by positivity))
      have : (res.vmax ^ 2)⁻¹ ≤ 10 := by
        rw [inv_le_comm₀ (by positivity) (by norm_num)]
        norm_num at hv ⊢
        exact hv
      linarith
    have b2 : -200 ≤ res.lneff ∧ res.lneff ≤ 0 := by
      rw [le]
      refine ⟨le_trans ?_ (Real.one_sub_inv_le_log_of_pos (by norm_num)), Real.log_nonpos (by norm_num) (by norm_num)⟩
      norm_num
    have b3 : -1 ≤ res.lnckcd ∧ res.lnckcd ≤ 0 := by
      rw [lk]
      refine ⟨le_trans ?_ (Real.one_sub_inv_le_log_of_pos (by norm_num)), Real.log_nonpos (by norm_num) (by norm_num)⟩
      norm_num
    refine ⟨ofRes res, res.vmax, res.lnpi, res.lneff, res.lndiseq, res.lnckcd, ?_, post_of_gt (by linarith), post_of_gt (by linarith), post_of_gt (by linarith), post_of_gt (by linarith),
      post_of_pos h3.le, ⟨h3, by norm_num, by norm_num, lp, le, lk, by rw [ld]; ring⟩⟩
    rw [log_profile rfl (src := 0) rfl]
    have : profileCall (num 303) (num 97000) (prof 3 (windy 0 0.9).p) (prof 3 (windy 0 0.9).t) (prof 3 (windy 0 0.9).r) none 0 0.9 = .ok res := hp
    rw [this]
    rfl

end Skyborn.Gpi
