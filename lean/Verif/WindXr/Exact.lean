/-
C242: what the gradient of a labelled field means, and two ways it goes wrong.
-/
import Verif.WindXr.Physics
import Verif.Sphere.WindProps4
import Verif.Sphere.SessionProps2

namespace Skyborn.WindXr

open Skyborn Windspharm Sphere

/-- C242, meaning: the gradient of a labelled field that samples, at its labels, a band-limited field is its gradient at the labels of each result,
whatever was asked before. (When the labels are those of the grid of the transform, whose analyses are exact.) -/
theorem C242_exact_partial {lib : Grid → Leg → ℕ → ℕ → ℚ → Inst} (hlib : Spec.Lib lib) {gauss : ℕ → Option (ℕ → ℝ)} {u v : WArr ℝ Cell}
    (hu : Spec.Proper u) (hv : Spec.Proper v) {rsphere : ℚ} {legfunc : String} {gridtype : Option String} {w : WObj ℝ}
    (h : construct lib gauss u v rsphere legfunc gridtype = .ok w) {x : WArr ℝ Cell} (hx : Spec.Proper x) {lat lon : String} {c : Coord ℝ}
    (hf : Spec.Frame x lat lon c) (hc : c ∈ x.coords) (hg : Spec.OnGrid w.inst x lat lon) (s1 : Spec.size x lat = w.inst.nlat)
    (s2 : Spec.size x lon = w.inst.nlon) {K : ℕ} (hE : Spec.Exact w.inst K) (hG : Good w.inst (Spec.extra x lat lon ++ [2]))
    {T T' : ℕ} {t : Option ℤ} {y : List ℕ → ℕ → ℕ → ℂ} (hF : Spec.SampledAt Spec.cell x lat lon fun e => Spec.series T (y e))
    (hK : T ≤ K) (h1 : T + 2 ≤ Spec.size x lat) (h2 : 2 * T < Spec.size x lon) (ht : Spec.Truncation (Spec.size x lat) t T')
    (h3 : T' ≤ Spec.size x lon / 2) (hTT : T ≤ T') :
    ∃ X Y : List ℕ → ℝ → ℝ → ℝ, (∀ e φ l, Real.cos φ ≠ 0 → Spec.HasGradient rsphere (Spec.series T (y e)) φ l (X e φ l) (Y e φ l)) ∧
      ∀ (qs : List (XQuery ℝ)) (k : ℕ), qs[k]? = some (.gradient x t) →
        ∃ gx gy, (run w qs)[k]? = some (.ok [gx, gy]) ∧ Spec.SampledAt some gx lat lon X ∧ Spec.SampledAt some gy lat lon Y := by
  have hrs : w.inst.rsphere = rsphere := by
    obtain ⟨_, _, _, -, -, -, -, -, n3, -⟩ := C238_labels_partial hlib hu hv h
    exact n3
  have hnum : Spec.AllNumbers x := by
    intro f hp
    obtain ⟨c', hc'⟩ := hf.isLon
    have := hF c c' hf.isLat.2.1 hc'.2.1 f hp
    cases e : Spec.at x f with
    | num r => exact ⟨r, rfl⟩
    | nan => rw [e] at this; cases this
    | inf b => rw [e] at this; cases this
  obtain ⟨z, hz, hall⟩ := (C242_fields_partial hlib hu hv h hx hf hc t).2 hnum s1 s2 hG
  have hs := samples_in hx hf hg s1.symm s2.symm hF hz
  obtain ⟨a, b, X, Y, e1, q1, q2, q3⟩ := C152_gradient_partial hG.of_pair hE hK (by rw [← s1]; exact h1) (by rw [← s2]; exact h2) hs
    (by rw [← s1]; exact ht) (by rw [← s2]; exact h3) hTT
  refine ⟨X, Y, by rw [hrs] at q3; exact q3, fun qs k hk => ?_⟩
  obtain ⟨res, hres, hR⟩ := (hall qs k).1 hk
  simp only [Spec.answer, e1] at hR
  obtain ⟨outs, rfl, hL, -⟩ := hR
  obtain ⟨o1, l1, L1, rest1, rfl⟩ := List.forall₂_cons_left_iff.mp hL
  obtain ⟨o2, l2, L2, rest2, rfl⟩ := List.forall₂_cons_left_iff.mp rest1
  have := List.forall₂_nil_left_iff.mp rest2
  subst this
  exact ⟨o1, o2, hres, samples_out hx hf hg s1.symm s2.symm q1 L1, samples_out hx hf hg s1.symm s2.symm q2 L2⟩

end Skyborn.WindXr
