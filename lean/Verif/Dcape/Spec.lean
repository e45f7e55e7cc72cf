import Verif.Dcape.Model

/-! DCAPE of a list of levels: what the public functions are meant to compute, without arrays, indices or scratch memory. -/

namespace Skyborn.Dcape.Spec
open Skyborn.Dcape

/-- A level with three finite numbers. -/
def level (p t td : Option ℝ) : Option Lev := p.bind fun p => t.bind fun t => td.map fun td => ⟨p, t, td⟩

/-- The complete levels of a profile of `n` levels, in their order. -/
def valid (n : ℕ) (pr tc dc : ℕ → Option ℝ) : List Lev := (List.range n).filterMap fun k => level (pr (k + 1)) (tc (k + 1)) (dc (k + 1))

/-- The levels from the surface upwards: the list is turned round when its first pressure is below its last. -/
noncomputable def surfaceFirst (L : List Lev) : List Lev :=
  match L.head?, L.getLast? with
  | some a, some b => if a.p < b.p then L.reverse else L
  | _, _ => L

/-- `bound` lies between the pressures of two levels. -/
def Between (a b : Lev) (bound : ℝ) : Prop := (bound ≤ a.p ∧ b.p ≤ bound) ∨ (a.p ≤ bound ∧ bound ≤ b.p)

open Classical in
/-- The sounding at pressure `bound`, interpolated in the first layer that contains it. -/
noncomputable def atBound (bound : ℝ) : List Lev → Option Lev
  | a :: b :: L => if Between a b bound then some (interpLev a b bound) else atBound bound (b :: L)
  | _ => none

/-- Where the downdraft may start: the levels between 700 and 500 hPa, and those two pressures themselves. -/
noncomputable def candidates (L : List Lev) : List Lev :=
  L.filter (fun l => 500 ≤ l.p ∧ l.p ≤ 700) ++ (atBound 700 L).toList ++ (atBound 500 L).toList

/-- The candidate of least equivalent potential temperature (the first one among equals). -/
noncomputable def start (L : List Lev) : Option Lev := ((candidates L).foldl better ⟨10 ^ 99, none⟩).start

/-- The levels at or below the start. -/
noncomputable def below (L : List Lev) (s : Lev) : List Lev := L.takeWhile fun l => s.p ≤ l.p

/-- The wet-bulb temperature of the start. -/
noncomputable def wetBulb (s : Lev) : Option ℝ := (lcl s.p s.t s.td).bind fun q => rk4 (q.1 * 100) q.2 (s.p * 100)

/-- Pressure of the lowest level of a list, or of the start. -/
def bottom (s : Lev) : List Lev → ℝ
  | [] => s.p
  | l :: _ => l.p

/-- Temperature of the saturated parcel at the lowest level of the list, having sunk through all the levels from `s`. -/
noncomputable def parcel (s : Lev) : List Lev → Option ℝ
  | [] => wetBulb s
  | l :: up => (parcel s up).bind fun x => rk4 (bottom s up * 100) x (l.p * 100)

/-- Difference of virtual temperature between environment and parcel at the lowest level of the list. -/
noncomputable def excess (s : Lev) : List Lev → Option ℝ
  | [] => none
  | l :: up => (parcel s (l :: up)).bind (deficit l)

/-- The trapezoidal integral over `ln p` of that difference, from the top of the list to its bottom. -/
noncomputable def energy (s : Lev) : List Lev → Option ℝ
  | a :: b :: up => do
    let rest ← energy s (b :: up)
    let da ← excess s (a :: b :: up)
    let db ← excess s (b :: up)
    let pa ← flog a.p
    let pb ← flog b.p
    some (rest + (da + db) / 2 * (pa - pb))
  | _ => some 0

/-- DCAPE of a list of complete levels (`none` is NaN). -/
noncomputable def dcape (L : List Lev) : Option ℝ :=
  if L.length < 4 then none
  else
    let L := surfaceFirst L
    (start L).bind fun s => if (below L s).length ≤ 1 then none else (energy s (below L s)).map fun x => max 0 (rdAir * x)

end Skyborn.Dcape.Spec
