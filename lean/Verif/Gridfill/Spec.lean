/-
Independent definitions used to state the gridfill properties.
-/
import Mathlib.Algebra.Order.Field.Basic
import Mathlib.Algebra.BigOperators.Group.Finset.Basic
import Mathlib.Algebra.Order.Group.Unbundled.Abs

namespace Skyborn.Gridfill.Spec

/-- Grid line next to the edge: periodic wrap, or mirror reflection about the edge line. -/
def fold (cyclic : Bool) (n : ℕ) (k : ℤ) : ℕ :=
  (if cyclic then k % (n : ℤ) else if k < 0 then -k else if k ≥ n then 2 * ((n : ℤ) - 1) - k else k).toNat

/-- Mean of the four neighbours of `(i, j)`: mirror edges in latitude, wrap or mirror in longitude. -/
def avg {K : Type} [Field K] (nlat nlon : ℕ) (cyclic : Bool) (g : ℕ → ℕ → K) (i j : ℕ) : K :=
  (g (fold false nlat (i - 1)) j + g (fold false nlat (i + 1)) j + g i (fold cyclic nlon (j - 1)) + g i (fold cyclic nlon (j + 1))) / 4

end Skyborn.Gridfill.Spec
