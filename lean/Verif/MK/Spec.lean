/-
Textbook definitions used to state the Mann-Kendall properties. Nothing here refers to the model of the code.
A series is `y : ℕ → K` observed at times `1, ..., n` (values at other indices are irrelevant).
-/
import Mathlib.Data.Sign.Basic
import Mathlib.Data.Multiset.Sort
import Mathlib.Algebra.BigOperators.Group.Finset.Basic
import Mathlib.Algebra.Order.Field.Basic
import Mathlib.Order.Interval.Finset.Nat

namespace Skyborn.MK.Spec

variable {K : Type} [Field K] [LinearOrder K]

/-- All index pairs `i < j` of times `1..n`. -/
def pairs (n : ℕ) : Finset (ℕ × ℕ) :=
  (Finset.Icc 1 n ×ˢ Finset.Icc 1 n).filter fun p => p.1 < p.2

/-- Sign of a number as an element of `K` (`-1`, `0` or `1`). -/
def sgn (x : K) : K := ((SignType.sign x : SignType) : K)

/-- Kendall's S: `∑_{i<j} sign(y_j - y_i)`. -/
def score (n : ℕ) (y : ℕ → K) : K := ∑ p ∈ pairs n, sgn (y p.2 - y p.1)

/-- The observed values, as a multiset. -/
def values (n : ℕ) (y : ℕ → K) : Multiset K := (Finset.Icc 1 n).val.map y

/-- Tie-corrected variance of S: `[n(n-1)(2n+5) - ∑ t(t-1)(2t+5)] / 18`, the sum running over the distinct
values, `t` being the multiplicity of the value. -/
def tieVariance (s : Multiset K) : K :=
  ((s.card : K) * (s.card - 1) * (2 * s.card + 5)
    - ∑ v ∈ s.toFinset, (s.count v : K) * (s.count v - 1) * (2 * s.count v + 5)) / 18

/-- The multiset of the `n(n-1)/2` pairwise slopes. -/
def pairSlopes (n : ℕ) (y : ℕ → K) : Multiset K :=
  (pairs n).val.map fun p => (y p.2 - y p.1) / ((p.2 : K) - (p.1 : K))

/-- Index pairs `i < j` of times `1..n` that belong to the same season (`i ≡ j mod period`). -/
def seasonPairs (n period : ℕ) : Finset (ℕ × ℕ) := (pairs n).filter fun p => p.1 % period = p.2 % period

/-- The multiset of all within-season slopes, per cycle of `period` samples. -/
def seasonSlopes (n period : ℕ) (y : ℕ → K) : Multiset K :=
  (seasonPairs n period).val.map fun p => (y p.2 - y p.1) / (((p.2 : K) - (p.1 : K)) / (period : K))

/-- Median of a multiset: middle element of the sorted list, or the mean of the two middle elements.
(`0` for the empty multiset; the theorems never use that case.) -/
def median (s : Multiset K) : K :=
  if s.card % 2 = 1 then (s.sort (· ≤ ·)).getD (s.card / 2) 0
  else ((s.sort (· ≤ ·)).getD (s.card / 2 - 1) 0 + (s.sort (· ≤ ·)).getD (s.card / 2) 0) / 2

/-- Mid-rank of the `i`-th value: number of smaller values plus half of (number of equal values + 1). -/
def midRank (n : ℕ) (y : ℕ → K) (i : ℕ) : K :=
  (((Finset.Icc 1 n).filter fun k => y k < y i).card : K)
    + ((((Finset.Icc 1 n).filter fun k => y k = y i).card : K) + 1) / 2

/-- Covariance of the scores of two series observed together (Dietz and Killeen 1981):
`[K + 4 ∑ R_i(x) R_i(y) - n (n+1)²] / 3` with `K = ∑_{i<j} sign((x_j-x_i)(y_j-y_i))` and mid-ranks `R`. -/
def dietzKilleen (n : ℕ) (x y : ℕ → K) : K :=
  (∑ p ∈ pairs n, sgn ((x p.2 - x p.1) * (y p.2 - y p.1))
    + 4 * ∑ i ∈ Finset.Icc 1 n, midRank n x i * midRank n y i - (n : K) * ((n : K) + 1) ^ 2) / 3

/-- Strictly increasing in time. -/
def Increasing (n : ℕ) (y : ℕ → K) : Prop := ∀ i j, 1 ≤ i → i < j → j ≤ n → y i < y j

/-- Strictly decreasing in time. -/
def Decreasing (n : ℕ) (y : ℕ → K) : Prop := ∀ i j, 1 ≤ i → i < j → j ≤ n → y j < y i

end Skyborn.MK.Spec
