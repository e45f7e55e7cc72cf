/-
Model of the sorting / selection kernels of
/repo/src/skyborn/calc/mann_kendall/fortran/mann_kendall_core.f90.

The buffers are 1-based arrays `ℕ → β` of declared length `n`; each access goes through `rd`/`wr`, which
return `none` outside `1..n`. Unbounded loops are `partial_fixpoint`s: a loop that never ends is `none`.
So "= some _" means: terminates and never leaves the buffer. `.and.` is modelled as short-circuit (gfortran).
The real-valued and the index-valued routines of the file are textually the same program with
`values(j)` resp. `values(indices(j))` as the compared key: `key` is that key.
-/
import Verif.Common.Loops

namespace Skyborn.MK

open Skyborn

variable {α β : Type} [LinearOrder α]

/-- mann_kendall_core.f90:48-69 `median_of_three`. -/
def medianOfThree (a b c : α) : α :=
  if a < b then
    if b < c then b else if a < c then c else a
  else
    if a < c then a else if b < c then c else b

/-- mann_kendall_core.f90:90-94 / 189-193: inner `do while (j >= left .and. key(j) > current)` loop of the
insertion sorts. Returns the buffer and the final `j`. -/
def insShift (n left : ℕ) (key : β → α) (cur : α) (a : ℕ → β) (j : ℕ) : Option ((ℕ → β) × ℕ) :=
  if left ≤ j then do
    let v ← rd n a j
    if cur < key v then
      let a' ← wr n a (j + 1) v
      insShift n left key cur a' (j - 1)
    else some (a, j)
  else some (a, j)
partial_fixpoint

/-- mann_kendall_core.f90:81-97 `insertion_sort_real` and 178-196 `insertion_sort_index`. -/
def insertionSort (n : ℕ) (key : β → α) (a : ℕ → β) (left right : ℕ) : Option (ℕ → β) :=
  doLoopM (left + 1) right a fun i a => do
    let current ← rd n a i
    let r ← insShift n left key (key current) a (i - 1)
    wr n r.1 (r.2 + 1) current

/-- mann_kendall_core.f90:128-130 / 226-228 / 309-311: `do while (key(i) < pivot); i = i + 1`. -/
def scanUp (n : ℕ) (key : β → α) (pivot : α) (a : ℕ → β) (i : ℕ) : Option ℕ := do
  let v ← rd n a i
  if key v < pivot then scanUp n key pivot a (i + 1) else some i
partial_fixpoint

/-- mann_kendall_core.f90:132-134 / 230-232 / 313-315: `do while (key(j) > pivot); j = j - 1`. -/
def scanDown (n : ℕ) (key : β → α) (pivot : α) (a : ℕ → β) (j : ℕ) : Option ℕ := do
  let v ← rd n a j
  if pivot < key v then scanDown n key pivot a (j - 1) else some j
partial_fixpoint

/-- mann_kendall_core.f90:137-139 / 235-237 / 318-320: exchange of two buffer entries through `temp`. -/
def swapM (n : ℕ) (a : ℕ → β) (i j : ℕ) : Option (ℕ → β) := do
  let temp ← rd n a i
  let vj ← rd n a j
  let a1 ← wr n a i vj
  wr n a1 j temp

/-- mann_kendall_core.f90:127-145 / 225-243 / 308-327: the partition loop `do ... if (i > j) exit; end do`.
State `(buffer, i, j)`. -/
def partitionLoop (n : ℕ) (key : β → α) (pivot : α) (a : ℕ → β) (i j : ℕ) :
    Option ((ℕ → β) × ℕ × ℕ) := do
  let i' ← scanUp n key pivot a i
  let j' ← scanDown n key pivot a j
  if i' ≤ j' then
    let a' ← swapM n a i' j'
    if j' - 1 < i' + 1 then some (a', i' + 1, j' - 1) else partitionLoop n key pivot a' (i' + 1) (j' - 1)
  else
    if j' < i' then some (a, i', j') else partitionLoop n key pivot a i' j'
partial_fixpoint

/-- mann_kendall_core.f90:113-149 `quicksort_real` (threshold 32) and 210-247 `quicksort_index`
(threshold 16). -/
def quicksort (thr n : ℕ) (key : β → α) (a : ℕ → β) (left right : ℕ) : Option (ℕ → β) :=
  if right - left ≤ thr then some a
  else do
    let p ← rd n a (left + (right - left) / 2)
    let r ← partitionLoop n key (key p) a left right
    let a2 ← (if left < r.2.2 then quicksort thr n key r.1 left r.2.2 else some r.1)
    if r.2.1 < right then quicksort thr n key a2 r.2.1 right else some a2
partial_fixpoint

/-- mann_kendall_core.f90:158-164 `sort_real_inplace`; `n = size(values)`. -/
def sortRealInplace (n : ℕ) (a : ℕ → α) : Option (ℕ → α) :=
  if n ≤ 1 then some a
  else do
    let a1 ← quicksort 32 n id a 1 n
    insertionSort n id a1 1 n

/-- mann_kendall_core.f90:261-275 `sort_indices_by_values`; the index buffer is filled with `1..n` first. -/
def sortIndicesByValues (values : ℕ → α) (n : ℕ) : Option (ℕ → ℕ) :=
  let indices : ℕ → ℕ := fun i => i
  if n ≤ 1 then some indices
  else do
    let a1 ← quicksort 16 n values indices 1 n
    insertionSort n values a1 1 n

/-- mann_kendall_core.f90:303-337: outer loop of `select_kth_real`, state `(values, left, right)`. -/
def selectLoop (n k : ℕ) (a : ℕ → α) (left right : ℕ) : Option (ℕ → α) :=
  if 16 < right - left then do
    let p1 ← rd n a left
    let p2 ← rd n a (left + (right - left) / 2)
    let p3 ← rd n a right
    let r ← partitionLoop n id (medianOfThree p1 p2 p3) a left right
    if k ≤ r.2.2 then selectLoop n k r.1 left r.2.2
    else if r.2.1 ≤ k then selectLoop n k r.1 r.2.1 right
    else some r.1
  else insertionSort n id a left right
partial_fixpoint

/-- mann_kendall_core.f90:292-338 `select_kth_real`; `n = size(values)`. -/
def selectKth (n : ℕ) (a : ℕ → α) (k : ℕ) : Option (ℕ → α) := selectLoop n k a 1 n

end Skyborn.MK
