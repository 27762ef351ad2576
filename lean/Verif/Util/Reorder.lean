import Verif.Basic
import Mathlib.Data.Prod.Lex

/-!
# Model of `reorder` and `with_ordered_elems` of `src/util.rs`

The `while` loop of `reorder` does not terminate for arbitrary index vectors, so the
model runs it with a step budget and reports `Outcome.diverged` if it is exhausted.  The
theorems show that for the index vectors that occur the budget of `array.len()` steps per
outer iteration is never exhausted.
-/

set_option autoImplicit false

namespace Blazesym.Util

universe u v w

/-- Result of running the loop. -/
inductive Outcome (α : Type u) where
  | done (a : α)
  | panicked
  | diverged

/-- `slice::swap`: panics if an index is out of range (`none`). -/
def swapAt {α : Type u} (l : List α) (i j : Nat) : Option (List α) :=
  match l[i]?, l[j]? with
  | some a, some b => some ((l.set i b).set j a)
  | _, _ => none

/-- The loop `while indices[i].1 != i` of `src/util.rs:241-245`. -/
def reorderInner {α : Type u} {U : Type v} (i : Nat) :
    Nat → List α → List (U × Nat) → Outcome (List α × List (U × Nat))
  | 0, _, _ => .diverged
  | fuel + 1, array, indices =>
    match indices[i]? with
    | none => .panicked
    | some (_, idx) =>
      if idx ≠ i then
        match swapAt array i idx, swapAt indices i idx with
        | some array', some indices' => reorderInner i fuel array' indices'
        | _, _ => .panicked
      else .done (array, indices)

/-- The loop `for i in 0..array.len()` of `src/util.rs:240-246`, for the positions `is`. -/
def reorderOuter {α : Type u} {U : Type v} (fuel : Nat) :
    List Nat → List α → List (U × Nat) → Outcome (List α)
  | [], array, _ => .done array
  | i :: is, array, indices =>
    match reorderInner i fuel array indices with
    | .done (array', indices') => reorderOuter fuel is array' indices'
    | .panicked => .panicked
    | .diverged => .diverged

/-- `src/util.rs:234-247` (`reorder`); the `debug_assert_eq!` on the lengths is a panic. -/
def reorder {α : Type u} {U : Type v} (fuel : Nat) (array : List α) (indices : List (U × Nat)) :
    Outcome (List α) :=
  if array.length ≠ indices.length then .panicked
  else reorderOuter fuel (List.range array.length) array indices

/-- Sorting `(element, index)` pairs in tuple order (`sort_unstable` at
`src/util.rs:269`; the pairs are distinct so stability is immaterial). -/
def sortWithIdx (slice : List Nat) : List (Nat × Nat) :=
  (slice.zipIdx).mergeSort (fun a b => decide (a.1 < b.1 ∨ (a.1 = b.1 ∧ a.2 ≤ b.2)))

/-- Outcome of `with_ordered_elems`. -/
inductive OrderedResult (E : Type u) (R : Type v) (U : Type w) where
  | ok (rest : R) (outs : List U)
  | err (e : E)
  | panicked
  | diverged

/-- `src/util.rs:254-274` (`with_ordered_elems`) for elements of type `u64`.  The result
type of `handle` is split into the slice that `extract` selects (`List U`) and the rest
(`R`). -/
def withOrderedElems {E : Type u} {R : Type v} {U : Type w} (slice : List Nat)
    (handle : List Nat → Except E (R × List U)) : OrderedResult E R U :=
  let vec := sortWithIdx slice
  match handle (vec.map Prod.fst) with
  | .error e => .err e
  | .ok (rest, outs) =>
    match reorder (slice.length + 1) outs vec with
    | .done outs' => .ok rest outs'
    | .panicked => .panicked
    | .diverged => .diverged

end Blazesym.Util
