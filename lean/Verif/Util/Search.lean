import Verif.Basic
import Mathlib.Order.Defs.LinearOrder

/-!
# Model of the search helpers of `src/util.rs`

`slice::partition_point` and `slice::binary_search_by` are modelled by the algorithm of
the standard library (a bisection over `[base, base+size)`); the theorems about them
use their documented contract only.
-/

set_option autoImplicit false

namespace Blazesym.Util

universe u v w

/-- The bisection loop of `core::slice::binary_search_by`: `while size > 1`. -/
def bisect (cmp : Nat → Ordering) (base size : Nat) : Nat :=
  if size ≤ 1 then base
  else
    let half := size / 2
    let mid := base + half
    bisect cmp (if cmp mid = .gt then base else mid) (size - half)
termination_by size
decreasing_by omega

/-- Comparison of the `i`-th element (the standard library indexes in bounds only; out of
bounds is never asked for, see `bisect_range`). -/
def cmpAt {α : Type u} (l : List α) (cmp : α → Ordering) (i : Nat) : Ordering :=
  match l[i]? with
  | some e => cmp e
  | none => .gt

/-- `core::slice::binary_search_by`.  `Sum.inl i` is `Ok(i)`, `Sum.inr i` is `Err(i)`. -/
def binarySearchBy {α : Type u} (l : List α) (cmp : α → Ordering) : Sum Nat Nat :=
  match l with
  | [] => .inr 0
  | _ :: _ =>
    let base := bisect (cmpAt l cmp) 0 l.length
    match cmpAt l cmp base with
    | .eq => .inl base
    | .lt => .inr (base + 1)
    | .gt => .inr base

/-- `core::slice::partition_point`. -/
def partitionPoint {α : Type u} (l : List α) (pred : α → Bool) : Nat :=
  match binarySearchBy l (fun e => if pred e then .lt else .gt) with
  | .inl i => i
  | .inr i => i

/-- `src/util.rs:324-335` (`find_lowest_match_by`). -/
def findLowestMatchBy {α : Type u} (l : List α) (f : α → Ordering) : Option Nat :=
  let idx := partitionPoint l (fun e => f e == .lt)
  match l[idx]? with
  | some e => if f e == .eq then some idx else none
  | none => none

/-- `src/util.rs:337-343` (`find_lowest_match_by_key`). -/
def findLowestMatchByKey {α : Type u} {κ : Type v} [LinearOrder κ]
    (l : List α) (b : κ) (f : α → κ) : Option Nat :=
  findLowestMatchBy l (fun k => compare (f k) b)

/-- The loop `for i in (0..idx).rev()` of `src/util.rs:382-388`.  `some r` means the
function returned `r` from inside the loop, `none` that the loop ran to completion. -/
def scanBack {α : Type u} {κ : Type v} [LinearOrder κ]
    (l : List α) (f : α → κ) (cmpE : κ) : Nat → Option (Option Nat)
  | 0 => none
  | i + 1 =>
    match l[i]? with
    | none => some none
    | some e => if f e ≠ cmpE then some (some (i + 1)) else scanBack l f cmpE i

/-- The test of `src/util.rs:368-374`: the element at `idx` exists and its key is `item`. -/
def keyAtIs {α : Type u} {κ : Type v} [LinearOrder κ] (l : List α) (f : α → κ) (item : κ)
    (idx : Nat) : Bool :=
  match l[idx]? with
  | some e => decide (f e = item)
  | none => false

/-- `src/util.rs:355-390` (`find_match_or_lower_bound_by_key`). -/
def findMatchOrLowerBoundByKey {α : Type u} {κ : Type v} [LinearOrder κ]
    (l : List α) (item : κ) (f : α → κ) : Option Nat :=
  let idx := partitionPoint l (fun e => decide (f e < item))
  if keyAtIs l f item idx then some idx
  else
    match idx with
    | 0 => none
    | idx + 1 =>
      match l[idx]? with
      | none => none
      | some e =>
        match scanBack l f (f e) idx with
        | some r => r
        | none => some idx

end Blazesym.Util
