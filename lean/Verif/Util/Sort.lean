import Verif.Basic

/-!
# Sorting and text validity as provided by the standard library

`slice::sort_unstable_by*` promises a sorted permutation of its input and leaves the order
of equal elements open.  The model is parameterised by an arbitrary sorting function with
that contract, so that theorems hold for every order of equal elements.
-/

set_option autoImplicit false

namespace Blazesym

/-- Some implementation of `slice::sort_unstable_by` (standard library contract). -/
structure Sorter where
  /-- The sorted slice, given a "less than or equal" test. -/
  sort : {α : Type} → (α → α → Bool) → List α → List α
  /-- The result is a permutation of the input. -/
  perm : ∀ {α : Type} (le : α → α → Bool) (l : List α), (sort le l).Perm l
  /-- The result is sorted if the comparison is a total preorder. -/
  sorted : ∀ {α : Type} (le : α → α → Bool), (∀ a b c, le a b → le b c → le a c) →
    (∀ a b, le a b || le b a) → ∀ l, (sort le l).Pairwise (fun a b => le a b = true)

/-- There is such an implementation. -/
def mergeSorter : Sorter where
  sort le l := l.mergeSort le
  perm le l := List.mergeSort_perm l le
  sorted _ htrans htotal l := List.pairwise_mergeSort htrans htotal l

/-- `core::str::from_utf8` succeeds (standard library): the bytes are the UTF-8 encoding
of some sequence of characters. -/
def isUtf8 (b : Bytes) : Bool := ByteArray.validateUTF8 ⟨b.toArray⟩

theorem isUtf8_iff (b : Bytes) : isUtf8 b = true ↔ ∃ cs : List Char, cs.utf8Encode = ⟨b.toArray⟩ := by
  unfold isUtf8
  rw [ByteArray.validateUTF8_eq_true_iff]
  constructor
  · rintro ⟨m, h⟩; exact ⟨m, h.symm⟩
  · rintro ⟨m, h⟩; exact ⟨m, h.symm⟩

end Blazesym
