import Verif.CApi.ConvertSpec
import Verif.CApi.Input

/-! # What input structures mean -/

set_option autoImplicit false

namespace Blazesym.CApi

open Blazesym.Symbolize

/-- The members of the structures in the C header as pairs of size and alignment; the last one is
`reserved`. -/
def members : InputType → List (Nat × Nat)
  | .cacheElf => [(8, 8), (8, 8), (16, 1)]
  | .cacheProcess => [(8, 8), (4, 4), (1, 1), (19, 1)]
  | .srcElf => [(8, 8), (8, 8), (1, 1), (23, 1)]
  | .srcKernel => [(8, 8), (8, 8), (8, 8), (1, 1), (23, 1)]
  | .srcProcess => [(8, 8), (4, 4), (1, 1), (1, 1), (1, 1), (1, 1), (16, 1)]
  | .srcGsymData => [(8, 8), (8, 8), (8, 8), (16, 1)]
  | .srcGsymFile => [(8, 8), (8, 8), (16, 1)]
  | .symbolizerOpts => [(8, 8), (8, 8), (8, 8), (1, 1), (1, 1), (1, 1), (1, 1), (4, 1), (8, 8), (8, 1)]
  | .normalizerOpts => [(8, 8), (1, 1), (1, 1), (1, 1), (1, 1), (20, 1)]
  | .normalizeOpts => [(8, 8), (1, 1), (1, 1), (1, 1), (21, 1)]
  | .inspectElf => [(8, 8), (8, 8), (1, 1), (23, 1)]

/-- The offsets of the members of a C structure: each is put at the next multiple of its alignment. -/
def offsets (start : Nat) : List (Nat × Nat) → List Nat
  | [] => []
  | (size, align) :: rest =>
    let off := (start + align - 1) / align * align
    off :: offsets (off + size) rest

/-- The size of a C structure with alignment 8. -/
def structSize (start : Nat) : List (Nat × Nat) → Nat
  | [] => (start + 7) / 8 * 8
  | (size, align) :: rest => structSize ((start + align - 1) / align * align + size) rest

/-- Where the `reserved` member is. -/
def reservedOffset (type : InputType) : Nat := (offsets 0 (members type)).getLastD 0

/-- The `n` bytes from `p` can be read. -/
def Readable (m : Mem) (p n : Nat) : Prop := ∀ (i : Nat), i < n → (m (p + i)).isSome

/-- There is an input structure of `n` bytes at `p`, which says so. -/
structure Struct (m : Mem) (p n : Nat) : Prop where
  aligned : p % 8 = 0
  size : NumAt m p 8 n
  readable : Readable m p n

/-- A structure of `n` bytes at `p`, continued with zeros. -/
def view (m : Mem) (p n : Nat) : Mem := fun i => if i < n then m (p + i) else some 0

/-- A structure is acceptable to the library if it holds at least its own size, and what this version of
the library doesn't know, or reserves, is zero. -/
def Acceptable (type : InputType) (m : Mem) (p n : Nat) : Prop :=
  8 ≤ n ∧ ∀ (i : Nat), reservedOffset type ≤ i → i < n → m (p + i) = some 0

/-- A `bool` member. -/
def BoolAt (m : Mem) (a : Nat) (b : Bool) : Prop := NumAt m a 1 (if b then 1 else 0)

/-- There is a C string at `a`. -/
def CStrAt (m : Mem) (a : Nat) (s : Bytes) : Prop := Holds m a (s ++ [0]) ∧ 0 ∉ s ∧ a + s.length < 2 ^ 64

/-- An array of numbers of `k` bytes. -/
def NumsAt (m : Mem) (a k : Nat) : List Nat → Prop
  | [] => True
  | x :: xs => NumAt m a k x ∧ NumsAt m (a + k) k xs

/-- What a path of the kernel source stands for: `NULL` the default, the empty string nothing. -/
def PathAt (m : Mem) (a : Nat) : Kernel.MaybeDefault Bytes → Prop
  | .default => a = 0
  | .none => a ≠ 0 ∧ CStrAt m a []
  | .some s => a ≠ 0 ∧ s ≠ [] ∧ CStrAt m a s

end Blazesym.CApi
