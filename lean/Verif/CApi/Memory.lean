import Verif.Basic

/-!
# Model of raw memory, for the C interface

Memory is byte-addressed; a byte is `none` until it is written.  A heap is one allocation.  Writing
outside the allocation or through a misaligned pointer is undefined behaviour: it is a `Fault` here.
-/

set_option autoImplicit false

namespace Blazesym.CApi

/-- The content of memory. -/
abbrev Mem := Nat → Option UInt8

/-- What must never happen: undefined behaviour, and the ways a program is aborted. -/
inductive Fault where
  | outOfBounds
  | misaligned
  | badLayout
  | badValue
  | abort
  | outOfMemory
  deriving DecidableEq, Repr

/-- One allocation of `size` bytes at address `base`, and the content of memory. -/
structure Heap where
  base : Nat
  size : Nat
  mem : Mem

/-- Memory after writing `bs` at address `a`. -/
def Mem.set (m : Mem) (a : Nat) (bs : Bytes) : Mem :=
  fun x => if a ≤ x ∧ x < a + bs.length then bs[x - a]? else m x

/-- Little endian representation of a number in `k` bytes. -/
def leBytes : Nat → Nat → Bytes
  | 0, _ => []
  | k + 1, n => UInt8.ofNat (n % 256) :: leBytes k (n / 256)

/-- Writing bytes through a raw pointer into the allocation. -/
def Heap.store (h : Heap) (a : Nat) (bs : Bytes) : Except Fault Heap :=
  if h.base ≤ a ∧ a + bs.length ≤ h.base + h.size then .ok { h with mem := h.mem.set a bs }
  else .error .outOfBounds

/-- Writing an integer or pointer of `k` bytes through an aligned pointer. -/
def Heap.storeNum (h : Heap) (a k n : Nat) : Except Fault Heap :=
  if a % k ≠ 0 then .error .misaligned else h.store a (leBytes k n)

/-- `unsafe { &mut *ptr }` for an object of `size` bytes with alignment 8: the pointer must be aligned
and the object within the allocation. -/
def Heap.refMut (h : Heap) (a size : Nat) : Except Fault Unit :=
  if a % 8 ≠ 0 then .error .misaligned
  else if h.base ≤ a ∧ a + size ≤ h.base + h.size then .ok ()
  else .error .outOfBounds

/-- `alloc(Layout::from_size_align(size, 8).unwrap())`: a size that exceeds `isize::MAX` when rounded up
is refused with a panic.  The allocator is arbitrary: it may fail, and the memory it returns is not
initialised. -/
def allocate (alloc : Nat → Option Nat) (size : Nat) : Except Fault (Option Heap) :=
  if size > 9223372036854775807 - 7 then .error .badLayout
  else .ok ((alloc size).map fun base => { base, size, mem := fun _ => none })

end Blazesym.CApi
