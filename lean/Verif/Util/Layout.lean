import Verif.Util.Reader

/-! # Plain data in byte strings -/

set_option autoImplicit false

namespace Blazesym.Util

/-- A little endian integer field of a `repr(C)` structure, as laid out by the compiler for
the `Pod` types of `src/elf/types.rs`, `src/gsym/types.rs` and `src/zip.rs`. -/
def field (b : Bytes) (off size : Nat) : Nat := leValue ((b.drop off).take size)

/-- Reinterpreting a byte string as `count` records of `size` bytes (`src/util.rs:488-504`,
`read_pod_slice_ref`). -/
def records {α : Type} (decode : Bytes → α) (size : Nat) : Nat → Bytes → List α
  | 0, _ => []
  | n + 1, b => decode (b.take size) :: records decode size n (b.drop size)

end Blazesym.Util
