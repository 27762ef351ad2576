import Verif.Util.Reader

/-! # Model of the small byte helpers of `src/util.rs` -/

set_option autoImplicit false

namespace Blazesym.Util

/-- `src/util.rs:89-104` (`def_align_up!`) for a type with `size` values; `align_to` is a
power of two (a `debug_assert` otherwise).  `& !(align_to - 1)` clears the bits below
`align_to`; for a power of two that is rounding down to a multiple. -/
def alignUp (size value alignTo : Nat) : Except Err Nat :=
  if value + (alignTo - 1) < size then
    .ok ((value + (alignTo - 1)) - (value + (alignTo - 1)) % alignTo)
  else .error .panic

/-- `src/util.rs:113-120` (`split_bytes`). -/
def splitBytes (bytes : Bytes) (check : UInt8 → Bool) : Option (Bytes × Bytes) :=
  match position check bytes with
  | none => none
  | some idx => some (bytes.take idx, (bytes.drop idx).drop 1)

/-- `src/util.rs:127-133` (`split_once`). -/
def splitOnce (bytes : Bytes) (pred : UInt8 → Bool) : Option (Bytes × Bytes) :=
  match position pred bytes with
  | none => none
  | some idx => some (bytes.take idx, bytes.drop (idx + 1))

/-- `src/util.rs:136-156` (`ascii_to_hexdigit`). -/
def asciiToHexdigit (c : UInt8) : Option Nat :=
  match c.toNat with
  | 48 => some 0
  | 49 => some 1
  | 50 => some 2
  | 51 => some 3
  | 52 => some 4
  | 53 => some 5
  | 54 => some 6
  | 55 => some 7
  | 56 => some 8
  | 57 => some 9
  | 97 | 65 => some 10
  | 98 | 66 => some 11
  | 99 | 67 => some 12
  | 100 | 68 => some 13
  | 101 | 69 => some 14
  | 102 | 70 => some 15
  | _ => none

/-- The loop of `src/util.rs:158-168` (`from_radix_16`).  `number *= 16; number += digit`
panic on overflow in a build with overflow checks.  `Fail.none` is `None`. -/
def fromRadix16Loop : Bytes → Nat → Except Fail Nat
  | [], number => .ok number
  | c :: t, number =>
    match asciiToHexdigit c with
    | none => .error .none
    | some digit =>
      if number * 16 + digit < u64Size then fromRadix16Loop t (number * 16 + digit)
      else .error .panic

/-- `src/util.rs:158-168` (`from_radix_16`). -/
def fromRadix16 (text : Bytes) : Except Fail Nat := fromRadix16Loop text 0

end Blazesym.Util
