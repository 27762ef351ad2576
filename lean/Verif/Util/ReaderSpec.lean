import Verif.Basic

/-! Specification: LEB128 as defined by the DWARF standard (§7.6), independent of the model. -/

set_option autoImplicit false

namespace Blazesym.Spec

/-- Unsigned LEB128: seven bits per byte, least significant group first, top bit set on
all but the last byte. -/
def uleb (n : Nat) : Bytes :=
  if n < 128 then [UInt8.ofNat n]
  else UInt8.ofNat (n % 128 + 128) :: uleb (n / 128)
termination_by n
decreasing_by omega

/-- Signed LEB128: like the unsigned one on the two's complement representation, ending
once the remaining bits are all equal to the sign bit (bit 6) of the last byte. -/
def sleb (z : Int) : Bytes :=
  let b := (z % 128).toNat
  if (z / 128 = 0 ∧ b < 64) ∨ (z / 128 = -1 ∧ 64 ≤ b) then [UInt8.ofNat b]
  else UInt8.ofNat (b + 128) :: sleb (z / 128)
termination_by z.natAbs
decreasing_by omega

/-- The number denoted by LEB128 groups: the low seven bits of each byte, base 128. -/
def groups : Bytes → Nat
  | [] => 0
  | b :: t => b.toNat % 128 + 128 * groups t

end Blazesym.Spec
