import Verif.Basic

/-! Specification vocabulary for binary formats: what is stored where in a byte string. -/

set_option autoImplicit false

namespace Blazesym.Spec

/-- `s` is the part of `d` of length `n` that starts at offset `off`. -/
def IsSlice (d : Bytes) (off n : Nat) (s : Bytes) : Prop :=
  ∃ pre post, d = pre ++ s ++ post ∧ pre.length = off ∧ s.length = n

/-- Little endian number. -/
def le : Bytes → Nat
  | [] => 0
  | b :: t => b.toNat + 256 * le t

/-- The little endian number of `w` bytes at offset `off` of `d` is `v`. -/
def Num (d : Bytes) (off w v : Nat) : Prop := ∃ s, IsSlice d off w s ∧ v = le s

/-- `name` is the NUL terminated string at offset `off` of a string table. -/
def NameAt (strs : Bytes) (off : Nat) (name : Bytes) : Prop :=
  ∃ rest, strs.drop off = name ++ 0 :: rest ∧ ∀ b ∈ name, b ≠ 0

end Blazesym.Spec
