import Verif.Basic

/-! Specification vocabulary for textual numbers (independent of the model). -/

set_option autoImplicit false

namespace Blazesym.Spec

/-- Value of a digit character in bases up to 36 (`char::to_digit`). -/
def digitVal (c : UInt8) : Nat :=
  if 48 ≤ c.toNat ∧ c.toNat ≤ 57 then c.toNat - 48
  else if 97 ≤ c.toNat ∧ c.toNat ≤ 122 then c.toNat - 97 + 10
  else if 65 ≤ c.toNat ∧ c.toNat ≤ 90 then c.toNat - 65 + 10
  else 1000

/-- `c` is a digit in base `base`. -/
def IsDigit (base : Nat) (c : UInt8) : Prop := digitVal c < base

instance (base : Nat) (c : UInt8) : Decidable (IsDigit base c) :=
  inferInstanceAs (Decidable (_ < _))

/-- The number written by a digit string, most significant digit first. -/
def numVal (base : Nat) (s : Bytes) : Nat := s.foldl (fun acc c => acc * base + digitVal c) 0

end Blazesym.Spec
