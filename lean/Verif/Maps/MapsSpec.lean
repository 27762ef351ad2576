import Verif.Util.BytesSpec

/-!
Specification of `/proc/<pid>/maps` (proc(5)): one line per mapping,
`start-end perms offset dev inode` and, if the mapping has a name, blanks and the name.
-/

set_option autoImplicit false

namespace Blazesym.Spec.Maps

/-- Blank characters: space, tab, line feed, form feed, carriage return. -/
def Blank (b : UInt8) : Prop := b = 32 ∨ b = 9 ∨ b = 10 ∨ b = 12 ∨ b = 13

instance (b : UInt8) : Decidable (Blank b) := inferInstanceAs (Decidable (_ ∨ _))

/-- `s` is `n` in hexadecimal, of any number of digits. -/
def HexOf (s : Bytes) (n : Nat) : Prop := (∀ c ∈ s, IsDigit 16 c) ∧ numVal 16 s = n

/-- The permission field `rwxp` of a mapping. -/
def permField (r w x shared : Bool) : Bytes :=
  [if r then 114 else 45, if w then 119 else 45, if x then 120 else 45, if shared then 115 else 112]

/-- What the kernel knows about a mapping. -/
structure Vma where
  start : Nat
  stop : Nat
  r : Bool
  w : Bool
  x : Bool
  shared : Bool
  offset : Nat
  name : Bytes

/-- `line` is what the kernel prints for the mapping: the numbers in hexadecimal, device and
inode in some form without blanks, the name after any number of spaces, a newline.  Without
name the line may end after the inode. -/
def Printed (v : Vma) (line : Bytes) : Prop :=
  ∃ s e o dev ino : Bytes, ∃ pad : Nat,
    HexOf s v.start ∧ HexOf e v.stop ∧ HexOf o v.offset ∧
    (∀ b ∈ dev, ¬ Blank b) ∧ (∀ b ∈ ino, ¬ Blank b) ∧
    line = s ++ [45] ++ e ++ [32] ++ permField v.r v.w v.x v.shared ++ [32] ++ o ++ [32] ++ dev ++
      [32] ++ ino ++ [32] ++ List.replicate pad 32 ++ v.name ++ [10]

end Blazesym.Spec.Maps
