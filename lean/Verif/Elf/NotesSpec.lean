import Verif.Elf.ImageSpec

/-! Specification of ELF notes and of the `.gnu_debuglink` section, as the formats define
them. -/

set_option autoImplicit false

namespace Blazesym.Spec.Elf

/-- Number of padding bytes after `n` bytes for 4 byte alignment. -/
def pad4 (n : Nat) : Nat := (4 - n % 4) % 4

/-- `d` starts with a note of the given type, owner name and descriptor; `tail` is what
follows the descriptor.  A note is a 12 byte header (name size, descriptor size, type), the
name padded to 4 bytes, the descriptor. -/
def NoteHead (d : Bytes) (type : Nat) (name desc tail : Bytes) : Prop :=
  ∃ hdr pad, d = hdr ++ name ++ pad ++ desc ++ tail ∧ hdr.length = 12 ∧
    Num hdr 0 4 name.length ∧ Num hdr 4 4 desc.length ∧ Num hdr 8 4 type ∧
    pad.length = pad4 name.length

/-- `d` is a sequence of notes, given by type, name and descriptor, followed by `rest`. -/
inductive Notes : Bytes → List (Nat × Bytes × Bytes) → Bytes → Prop where
  | nil (d : Bytes) : Notes d [] d
  | cons (d : Bytes) (type : Nat) (name desc pad d' rest : Bytes) (ns : List (Nat × Bytes × Bytes)) :
      NoteHead d type name desc (pad ++ d') → pad.length = pad4 desc.length → Notes d' ns rest →
      Notes d ((type, name, desc) :: ns) rest

/-- What a result for a note section says: the descriptor of the first note of type 3
(`NT_GNU_BUILD_ID`), or none if there is no such note up to the end. -/
def Justified (d : Bytes) : Option Bytes → Prop
  | some id => ∃ ns rest name tail, Notes d ns rest ∧ (∀ n ∈ ns, n.1 ≠ 3) ∧ NoteHead rest 3 name id tail
  | none => ∃ ns rest, Notes d ns rest ∧ (∀ n ∈ ns, n.1 ≠ 3) ∧ rest.length < 12

/-- The contents of a debug link section: file name, NUL, padding to a multiple of 4 from the
start of the section, 4 byte checksum. -/
def DebugLink (d : Bytes) (file : Bytes) (crc : Nat) : Prop :=
  ∃ pad sum rest, d = file ++ [0] ++ pad ++ sum ++ rest ∧ (∀ b ∈ file, b ≠ 0) ∧
    pad.length = pad4 (file.length + 1) ∧ sum.length = 4 ∧ crc = le sum

end Blazesym.Spec.Elf
