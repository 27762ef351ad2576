import Verif.Session.AnswerSpec

/-! Places in ELF files, by their offset in the file and by the virtual address they are loaded at. -/

set_option autoImplicit false

namespace Blazesym.Spec.Places

/-- What is at an offset in a file with these segments is loaded at a virtual address. -/
def LoadedAt (phdrs : List Elf.Phdr) (off addr : Nat) : Prop :=
  ∃ p, Spec.Elf.FirstInFile phdrs off p ∧ addr = p.vaddr + (off - p.offset)

end Blazesym.Spec.Places
