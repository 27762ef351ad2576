import Verif.Util.LayoutSpec
import Verif.Elf.Symtab

/-! Specification vocabulary for ELF symbol lookup: written against the ELF format, not
against the lookup code. -/

set_option autoImplicit false

namespace Blazesym.Spec.Elf
open Blazesym.Elf

/-- The ELF symbol type (low four bits of `st_info`) is one of `STT_NOTYPE`, `STT_OBJECT`,
`STT_FUNC`, `STT_GNU_IFUNC`. -/
def Supported (s : Sym) : Prop :=
  s.info % 16 = 0 ∨ s.info % 16 = 1 ∨ s.info % 16 = 2 ∨ s.info % 16 = 10

/-- The symbol is of the requested kind; untyped symbols (`STT_NOTYPE`) may be anything. -/
def HasKind (s : Sym) : SymType → Prop
  | .undefined => Supported s
  | .function => s.info % 16 = 0 ∨ s.info % 16 = 2 ∨ s.info % 16 = 10
  | .variable => s.info % 16 = 0 ∨ s.info % 16 = 1

/-- The symbol is defined in this file (`st_shndx ≠ SHN_UNDEF`). -/
def Defined (s : Sym) : Prop := s.shndx ≠ 0

/-- The symbol covers the address.  A size of zero means "unknown": in `.symtab` it covers
everything from its start, in `.dynsym` its start only. -/
def Covers (table : Table) (s : Sym) (addr : Nat) : Prop :=
  s.value ≤ addr ∧
    (if s.size = 0 then table = .symtab ∨ addr = s.value else addr < s.value + s.size)

/-- No symbol of a supported type ends beyond the 64 bit address space. -/
def NoWrap (syms : List Sym) : Prop := ∀ s ∈ syms, Supported s → s.value + s.size < 2 ^ 64

/-- `k` is the greatest start address of a symbol of supported type not above `addr`. -/
def NearestStart (syms : List Sym) (addr k : Nat) : Prop :=
  k ≤ addr ∧ (∃ s ∈ syms, Supported s ∧ s.value = k) ∧
    ∀ s ∈ syms, Supported s → s.value ≤ addr → s.value ≤ k

end Blazesym.Spec.Elf
