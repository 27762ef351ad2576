import Verif.Util.Sort

/-! # Model of the ELF data types of `src/elf/types.rs` (in their 64 bit form) -/

set_option autoImplicit false

namespace Blazesym.Elf

/-- `src/lib.rs:104-116` (`SymType`). -/
inductive SymType where
  | undefined
  | function
  | variable
  deriving DecidableEq, Repr

/-- `src/elf/types.rs:526-533` (`Elf64_Sym`); `Elf32_Sym` (`:495-502`) is widened to it (`:583-594`). -/
structure Sym where
  name : Nat
  info : Nat
  other : Nat
  shndx : Nat
  value : Nat
  size : Nat
  deriving DecidableEq, Repr

/-- `src/elf/types.rs:348-359` (`Elf64_Shdr`). -/
structure Shdr where
  name : Nat
  type : Nat
  flags : Nat
  addr : Nat
  offset : Nat
  size : Nat
  link : Nat
  info : Nat
  addralign : Nat
  entsize : Nat
  deriving DecidableEq, Repr

/-- `src/elf/types.rs:259-268` (`Elf64_Phdr`). -/
structure Phdr where
  type : Nat
  flags : Nat
  offset : Nat
  vaddr : Nat
  paddr : Nat
  filesz : Nat
  memsz : Nat
  align : Nat
  deriving DecidableEq, Repr

/-! `src/elf/types.rs:24-30, 236-238, 324, 463-478` (constants). -/

def SHN_UNDEF : Nat := 0
def SHN_LORESERVE : Nat := 0xff00
def SHN_ABS : Nat := 0xfff1
def SHN_XINDEX : Nat := 0xffff
def SHT_RELA : Nat := 4
def SHT_NOTE : Nat := 7
def SHT_NOBITS : Nat := 8
def SHT_REL : Nat := 9
def SHF_COMPRESSED : Nat := 0x800
def STT_NOTYPE : Nat := 0
def STT_OBJECT : Nat := 1
def STT_FUNC : Nat := 2
def STT_GNU_IFUNC : Nat := 10
def PT_LOAD : Nat := 1
def PT_NOTE : Nat := 4
def PN_XNUM : Nat := 0xffff
def ELFCLASS32 : Nat := 1
def ELFCLASS64 : Nat := 2
def ET_REL : Nat := 1

/-- `src/elf/types.rs:508-510, 539-541` (`type_`). -/
def Sym.type (s : Sym) : Nat := s.info &&& 0xf

/-- `src/elf/types.rs:481-490` (`elf_type_matches`). -/
def elfTypeMatches (elfTy : Nat) (type : SymType) : Bool :=
  let isFunc := elfTy == STT_FUNC || elfTy == STT_GNU_IFUNC || elfTy == STT_NOTYPE
  let isVar := elfTy == STT_OBJECT || elfTy == STT_NOTYPE
  match type with
  | .undefined => isFunc || isVar
  | .function => isFunc
  | .variable => isVar

/-- `src/elf/types.rs:515-517, 546-548` (`matches`). -/
def Sym.matches (s : Sym) (type : SymType) : Bool := elfTypeMatches s.type type

/-- `src/elf/types.rs:553-560` (`try_from_elf_type`). -/
def tryFromElfType (elfTy : Nat) : Option SymType :=
  if elfTy = STT_NOTYPE then some .undefined
  else if elfTy = STT_FUNC ∨ elfTy = STT_GNU_IFUNC then some .function
  else if elfTy = STT_OBJECT then some .variable
  else none

end Blazesym.Elf
