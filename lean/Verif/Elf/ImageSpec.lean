import Verif.Elf.Image
import Verif.Util.LayoutSpec

/-! Specification vocabulary for ELF parsing: where the ELF format stores what, in terms of
byte positions of the file. -/

set_option autoImplicit false

namespace Blazesym.Spec.Elf
open Blazesym.Elf

/-- Section header table entry of an ELF file at offset `o`. -/
def ShdrAt (bit32 : Bool) (d : Bytes) (o : Nat) (s : Shdr) : Prop :=
  if bit32 then
    Num d o 4 s.name ∧ Num d (o + 4) 4 s.type ∧ Num d (o + 8) 4 s.flags ∧ Num d (o + 12) 4 s.addr ∧
    Num d (o + 16) 4 s.offset ∧ Num d (o + 20) 4 s.size ∧ Num d (o + 24) 4 s.link ∧
    Num d (o + 28) 4 s.info ∧ Num d (o + 32) 4 s.addralign ∧ Num d (o + 36) 4 s.entsize
  else
    Num d o 4 s.name ∧ Num d (o + 4) 4 s.type ∧ Num d (o + 8) 8 s.flags ∧ Num d (o + 16) 8 s.addr ∧
    Num d (o + 24) 8 s.offset ∧ Num d (o + 32) 8 s.size ∧ Num d (o + 40) 4 s.link ∧
    Num d (o + 44) 4 s.info ∧ Num d (o + 48) 8 s.addralign ∧ Num d (o + 56) 8 s.entsize

/-- Program header table entry of an ELF file at offset `o`. -/
def PhdrAt (bit32 : Bool) (d : Bytes) (o : Nat) (p : Phdr) : Prop :=
  if bit32 then
    Num d o 4 p.type ∧ Num d (o + 4) 4 p.offset ∧ Num d (o + 8) 4 p.vaddr ∧ Num d (o + 12) 4 p.paddr ∧
    Num d (o + 16) 4 p.filesz ∧ Num d (o + 20) 4 p.memsz ∧ Num d (o + 24) 4 p.flags ∧
    Num d (o + 28) 4 p.align
  else
    Num d o 4 p.type ∧ Num d (o + 4) 4 p.flags ∧ Num d (o + 8) 8 p.offset ∧ Num d (o + 16) 8 p.vaddr ∧
    Num d (o + 24) 8 p.paddr ∧ Num d (o + 32) 8 p.filesz ∧ Num d (o + 40) 8 p.memsz ∧
    Num d (o + 48) 8 p.align

/-- Symbol table entry of an ELF file at offset `o`. -/
def SymAt (bit32 : Bool) (d : Bytes) (o : Nat) (s : Sym) : Prop :=
  if bit32 then
    Num d o 4 s.name ∧ Num d (o + 4) 4 s.value ∧ Num d (o + 8) 4 s.size ∧ Num d (o + 12) 1 s.info ∧
    Num d (o + 13) 1 s.other ∧ Num d (o + 14) 2 s.shndx
  else
    Num d o 4 s.name ∧ Num d (o + 4) 1 s.info ∧ Num d (o + 5) 1 s.other ∧ Num d (o + 6) 2 s.shndx ∧
    Num d (o + 8) 8 s.value ∧ Num d (o + 16) 8 s.size

/-- The ELF file header: magic, class and the members used. -/
def EhdrAt (d : Bytes) (h : Ehdr) : Prop :=
  IsSlice d 0 4 [0x7f, 0x45, 0x4c, 0x46] ∧
  if h.bit32 then
    Num d 4 1 1 ∧ Num d 16 2 h.type ∧ Num d 28 4 h.phoff ∧ Num d 32 4 h.shoff ∧ Num d 44 2 h.phnum ∧
    Num d 48 2 h.shnum ∧ Num d 50 2 h.shstrndx
  else
    Num d 4 1 2 ∧ Num d 16 2 h.type ∧ Num d 32 8 h.phoff ∧ Num d 40 8 h.shoff ∧ Num d 56 2 h.phnum ∧
    Num d 60 2 h.shnum ∧ Num d 62 2 h.shstrndx

/-- The numbers of section and program headers: the header's own values, or for the escape
values (0 and 0xffff) `sh_size` and `sh_info` of the first section header. -/
def CountsAt (d : Bytes) (h : EhdrExt) : Prop :=
  (h.ehdr.shnum ≠ 0 → h.shnum = h.ehdr.shnum) ∧
  (h.ehdr.shnum = 0 → ∃ s, ShdrAt h.ehdr.bit32 d h.ehdr.shoff s ∧ h.shnum = s.size) ∧
  (h.ehdr.phnum ≠ 0xffff → h.phnum = h.ehdr.phnum) ∧
  (h.ehdr.phnum = 0xffff → ∃ s, ShdrAt h.ehdr.bit32 d h.ehdr.shoff s ∧ h.phnum = s.info)

/-- Size of a section header, program header, symbol. -/
def shdrSize (bit32 : Bool) : Nat := if bit32 then 40 else 64
def phdrSize (bit32 : Bool) : Nat := if bit32 then 32 else 56
def symSize (bit32 : Bool) : Nat := if bit32 then 16 else 24

/-- The contents of a section: nothing for `SHT_NOBITS` (8) and empty sections, otherwise
the `sh_size` bytes of the file at `sh_offset`. -/
def ContentsAre (d : Bytes) (s : Shdr) (out : Bytes) : Prop :=
  ((s.type = 8 ∨ s.size = 0) ∧ out = []) ∨ (s.type ≠ 8 ∧ IsSlice d s.offset s.size out)

/-- An object at offset `off` is suitably aligned for being referenced in place; files are
copied from, so they have no such requirement. -/
def AlignedAt (b : Backend) (off a : Nat) : Prop :=
  match b with
  | .mem addr _ => (addr + off) % a = 0
  | .file _ => True

end Blazesym.Spec.Elf
