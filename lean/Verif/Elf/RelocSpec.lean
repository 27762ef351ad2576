import Verif.Elf.ImageSpec

/-! Specification vocabulary for relocations, after the ELF format: which relocation entries an
object file has, in file order, and what each says about the section it belongs to. -/

set_option autoImplicit false

namespace Blazesym.Spec.Elf
open Blazesym.Elf

/-- A relocation of a section: at `offset` of section `target`, store `S + A` where `S` is the
value of a symbol and `A` is the entry's `addend`, or, if the entry has none, the value stored
there. -/
structure Reloc where
  target : Nat
  offset : Nat
  symbol : Nat
  addend : Option Nat

/-- The value a 64 bit place that holds `stored` has after the relocation. -/
def Reloc.apply (r : Reloc) (stored : Nat) : Nat := (r.symbol + r.addend.getD stored) % 2 ^ 64

/-- The value the place at `offset` of section `target`, which holds `stored`, has after all
relocations of the list, of which the last one for a place counts. -/
def relocated (rs : List Reloc) (target offset stored : Nat) : Nat :=
  match (rs.filter fun r => r.target = target ∧ r.offset = offset).getLast? with
  | some r => r.apply stored
  | none => stored

/-- Size of a table entry with (`SHT_RELA`) and without (`SHT_REL`) addend. -/
def relaSize (bit32 : Bool) : Nat := if bit32 then 12 else 24
def relSize (bit32 : Bool) : Nat := if bit32 then 8 else 16

/-- The value of symbol number `i` of the symbol table in the section with header `s`; 0 if there
is no such symbol. -/
def SymbolValue (bit32 : Bool) (d : Bytes) (s : Shdr) (i v : Nat) : Prop :=
  if s.type ≠ 8 ∧ (i + 1) * symSize bit32 ≤ s.size then
    ∃ y, SymAt bit32 d (s.offset + i * symSize bit32) y ∧ v = y.value
  else v = 0

/-- The number of the symbol an entry refers to is kept in the upper bits of `r_info`: 24 of 32
bits in 32 bit files, 32 of 64 bits in 64 bit files. -/
def symbolIndex (bit32 : Bool) (info : Nat) : Nat := if bit32 then info / 2 ^ 8 else info / 2 ^ 32

/-- Two's complement of `w` bytes, as a 64 bit number. -/
def Signed (w x v : Nat) : Prop :=
  (x < 2 ^ (8 * w - 1) ∧ v = x) ∨ (2 ^ (8 * w - 1) ≤ x ∧ v + 2 ^ (8 * w) = 2 ^ 64 + x)

/-- Table entry at offset `o` with an addend, of a section that applies to `target` and uses the
symbol table `sy`. `index` says how the symbol is identified by `r_info`. -/
def RelaAt (index : Nat → Nat) (bit32 : Bool) (d : Bytes) (sy : Shdr) (target o : Nat)
    (r : Reloc) : Prop :=
  let w := if bit32 then 4 else 8
  r.target = target ∧ Num d o w r.offset ∧
  (∃ info, Num d (o + w) w info ∧ SymbolValue bit32 d sy (index info) r.symbol) ∧
  ∃ x a, Num d (o + 2 * w) w x ∧ Signed w x a ∧ r.addend = some a

/-- Table entry without an addend. -/
def RelAt (index : Nat → Nat) (bit32 : Bool) (d : Bytes) (sy : Shdr) (target o : Nat)
    (r : Reloc) : Prop :=
  let w := if bit32 then 4 else 8
  r.target = target ∧ Num d o w r.offset ∧
  (∃ info, Num d (o + w) w info ∧ SymbolValue bit32 d sy (index info) r.symbol) ∧
  r.addend = none

/-- The relocations of the section with header `s` among the section headers `l`: `sh_info` is the
section they apply to and `sh_link` the symbol table. Only sections of types `SHT_RELA` (4) and
`SHT_REL` (9) have any. -/
def RelocsOf (index : Nat → Nat) (bit32 : Bool) (d : Bytes) (l : List Shdr) (s : Shdr)
    (rs : List Reloc) : Prop :=
  if s.type = 4 then
    ∃ sy, l[s.link]? = some sy ∧ rs.length * relaSize bit32 = s.size ∧
      ∀ k r, rs[k]? = some r → RelaAt index bit32 d sy s.info (s.offset + k * relaSize bit32) r
  else if s.type = 9 then
    ∃ sy, l[s.link]? = some sy ∧ rs.length * relSize bit32 = s.size ∧
      ∀ k r, rs[k]? = some r → RelAt index bit32 d sy s.info (s.offset + k * relSize bit32) r
  else rs = []

end Blazesym.Spec.Elf
