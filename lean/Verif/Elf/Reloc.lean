import Verif.Elf.Image

/-! Relocations of relocatable object files: `src/elf/parser.rs:994-1037` and
`src/elf/relocations.rs`. The maps from section index to relocations and from offset to
relocation (a `HashMap` of `BTreeMap`s) are functions. -/

set_option autoImplicit false

namespace Blazesym.Elf
open Blazesym.Util

/-- `src/elf/types.rs:747-763` (`Elf64_Rela`): the signed addend in its two's complement form
(`r_addend as u64`). -/
structure Rela where
  offset : Nat
  info : Nat
  addend : Nat
deriving DecidableEq, Repr

/-- `src/elf/types.rs:757-762`, `803-808` (`sym`): the 64 bit form `r_info >> 32`. -/
def relocSym (info : Nat) : Nat := info / 2 ^ 32

/-- `i64::from(i32) as u64`. -/
def signExtend32 (x : Nat) : Nat := if x < 2 ^ 31 then x else x + (2 ^ 64 - 2 ^ 32)

/-- `src/elf/types.rs:727-733`, `764-772`: a 32 bit entry, widened. -/
def decodeRela32 (s : Bytes) : Rela :=
  { offset := field s 0 4, info := field s 4 4, addend := signExtend32 (field s 8 4) }

/-- `src/elf/types.rs:747-753`. -/
def decodeRela64 (s : Bytes) : Rela :=
  { offset := field s 0 8, info := field s 8 8, addend := field s 16 8 }

/-- `src/elf/types.rs:781-786`, `810-817`: an entry without an addend; the model's `addend` is
unused. -/
def decodeRel32 (s : Bytes) : Rela := { offset := field s 0 4, info := field s 4 4, addend := 0 }

/-- `src/elf/types.rs:799-803`. -/
def decodeRel64 (s : Bytes) : Rela := { offset := field s 0 8, info := field s 8 8, addend := 0 }

def relaLayout : Layout Rela := ⟨12, 24, decodeRela32, decodeRela64⟩
def relLayout : Layout Rela := ⟨8, 16, decodeRel32, decodeRel64⟩

/-- `src/elf/relocations.rs:7-14` (`RelocationEntry`). -/
structure RelocEntry where
  addend : Nat
  implicit : Bool
deriving DecidableEq, Repr

/-- `src/elf/relocations.rs:21-24` (`RelocationMap`). -/
abbrev RelocMap := Nat → Option RelocEntry

/-- `src/elf/relocations.rs:27-31` (`RelocationMap::insert`). -/
def RelocMap.insert (m : RelocMap) (offset addend : Nat) (implicit : Bool) : RelocMap :=
  fun o => if o = offset then some ⟨addend, implicit⟩ else m o

/-- `src/elf/relocations.rs:33-43` (`RelocationMap::relocate`). -/
def RelocMap.relocate (m : RelocMap) (offset value : Nat) : Nat :=
  match m offset with
  | some e => if e.implicit then wrappingAdd value e.addend else e.addend
  | none => value

/-- `src/elf/relocations.rs:51-56` (`SectionRelocations`). -/
abbrev SectionRelocs := Nat → RelocMap

/-- `src/elf/relocations.rs:60-65` (`SectionRelocations::empty`). -/
def SectionRelocs.empty : SectionRelocs := fun _ _ => none

/-- `src/elf/parser.rs:1014`, `1029`: `syms.get(sym_idx).map(|s| s.value()).unwrap_or(0)`. -/
def symValue (syms : List Sym) (info : Nat) : Nat :=
  match syms[relocSym info]? with
  | some s => s.value
  | none => 0

/-- `src/elf/parser.rs:1011-1017`: the entries of one `SHT_RELA` section. -/
def insertRelas (syms : List Sym) : List Rela → RelocMap → RelocMap
  | [], m => m
  | r :: rs, m =>
    insertRelas syms rs (m.insert r.offset (wrappingAdd (symValue syms r.info) r.addend) false)

/-- `src/elf/parser.rs:1025-1030`: the entries of one `SHT_REL` section. -/
def insertRels (syms : List Sym) : List Rela → RelocMap → RelocMap
  | [], m => m
  | r :: rs, m => insertRels syms rs (m.insert r.offset (symValue syms r.info) true)

/-- `maps.entry(target_idx).or_default()`, updated with `f`. -/
def SectionRelocs.update (maps : SectionRelocs) (target : Nat) (f : RelocMap → RelocMap) :
    SectionRelocs :=
  fun t => if t = target then f (maps t) else maps t

/-- `src/elf/parser.rs:1002-1033`: sections `i`, ..., `i + n - 1`. -/
def relocsLoop (b : Backend) : Nat → Nat → SectionRelocs → Except Err SectionRelocs
  | 0, _, maps => .ok maps
  | n + 1, i, maps => do
    let shdr ← sectionHdr b i
    if shdr.type = SHT_RELA then
      let syms ← parseSectionData symLayout b shdr.link
      let relas ← parseSectionData relaLayout b i
      relocsLoop b n (i + 1) (maps.update shdr.info (insertRelas syms relas))
    else if shdr.type = SHT_REL then
      let syms ← parseSectionData symLayout b shdr.link
      let rels ← parseSectionData relLayout b i
      relocsLoop b n (i + 1) (maps.update shdr.info (insertRels syms rels))
    else relocsLoop b n (i + 1) maps

/-- `src/elf/parser.rs:994-1037` (`parse_section_relocs`), with
`src/elf/relocations.rs:74-79` (`get`). -/
def parseSectionRelocs (b : Backend) : Except Err SectionRelocs := do
  let h ← parseEhdr b
  if h.ehdr.type ≠ ET_REL then .ok SectionRelocs.empty
  else relocsLoop b h.shnum 0 SectionRelocs.empty

end Blazesym.Elf
