import Verif.Elf.Reloc

/-!
# Model of how debug sections are loaded and read (`src/dwarf/reader.rs`, `src/dwarf/relocate.rs`)

A reader is the data of a section and the relocations that apply to it.  Of `gimli`'s `RelocateReader` what is
modelled is the reading of addresses and offsets: the number that is stored is passed to the relocations,
together with its offset in the section.
-/

set_option autoImplicit false

namespace Blazesym.Dwarf
open Blazesym.Util Blazesym.Elf

/-- `src/dwarf/reader.rs:15-19` (`R`). -/
structure Reader where
  data : Bytes
  relocs : RelocMap

/-- `src/dwarf/reader.rs:22-43` (`load_section`). -/
def loadSection (c : Codec) (b : Backend) (relocs : SectionRelocs) (name : Bytes) : Except Err Reader := do
  match ← findSection b name with
  | some idx =>
    let data ← sectionData c b idx
    return ⟨data, relocs idx⟩
  | none => return ⟨[], relocs (2 ^ 64 - 1)⟩

/-- `src/dwarf/reader.rs:45-68` (`load_dwo_section`); a section that does not exist in split debug information
has no name. -/
def loadDwoSection (c : Codec) (b : Backend) (relocs : SectionRelocs) (name : Option Bytes) : Except Err Reader :=
  match name with
  | none => .ok ⟨[], relocs (2 ^ 64 - 1)⟩
  | some name => do
    match ← findSection b name with
    | some idx =>
      let data ← sectionData c b idx
      return ⟨data, relocs (2 ^ 64 - 1)⟩
    | none => return ⟨[], relocs (2 ^ 64 - 1)⟩

/-- `gimli::Reader::read_address` of an `EndianSlice`: the number of `size` bytes at `off`. -/
def readStored (data : Bytes) (off size : Nat) : Except Err Nat :=
  if size ≠ 1 ∧ size ≠ 2 ∧ size ≠ 4 ∧ size ≠ 8 then .error .invalidDwarf
  else if off + size ≤ data.length then .ok (field data off size)
  else .error .invalidDwarf

/-- `src/dwarf/relocate.rs:4-12` (`relocate_address`, `relocate_offset`) as used by `RelocateReader`: an address or
offset of `size` bytes at `off`. -/
def Reader.readAddress (r : Reader) (off size : Nat) : Except Err Nat := do
  let value ← readStored r.data off size
  return r.relocs.relocate off value

end Blazesym.Dwarf
