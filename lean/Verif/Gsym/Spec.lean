import Verif.Util.LayoutSpec

/-! Specification vocabulary for GSYM files: where the format stores what. -/

set_option autoImplicit false

namespace Blazesym.Spec.Gsym

/-- Rounding up to a multiple of four. -/
def up4 (x : Nat) : Nat := (x + 3) / 4 * 4

/-- What a GSYM file contains: the number of bytes of an address table entry, the base
address, the address table (start addresses relative to the base), the file offsets of the
address infos, the file table (offsets of directory and file name in the string table) and
the string table. -/
structure GsymFile where
  width : Nat
  base : Nat
  offsets : List Nat
  infos : List Nat
  files : List (Nat × Nat)
  strs : Bytes
  deriving DecidableEq, Repr

/-- File offset of the table of address info offsets: after the 48 byte header and the
address table, at a multiple of four. -/
def GsymFile.infoTab (f : GsymFile) : Nat := up4 (48 + f.offsets.length * f.width)

/-- File offset of the number of files. -/
def GsymFile.fileCount (f : GsymFile) : Nat := f.infoTab + 4 * f.offsets.length

/-- File offset of the file table. -/
def GsymFile.fileTab (f : GsymFile) : Nat := f.fileCount + 4

/-- The bytes `d` are a GSYM file with the contents `f`. -/
structure Describes (d : Bytes) (f : GsymFile) : Prop where
  magic : Num d 0 4 0x4753594d
  version : Num d 4 2 1
  width : Num d 6 1 f.width
  base : Num d 8 8 f.base
  count : Num d 16 4 f.offsets.length
  strs : ∃ o, Num d 20 4 o ∧ Num d 24 4 f.strs.length ∧ IsSlice d o f.strs.length f.strs
  offsets : ∀ i o, f.offsets[i]? = some o → Num d (48 + i * f.width) f.width o
  infoCount : f.infos.length = f.offsets.length
  infos : ∀ i o, f.infos[i]? = some o → Num d (f.infoTab + 4 * i) 4 o
  fileCount : Num d f.fileCount 4 f.files.length
  files : ∀ i p, f.files[i]? = some p →
    Num d (f.fileTab + 8 * i) 4 p.1 ∧ Num d (f.fileTab + 8 * i + 4) 4 p.2

/-- The address info at file offset `off`: the size of the symbol and the string table
offset of its name. -/
def InfoAt (d : Bytes) (off size name : Nat) : Prop := Num d off 4 size ∧ Num d (off + 4) 4 name

/-- Entry `i` of the file starts at `start`, has the given size and name. -/
def EntryIs (d : Bytes) (f : GsymFile) (i start size : Nat) (name : Bytes) : Prop :=
  ∃ o info nm, f.offsets[i]? = some o ∧ start = f.base + o ∧ f.infos[i]? = some info ∧
    InfoAt d info size nm ∧ NameAt f.strs nm name

/-- `start` is the greatest start address of an entry that is not above `addr`. -/
def IsGreatestStart (f : GsymFile) (addr start : Nat) : Prop :=
  start ≤ addr ∧ (∃ o ∈ f.offsets, start = f.base + o) ∧
    ∀ o ∈ f.offsets, f.base + o ≤ addr → f.base + o ≤ start

/-- The address table is sorted, as the format demands. -/
def Ascending (f : GsymFile) : Prop := f.offsets.Pairwise (· ≤ ·)

end Blazesym.Spec.Gsym
