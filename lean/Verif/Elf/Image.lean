import Verif.Elf.Symtab
import Verif.Util.Bytes
import Verif.Util.Layout

/-!
# Model of ELF parsing from bytes (`src/elf/parser.rs`, `src/elf/types.rs`)

An image is a byte string, either in memory at some address (mmap, static memory) or behind
a file descriptor.  The once-cells caching parsed parts are pure functions of the immutable
image and are recomputed.  zlib, zstd and xz decompression are parameters.
-/

set_option autoImplicit false

namespace Blazesym.Elf
open Blazesym.Util


/-- `src/elf/parser.rs:1053-1071` (`Backend`): `mem` is a byte slice (`Mmap`, `StaticMem`)
whose first byte is at address `addr`, `file` a file. -/
inductive Backend where
  | mem (addr : Nat) (data : Bytes)
  | file (data : Bytes)
  deriving DecidableEq, Repr

/-- The bytes of the image. -/
def Backend.data : Backend → Bytes
  | .mem _ d => d
  | .file d => d

/-- Rust's `isize::MAX` on a 64 bit target. -/
def isizeMax : Nat := 9223372036854775807

/-- `src/elf/parser.rs:88-108` (`read_pod`) resp. `:111-132` (`read_pod_vec`) after the seek
of `:1116, 1125`: `read_exact` of `n` bytes at `off`.  `lseek` refuses offsets that are
negative as a signed integer; reading nothing succeeds everywhere. -/
def fileReadExact (data : Bytes) (off n : Nat) : Except Err Bytes :=
  if off > isizeMax then .error .invalidInput
  else if n = 0 then .ok []
  else if off + n ≤ data.length then .ok ((data.drop off).take n)
  else .error .unexpectedEof

/-- `src/elf/parser.rs:1084-1095, 1111-1119` (`read_pod_obj`): the bytes of the object. -/
def Backend.readObj (b : Backend) (off size alignment : Nat) : Except Err Bytes :=
  match b with
  | .mem addr data =>
    if off ≤ data.length then
      match readPodRef size alignment ⟨addr + off, data.drop off⟩ with
      | (.ok s, _) => .ok s
      | (.error _, _) => .error .invalidData
    else .error .invalidData
  | .file data => fileReadExact data off size

/-- `src/elf/parser.rs:1097-1108, 1121-1128` (`read_pod_slice`): the bytes of the slice.
`Vec::with_capacity` panics if the size in bytes exceeds `isize::MAX`.  That allocating a
smaller amount may abort the process is not modelled. -/
def Backend.readSlice (b : Backend) (off size alignment count : Nat) : Except Err Bytes :=
  match b with
  | .mem addr data =>
    if off ≤ data.length then
      match readPodSliceRef size alignment count ⟨addr + off, data.drop off⟩ with
      | (.ok s, _) => .ok s
      | (.error _, _) => .error .invalidData
    else .error .invalidData
  | .file data =>
    if off > isizeMax then .error .invalidInput
    else if size * count > isizeMax then .error .panic
    else fileReadExact data off (size * count)

/-- The members of `src/elf/types.rs:136-179` (`Elf32_Ehdr`, `Elf64_Ehdr`) that are used. -/
structure Ehdr where
  bit32 : Bool
  type : Nat
  phoff : Nat
  shoff : Nat
  phnum : Nat
  shnum : Nat
  shstrndx : Nat
  deriving DecidableEq, Repr

/-- `src/elf/types.rs:136-151` (`Elf32_Ehdr`), 52 bytes. -/
def decodeEhdr32 (b : Bytes) : Ehdr :=
  ⟨true, field b 16 2, field b 28 4, field b 32 4, field b 44 2, field b 48 2, field b 50 2⟩

/-- `src/elf/types.rs:159-174` (`Elf64_Ehdr`), 64 bytes. -/
def decodeEhdr64 (b : Bytes) : Ehdr :=
  ⟨false, field b 16 2, field b 32 8, field b 40 8, field b 56 2, field b 60 2, field b 62 2⟩

/-- `src/elf/types.rs:329-340` (`Elf32_Shdr`), 40 bytes, widened as in `:364-379`. -/
def decodeShdr32 (b : Bytes) : Shdr :=
  { name := field b 0 4, type := field b 4 4, flags := field b 8 4, addr := field b 12 4,
    offset := field b 16 4, size := field b 20 4, link := field b 24 4, info := field b 28 4,
    addralign := field b 32 4, entsize := field b 36 4 }

/-- `src/elf/types.rs:348-359` (`Elf64_Shdr`), 64 bytes. -/
def decodeShdr64 (b : Bytes) : Shdr :=
  { name := field b 0 4, type := field b 4 4, flags := field b 8 8, addr := field b 16 8,
    offset := field b 24 8, size := field b 32 8, link := field b 40 4, info := field b 44 4,
    addralign := field b 48 8, entsize := field b 56 8 }

/-- `src/elf/types.rs:242-251` (`Elf32_Phdr`), 32 bytes, widened as in `:273-286`. -/
def decodePhdr32 (b : Bytes) : Phdr :=
  { type := field b 0 4, offset := field b 4 4, vaddr := field b 8 4, paddr := field b 12 4,
    filesz := field b 16 4, memsz := field b 20 4, flags := field b 24 4, align := field b 28 4 }

/-- `src/elf/types.rs:259-268` (`Elf64_Phdr`), 56 bytes. -/
def decodePhdr64 (b : Bytes) : Phdr :=
  { type := field b 0 4, flags := field b 4 4, offset := field b 8 8, vaddr := field b 16 8,
    paddr := field b 24 8, filesz := field b 32 8, memsz := field b 40 8, align := field b 48 8 }

/-- `src/elf/types.rs:495-502` (`Elf32_Sym`), 16 bytes, widened as in `:583-594`. -/
def decodeSym32 (b : Bytes) : Sym :=
  { name := field b 0 4, value := field b 4 4, size := field b 8 4, info := field b 12 1,
    other := field b 13 1, shndx := field b 14 2 }

/-- `src/elf/types.rs:526-533` (`Elf64_Sym`), 24 bytes. -/
def decodeSym64 (b : Bytes) : Sym :=
  { name := field b 0 4, info := field b 4 1, other := field b 5 1, shndx := field b 6 2,
    value := field b 8 8, size := field b 16 8 }

/-- Layout of a structure in its 32 and 64 bit form: size, alignment, decoder. -/
structure Layout (α : Type) where
  size32 : Nat
  size64 : Nat
  decode32 : Bytes → α
  decode64 : Bytes → α

/-- Size in bytes of one record. -/
def Layout.size {α : Type} (l : Layout α) (bit32 : Bool) : Nat := if bit32 then l.size32 else l.size64

/-- Alignment of one record: all 32 bit records are 4 byte aligned, all 64 bit records 8. -/
def Layout.align {α : Type} (_l : Layout α) (bit32 : Bool) : Nat := if bit32 then 4 else 8

/-- Decoding of one record. -/
def Layout.decode {α : Type} (l : Layout α) (bit32 : Bool) : Bytes → α :=
  if bit32 then l.decode32 else l.decode64

def ehdrLayout : Layout Ehdr := ⟨52, 64, decodeEhdr32, decodeEhdr64⟩
def shdrLayout : Layout Shdr := ⟨40, 64, decodeShdr32, decodeShdr64⟩
def phdrLayout : Layout Phdr := ⟨32, 56, decodePhdr32, decodePhdr64⟩
def symLayout : Layout Sym := ⟨16, 24, decodeSym32, decodeSym64⟩

/-- Reading one record in the form selected by `bit32`. -/
def Backend.readRecord {α : Type} (b : Backend) (l : Layout α) (bit32 : Bool) (off : Nat) :
    Except Err α := do
  let s ← b.readObj off (l.size bit32) (l.align bit32)
  pure (l.decode bit32 s)

/-- Reading a table of records in the form selected by `bit32`. -/
def Backend.readTable {α : Type} (b : Backend) (l : Layout α) (bit32 : Bool) (off count : Nat) :
    Except Err (List α) := do
  let s ← b.readSlice off (l.size bit32) (l.align bit32) count
  pure (records (l.decode bit32) (l.size bit32) count s)

/-- `src/elf/parser.rs:622-635` (`read_first_shdr`). -/
def readFirstShdr (b : Backend) (ehdr : Ehdr) : Except Err Shdr :=
  b.readRecord shdrLayout ehdr.bit32 ehdr.shoff

/-- `src/elf/parser.rs:338-348` (`EhdrExt`). -/
structure EhdrExt where
  ehdr : Ehdr
  shnum : Nat
  phnum : Nat
  deriving DecidableEq, Repr

/-- `src/elf/parser.rs:669-682`: the number of section headers. -/
def realShnum (b : Backend) (ehdr : Ehdr) : Except Err Nat :=
  if ehdr.shnum = 0 then do
    let shdr ← readFirstShdr b ehdr
    pure shdr.size
  else .ok ehdr.shnum

/-- `src/elf/parser.rs:684-700`: the number of program headers. -/
def realPhnum (b : Backend) (ehdr : Ehdr) : Except Err Nat :=
  if ehdr.phnum = PN_XNUM then do
    let shdr ← readFirstShdr b ehdr
    pure shdr.info
  else .ok ehdr.phnum

/-- `src/elf/parser.rs:637-704` (`parse_ehdr`). -/
def parseEhdr (b : Backend) : Except Err EhdrExt := do
  let ident ← b.readSlice 0 1 1 16
  if ¬ (field ident 0 1 = 0x7f ∧ field ident 1 1 = 69 ∧ field ident 2 1 = 76 ∧ field ident 3 1 = 70) then
    .error .invalidData
  else
    let cls := field ident 4 1
    if cls ≠ ELFCLASS32 ∧ cls ≠ ELFCLASS64 then .error .unsupported
    else
      let ehdr ← b.readRecord ehdrLayout (decide (cls = ELFCLASS32)) 0
      let shnum ← realShnum b ehdr
      let phnum ← realPhnum b ehdr
      pure ⟨ehdr, shnum, phnum⟩

/-- `src/elf/parser.rs:710-726` (`parse_shdrs`). -/
def parseShdrs (b : Backend) : Except Err (List Shdr) := do
  let h ← parseEhdr b
  b.readTable shdrLayout h.ehdr.bit32 h.ehdr.shoff h.shnum

/-- `src/elf/parser.rs:732-748` (`parse_phdrs`). -/
def parsePhdrs (b : Backend) : Except Err (List Phdr) := do
  let h ← parseEhdr b
  b.readTable phdrLayout h.ehdr.bit32 h.ehdr.phoff h.phnum

/-- `src/elf/parser.rs:526-532` (`section_hdr`). -/
def sectionHdr (b : Backend) (idx : Nat) : Except Err Shdr := do
  let shdrs ← parseShdrs b
  match shdrs[idx]? with
  | some s => .ok s
  | none => .error .invalidInput

/-- `src/elf/parser.rs:541-550` (`section_data_raw`). -/
def sectionDataRaw (b : Backend) (idx : Nat) : Except Err Bytes := do
  let shdr ← sectionHdr b idx
  if shdr.type ≠ SHT_NOBITS then b.readSlice shdr.offset 1 1 shdr.size
  else .ok []

/-- Decompression (`src/elf/parser.rs:280-334`), and the address at which the decompressed
`.gnu_debugdata` is stored. -/
structure Codec where
  zlib : Bytes → Except Err Bytes
  zstd : Bytes → Except Err Bytes
  xz : Bytes → Except Err Bytes
  heap : Nat

/-- `src/elf/parser.rs:575-607`: decompression of a compressed section.  The
`debug_assert_eq!` on the length is a panic. -/
def decompress (c : Codec) (bit32 : Bool) (data : Bytes) : Except Err Bytes :=
  let hdr := if bit32 then 12 else 24
  if data.length < hdr then .error .invalidData
  else
    let chType := field data 0 4
    let chSize := if bit32 then field data 4 4 else field data 8 8
    let out :=
      if chType = 1 then c.zlib (data.drop hdr)
      else if chType = 2 then c.zstd (data.drop hdr)
      else .error .unsupported
    match out with
    | .error e => .error e
    | .ok d => if d.length = chSize then .ok d else .error .panic

/-- `src/elf/parser.rs:557-614` (`section_data`). -/
def sectionData (c : Codec) (b : Backend) (idx : Nat) : Except Err Bytes := do
  let shdr ← sectionHdr b idx
  if shdr.type ≠ SHT_NOBITS then
    let data ← b.readSlice shdr.offset 1 1 shdr.size
    if shdr.flags &&& SHF_COMPRESSED ≠ 0 then
      let h ← parseEhdr b
      decompress c h.ehdr.bit32 data
    else .ok data
  else .ok []

/-- `src/elf/parser.rs:754-771` (`shstrndx`). -/
def shstrndx (b : Backend) (ehdr : Ehdr) : Except Err Nat :=
  if ehdr.shstrndx = SHN_XINDEX then do
    let shdr ← readFirstShdr b ehdr
    pure shdr.link
  else .ok ehdr.shstrndx

/-- `src/elf/parser.rs:773-778` (`parse_shstrtab`). -/
def parseShstrtab (b : Backend) : Except Err Bytes := do
  let h ← parseEhdr b
  let i ← shstrndx b h.ehdr
  sectionDataRaw b i

/-- `src/elf/parser.rs:785-799` (`section_name`). -/
def sectionName (b : Backend) (idx : Nat) : Except Err Bytes := do
  let shdr ← sectionHdr b idx
  let strtab ← parseShstrtab b
  let s ← cstrAt strtab shdr.name
  if isUtf8 s then .ok s else .error .invalidData

/-- The loop `for i in 1..ehdr.shnum` of `src/elf/parser.rs:815-819`, `n` more indexes
starting at `i`. -/
def findSectionLoop (b : Backend) (name : Bytes) : Nat → Nat → Except Err (Option Nat)
  | 0, _ => .ok none
  | n + 1, i =>
    match sectionName b i with
    | .error e => .error e
    | .ok s => if s = name then .ok (some i) else findSectionLoop b name n (i + 1)

/-- `src/elf/parser.rs:813-821` (`find_section`). -/
def findSection (b : Backend) (name : Bytes) : Except Err (Option Nat) := do
  let h ← parseEhdr b
  findSectionLoop b name (h.shnum - 1) 1

/-- `src/elf/parser.rs:835-883` (`parse_section_data`). -/
def parseSectionData {α : Type} (l : Layout α) (b : Backend) (idx : Nat) : Except Err (List α) := do
  let h ← parseEhdr b
  let shdr ← sectionHdr b idx
  if shdr.type = SHT_NOBITS then .ok []
  else
    let size := l.size h.ehdr.bit32
    if shdr.size % size ≠ 0 then .error .invalidData
    else
      let count := shdr.size / size
      if count = 0 then .ok []
      else b.readTable l h.ehdr.bit32 shdr.offset count

/-- `src/elf/parser.rs:823-833` (`parse_syms`). -/
def parseSyms (b : Backend) (sec : Bytes) : Except Err (List Sym) := do
  let _ ← parseEhdr b
  match ← findSection b sec with
  | some idx => parseSectionData symLayout b idx
  | none => .ok []

/-- `src/elf/parser.rs:951-957` (`parse_strs`). -/
def parseStrs (b : Backend) (sec : Bytes) : Except Err Bytes := do
  match ← findSection b sec with
  | some idx => sectionDataRaw b idx
  | none => .ok []

/-- ASCII bytes of the section names used (`.symtab`, `.strtab`, `.dynsym`, `.dynstr`,
`.gnu_debugdata`, `.gnu_debuglink`). -/
def nameSymtab : Bytes := [46, 115, 121, 109, 116, 97, 98]
def nameStrtab : Bytes := [46, 115, 116, 114, 116, 97, 98]
def nameDynsym : Bytes := [46, 100, 121, 110, 115, 121, 109]
def nameDynstr : Bytes := [46, 100, 121, 110, 115, 116, 114]
def nameDebugdata : Bytes := [46, 103, 110, 117, 95, 100, 101, 98, 117, 103, 100, 97, 116, 97]
def nameDebuglink : Bytes := [46, 103, 110, 117, 95, 100, 101, 98, 117, 103, 108, 105, 110, 107]

/-- `src/elf/parser.rs:897-907` (`parse_debugdata`). -/
def parseDebugdata (c : Codec) (b : Backend) : Except Err Bytes := do
  match ← findSection b nameDebugdata with
  | some idx =>
    let data ← sectionDataRaw b idx
    c.xz data
  | none => .ok []

/-- `src/elf/parser.rs:909-931` (`ensure_symtab_cache`). -/
def parseSymtab (c : Codec) (b : Backend) : Except Err SymTab := do
  let syms ← parseSyms b nameSymtab
  let strs ← parseStrs b nameStrtab
  if syms.isEmpty then
    let data ← parseDebugdata c b
    if data.isEmpty then .ok ⟨syms, strs⟩
    else
      let inner := Backend.mem c.heap data
      let syms ← parseSyms inner nameSymtab
      let strs ← parseStrs inner nameStrtab
      .ok ⟨syms, strs⟩
  else .ok ⟨syms, strs⟩

/-- `src/elf/parser.rs:933-944` (`ensure_dynsym_cache`). -/
def parseDynsym (b : Backend) : Except Err SymTab := do
  let syms ← parseSyms b nameDynsym
  let strs ← parseStrs b nameDynstr
  .ok ⟨syms, strs⟩

/-- Everything the lookups of `Verif.Elf.Symtab` use. -/
def File.ofImage (c : Codec) (b : Backend) : File :=
  { shdrs := parseShdrs b, phdrs := parsePhdrs b, symtab := parseSymtab c b, dynsym := parseDynsym b }

end Blazesym.Elf
