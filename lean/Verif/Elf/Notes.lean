import Verif.Elf.Image

/-!
# Model of build ID and debug link extraction

`src/normalize/buildid.rs` and `src/dwarf/debug_link.rs:200-230`.
-/

set_option autoImplicit false

namespace Blazesym.Elf
open Blazesym.Util

/-- Where the data returned by `section_data` is stored: in the image, or on the heap if it
was decompressed or read from a file. -/
def sectionAddr (c : Codec) (b : Backend) (shdr : Shdr) : Nat :=
  match b with
  | .mem addr _ => if shdr.flags &&& SHF_COMPRESSED ≠ 0 then c.heap else addr + shdr.offset
  | .file _ => c.heap

/-- `src/elf/types.rs:651` (`NT_GNU_BUILD_ID`). -/
def NT_GNU_BUILD_ID : Nat := 3

/-- The loop `while bytes.len() >= size_of::<ElfN_Nhdr>()` of
`src/normalize/buildid.rs:29-50`.  Every iteration consumes at least 12 bytes; the budget
is the number of bytes. -/
def notesLoop : Nat → Cursor → Except Err (Option Bytes)
  | 0, _ => .ok none
  | fuel + 1, c =>
    if c.data.length ≥ 12 then
      match readPodRef 12 4 c with
      | (.error _, _) => .error .invalidData
      | (.ok nhdr, c) =>
        match alignUp u32Size (field nhdr 0 4) 4 with
        | .error e => .error e
        | .ok skip =>
          match advance skip c with
          | (.error _, _) => .error .invalidData
          | (.ok _, c) =>
            if field nhdr 8 4 = NT_GNU_BUILD_ID then
              match readSlice (field nhdr 4 4) c with
              | (.error _, _) => .error .invalidData
              | (.ok id, _) => .ok (some id)
            else
              match alignUp u32Size (field nhdr 4 4) 4 with
              | .error e => .error e
              | .ok skip =>
                match advance skip c with
                | (.error _, _) => .error .invalidData
                | (.ok _, c) => notesLoop fuel c
    else .ok none

/-- The notes of one section. -/
def readNotes (addr : Nat) (data : Bytes) : Except Err (Option Bytes) :=
  notesLoop (data.length + 1) ⟨addr, data⟩

/-- The loop over the sections, `src/normalize/buildid.rs:23-52`; `idx` is the index of the
first header of the list.  `section_data(idx).unwrap()` panics on an error. -/
def buildIdLoop (c : Codec) (b : Backend) : Nat → List Shdr → Except Err (Option Bytes)
  | _, [] => .ok none
  | idx, shdr :: rest =>
    if shdr.type = SHT_NOTE then
      match sectionData c b idx with
      | .error _ => .error .panic
      | .ok data =>
        match readNotes (sectionAddr c b shdr) data with
        | .error e => .error e
        | .ok (some id) => .ok (some id)
        | .ok none => buildIdLoop c b (idx + 1) rest
    else buildIdLoop c b (idx + 1) rest

/-- `src/normalize/buildid.rs:21-54` (`read_build_id`). -/
def readBuildId (c : Codec) (b : Backend) : Except Err (Option Bytes) :=
  match parseShdrs b with
  | .error e => .error e
  | .ok shdrs => buildIdLoop c b 0 shdrs

/-- `src/dwarf/debug_link.rs:206-230` (`parse_debug_link_section_data`): file name and
checksum.  `bytes_to_os_str` is the identity on Unix. -/
def parseDebugLinkData (data : Bytes) : Except Err (Bytes × Nat) :=
  match readCstr ⟨0, data⟩ with
  | (.error _, _) => .error .invalidData
  | (.ok file, c) =>
    let curOffset := data.length - c.data.length
    match alignUp u64Size curOffset 4 with
    | .error e => .error e
    | .ok crcOffset =>
      match advance (crcOffset - curOffset) c with
      | (.error _, _) => .error .invalidData
      | (.ok _, c) =>
        match readU32 c with
        | (.error _, _) => .error .invalidData
        | (.ok crc, _) => .ok (file, crc)

/-- `src/dwarf/debug_link.rs:191-203` (`read_debug_link`).  `section_data(idx).unwrap()`
panics on an error; an error of `find_section` counts as "no debug link". -/
def readDebugLink (c : Codec) (b : Backend) : Except Err (Option (Bytes × Nat)) :=
  match findSection b nameDebuglink with
  | .ok (some idx) =>
    match sectionData c b idx with
    | .error _ => .error .panic
    | .ok data => (parseDebugLinkData data).map some
  | .ok none => .ok none
  | .error .panic => .error .panic
  | .error _ => .ok none

end Blazesym.Elf
