import Verif.Util.Layout
import Verif.Util.Mmap
import Verif.Util.Path

/-!
# Model of ZIP archives (`src/zip.rs`) and of members of APKs

The data of an archive is a byte string.  A cursor into it is the remaining byte string.
The structures are packed, `read_pod` reads them from any address.
-/

set_option autoImplicit false

namespace Blazesym.Zip
open Blazesym.Util

/-- `src/util.rs:607-613` (`read_slice`), for a cursor without an address: the bytes and the rest. -/
def take? (n : Nat) (data : Bytes) : Option (Bytes × Bytes) :=
  if n > data.length then none else some (data.take n, data.drop n)

/-- `src/zip.rs:121-134` (`Entry`). -/
structure Entry where
  compression : Nat
  path : Bytes
  dataOffset : Nat
  data : Bytes
  deriving DecidableEq, Repr

/-- `src/zip.rs:168-205` (`entry_impl` in `parse_entry_at_offset`); `none` is Rust's `None`.
On Unix, `bytes_to_path` cannot fail.  The offset of the data is that of what is left after the
extra field, which is at most the length of the archive: the addition does not overflow. -/
def entryAtImpl (archive : Bytes) (offset : Nat) : Option (Except Err Entry) := do
  if offset > archive.length then none
  let data := archive.drop offset
  let (lfh, data) ← take? 30 data
  if field lfh 0 4 ≠ 0x04034b50 then return .error .invalidData
  if field lfh 6 2 &&& 1 ≠ 0 ∨ field lfh 6 2 &&& 8 ≠ 0 then return .error .invalidData
  let (path, data) ← take? (field lfh 26 2) data
  let (_, data) ← take? (field lfh 28 2) data
  let dataOffset := offset + (archive.length - offset - data.length)
  let (content, _) ← take? (field lfh 18 4) data
  return .ok { compression := field lfh 8 2, path, dataOffset, data := content }

/-- `src/zip.rs:167-209` (`parse_entry_at_offset`). -/
def parseEntryAtOffset (archive : Bytes) (offset : Nat) : Except Err Entry :=
  (entryAtImpl archive offset).getD (.error .invalidData)

/-- `src/zip.rs:211-242` (`parse_next_entry`): the entry, and what is left of the central
directory.  (A failing `read_slice` leaves the cursor where it is.) -/
def parseNextEntry (archive cd : Bytes) : Except Err Entry × Bytes :=
  match take? 46 cd with
  | none => (.error .invalidData, cd)
  | some (cdfh, cd) =>
    if field cdfh 0 4 ≠ 0x02014b50 then (.error .invalidData, cd)
    else
      match take? (field cdfh 28 2) cd with
      | none => (.error .invalidData, cd)
      | some (_, cd) =>
        match take? (field cdfh 30 2) cd with
        | none => (.error .invalidData, cd)
        | some (_, cd) =>
          match take? (field cdfh 32 2) cd with
          | none => (.error .invalidData, cd)
          | some (_, cd) => (parseEntryAtOffset archive (field cdfh 42 4), cd)

/-- `src/zip.rs:245-252` (`EntryIter::next`), repeated until it returns `None`: all items. -/
def entriesLoop (archive : Bytes) : Nat → Bytes → List (Except Err Entry)
  | 0, _ => []
  | remaining + 1, cd =>
    let r := parseNextEntry archive cd
    r.1 :: entriesLoop archive remaining r.2

/-- `src/zip.rs:296-314` (`try_parse_end_of_cd`). -/
def tryParseEndOfCd (data : Bytes) : Option (Except Err (Nat × Nat)) := do
  let (eocd, data) ← take? 22 data
  if field eocd 0 4 ≠ 0x06054b50 then none
  if field eocd 20 2 > data.length then none
  if field eocd 4 2 ≠ 0 ∨ field eocd 6 2 ≠ 0 ∨ field eocd 10 2 ≠ field eocd 8 2 then
    return .error .invalidData
  return .ok (field eocd 16 4, field eocd 8 2)

/-- The loop of `src/zip.rs:331-347`: the offsets `start + remaining - 1` down to `start`. -/
def findCdLoop (data : Bytes) (start : Nat) : Nat → Except Err (Nat × Nat)
  | 0 => .error .invalidData
  | remaining + 1 =>
    match tryParseEndOfCd (data.drop (start + remaining)) with
    | none => findCdLoop data start remaining
    | some (.ok (cdOffset, cdRecords)) =>
      -- `data.get(cd_range)`; the numbers are of 32 and 16 bits, there is no overflow
      match getRange data cdOffset (cdOffset + cdRecords * 46) with
      | none => .error .unexpectedEof
      | some _ => .ok (cdOffset, cdRecords)
    | some (.error e) => .error e

/-- `src/zip.rs:318-352` (`find_cd`). -/
def findCd (data : Bytes) : Except Err (Nat × Nat) :=
  if data.length < 22 then .error .invalidData
  else
    let stop := data.length - 22
    let start := stop - 65536
    findCdLoop data start (stop + 1 - start)

/-- `src/zip.rs:282-294` (`with_mmap`) followed by `:356-368` (`entries`): the items of the
iterator over an archive with these contents.  The `unwrap` of `:359` is a panic. -/
def entries (data : Bytes) : Except Err (List (Except Err Entry)) :=
  match findCd data with
  | .error e => .error e
  | .ok (cdOffset, cdRecords) =>
    if cdOffset > data.length then .error .panic
    else .ok (entriesLoop data cdRecords (data.drop cdOffset))

/-! ### APK members -/

/-- The search for a member at `src/symbolize/symbolizer.rs:837-843` and
`src/normalize/normalizer.rs:398-402`.  The end of a member's data is at most the length of the
archive: the addition does not overflow. -/
def findMember (fileOff : Nat) : List (Except Err Entry) → Except Err (Option Entry)
  | [] => .ok none
  | .error e :: _ => .error e
  | .ok entry :: rest =>
    if entry.dataOffset ≤ fileOff ∧ fileOff < entry.dataOffset + entry.data.length then .ok (some entry)
    else findMember fileOff rest

/-- `Components::trim_left` on a path whose root has been taken off. -/
def trimLeft : Nat → Bytes → Bytes
  | 0, path => path
  | fuel + 1, path =>
    match path with
    | [] => []
    | _ =>
      let comp := path.takeWhile (fun b => b != 47)
      if isComponent comp then path else trimLeft fuel (path.drop (comp.length + 1))

/-- `Components::trim_right` on a path whose root has been taken off. -/
def trimRight' : Nat → Bytes → Bytes
  | 0, path => path
  | fuel + 1, path =>
    match path with
    | [] => []
    | _ =>
      let comp := (path.reverse.takeWhile (fun b => b != 47)).reverse
      if isComponent comp then path else trimRight' fuel (path.take (path.length - (comp.length + 1)))

/-- `src/apk.rs:6-28` (`create_apk_elf_path`) on Unix: what is joined to the archive's path
is not absolute, and the path does not end with a separator. -/
def createApkElfPath (apk elf : Bytes) : Bytes :=
  let elf :=
    if elf.head? = some 47 then
      let rest := trimLeft elf.length (elf.drop 1)
      trimRight' rest.length rest
    else elf
  apk ++ [33] ++ [47] ++ elf

/-- The member's data as a view on the mapping of the archive: `src/symbolize/symbolizer.rs:845-853`,
`src/normalize/normalizer.rs:404-412`. -/
def memberData (mmap : Mmap) (entry : Entry) : Except Err Bytes :=
  match mmap.constrain entry.dataOffset (entry.dataOffset + entry.data.length) with
  | .error e => .error e
  | .ok none => .error .invalidInput
  | .ok (some m) => .ok m.deref

/-- `src/normalize/normalizer.rs:379-430` (`translate_apk_to_elf`), for an archive with these
contents.  `readBuildId` is `read_elf_build_id_from_mmap` on the member's data, given where it is.  The contents
are taken to be the same at every call, so that the caches make no difference. -/
def translateApkToElf (contents : Bytes) (buildIds : Bool) (readBuildId : Nat → Bytes → Except Err (Option Bytes))
    (apkPath : Bytes) (apkFileOff : Nat) : Except Err (Option (Nat × Bytes × Option Bytes)) := do
  let mmap := Mmap.map contents
  let items ← entries mmap.deref
  match ← findMember apkFileOff items with
  | none => return none
  | some entry => do
    let buildId ←
      if buildIds then do readBuildId entry.dataOffset (← memberData mmap entry) else pure none
    return some (apkFileOff - entry.dataOffset, createApkElfPath apkPath entry.path, buildId)

/-- `src/symbolize/symbolizer.rs:826-882` (`create_apk_resolver`), for an archive with these
contents.  `dispatch` makes a resolver of where a member's data is, its path and its data (the configured dispatcher,
if it provides one, or else `default_apk_dispatcher`), `toVirt` is its
`file_offset_to_virt_offset`.  This is without the cache for resolvers, see
`Verif.Zip.ApkCache`. -/
def createApkResolver {R : Type} (contents : Bytes) (dispatch : Nat → Bytes → Bytes → Except Err R)
    (toVirt : R → Nat → Except Err (Option Nat)) (fileOff : Nat) : Except Err (Option (R × Nat)) := do
  let mmap := Mmap.map contents
  let items ← entries mmap.deref
  match ← findMember fileOff items with
  | none => return none
  | some entry => do
    let resolver ← dispatch entry.dataOffset entry.path (← memberData mmap entry)
    match ← toVirt resolver (fileOff - entry.dataOffset) with
    | some addr => return some (resolver, addr)
    | none => return none

end Blazesym.Zip
