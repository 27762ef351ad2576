import Verif.Elf.Notes
import Verif.Util.Text

/-!
# Model of KASLR offset detection (`src/kernel/kaslr.rs`, `src/kernel/cache.rs`)

The kernel core file is read with regular file I/O (`Elf.Backend.file`).  That reading from an
opened file may fail for other reasons than its end is not modelled.
-/

set_option autoImplicit false

namespace Blazesym.Kernel
open Blazesym.Util Blazesym.Elf

/-- `src/kernel/kaslr.rs:27` (`VMCOREINFO_NAME`). -/
def VMCOREINFO_NAME : Bytes := ascii "VMCOREINFO" ++ [0]

/-- `src/kernel/kaslr.rs:41-44` (`parse_vmcoreinfo_desc`). -/
def parseVmcoreinfo (desc : Bytes) : List (Bytes × Bytes) :=
  (split (fun b => b == 10) desc).filterMap (fun line => splitBytes line (fun b => b == 61))

/-- `src/kernel/kaslr.rs:76-84`: the value of `KERNELOFFSET`. -/
def kernelOffset (desc : Bytes) : Except Err (Option Nat) :=
  match (parseVmcoreinfo desc).find? (fun kv => kv.1 == ascii "KERNELOFFSET") with
  | none => .ok none
  | some (_, value) =>
    match fromRadix16 value with
    | .ok v => .ok (some v)
    | .error .none => .error .invalidData
    | .error .panic => .error .panic

/-- `src/kernel/kaslr.rs:64-71`: the name of a note whose header ends at `offset`, and where
its descriptor starts. -/
def noteName (data : Bytes) (namesz offset : Nat) : Except Err (Option Bytes × Nat) :=
  if namesz > 0 then
    match Backend.readSlice (.file data) offset 1 1 namesz with
    | .error e => .error e
    | .ok name =>
      match alignUp u32Size namesz 4 with
      | .error e => .error e
      | .ok skip =>
        match addU64 offset skip with
        | .error e => .error e
        | .ok offset => .ok (some name, offset)
  else .ok (none, offset)

/-- The loop `src/kernel/kaslr.rs:58-94` over the notes of a segment.  `none` if the loop ends,
`some r` if the function returns `Ok(r)` from inside it.  Every iteration moves on by 12 bytes at
least within the file; the budget is larger than that. -/
def kcoreLoop (data : Bytes) (filesz : Nat) : Nat → Nat → Except Err (Option (Option Nat))
  | 0, _ => .error .panic
  | fuel + 1, offset =>
    match addU64 offset 12 with
    | .error e => .error e
    | .ok afterHdr =>
      if afterHdr ≤ filesz then
        match Backend.readObj (.file data) offset 12 4 with
        | .error e => .error e
        | .ok nhdr =>
          match noteName data (field nhdr 0 4) afterHdr with
          | .error e => .error e
          | .ok (name, offset) =>
            if name = some VMCOREINFO_NAME ∧ field nhdr 4 4 > 0 then
              match Backend.readSlice (.file data) offset 1 1 (field nhdr 4 4) with
              | .error e => .error e
              | .ok desc =>
                match kernelOffset desc with
                | .error e => .error e
                | .ok r => .ok (some r)
            else
              match alignUp u32Size (field nhdr 4 4) 4 with
              | .error e => .error e
              | .ok skip =>
                match addU64 offset skip with
                | .error e => .error e
                | .ok offset => kcoreLoop data filesz fuel offset
      else .ok none

/-- The loop over the program headers, `src/kernel/kaslr.rs:50-96`. -/
def kcoreSegments (data : Bytes) : List Phdr → Except Err (Option Nat)
  | [] => .ok none
  | phdr :: rest =>
    if phdr.type ≠ PT_NOTE then kcoreSegments data rest
    else
      match kcoreLoop data phdr.filesz (data.length + 2) phdr.offset with
      | .error e => .error e
      | .ok (some r) => .ok r
      | .ok none => kcoreSegments data rest

/-- `src/kernel/kaslr.rs:48-98` (`read_kcore_kaslr_offset`). -/
def readKcoreOffset (data : Bytes) : Except Err (Option Nat) :=
  match parsePhdrs (.file data) with
  | .error e => .error e
  | .ok phdrs => kcoreSegments data phdrs

/-- `src/kernel/kaslr.rs:100-113` (`find_kcore_kaslr_offset`); `kcore` is the outcome of opening
`/proc/kcore`. -/
def findKcoreOffset (kcore : Except Err Bytes) : Except Err (Option Nat) :=
  match kcore with
  | .ok data => readKcoreOffset data
  | .error .notFound => .ok none
  | .error e => .error e

/-- `Inspect::find_addr` with default options. -/
abbrev FindAddr := Bytes → Except Err (List SymInfo)

/-- `src/kernel/kaslr.rs:117-126` (`inspect_sym_addr`). -/
def inspectSymAddr (resolver : FindAddr) (name : Bytes) : Except Err (Option Nat) :=
  match resolver name with
  | .error e => .error e
  | .ok syms => .ok ((syms.find? (fun sym => sym.name == name)).map SymInfo.addr)

/-- `src/kernel/kaslr.rs:135-151` (`find_stext_kaslr_offset`). -/
def findStextOffset (ksym vmlinux : FindAddr) : Except Err (Option Nat) :=
  match inspectSymAddr ksym (ascii "_stext") with
  | .error e => .error e
  | .ok kallsyms =>
    match inspectSymAddr vmlinux (ascii "_stext") with
    | .error e => .error e
    | .ok vmlinux =>
      match kallsyms, vmlinux with
      | some a, some b => .ok (if b ≤ a then some (a - b) else none)
      | _, _ => .ok none

/-- `src/kernel/kaslr.rs:153-179` (`find_kaslr_offset`). -/
def findKaslrOffset (kcore : Except Err Bytes) (ksym vmlinux : Option FindAddr) : Except Err (Option Nat) :=
  match findKcoreOffset kcore with
  | .ok r => .ok r
  | .error e =>
    if e = .permissionDenied ∨ e = .notFound then
      match ksym, vmlinux with
      | some k, some v => findStextOffset k v
      | _, _ => .error e
    else .error e

/-- `src/kernel/cache.rs:106-119` (`kaslr_offset`): the cell of the cache, and what the
detection would result in now. -/
def kaslrOffset (cell : Option Nat) (detect : Except Err (Option Nat)) : Except Err Nat × Option Nat :=
  match cell with
  | some v => (.ok v, cell)
  | none =>
    match detect with
    | .error e => (.error e, none)
    | .ok r => (.ok (r.getD 0), some (r.getD 0))

/-- A history of requests, each with what the detection would result in at that time. -/
def kaslrHistory (cell : Option Nat) : List (Except Err (Option Nat)) → List (Except Err Nat)
  | [] => []
  | detect :: rest => (kaslrOffset cell detect).1 :: kaslrHistory (kaslrOffset cell detect).2 rest

end Blazesym.Kernel
