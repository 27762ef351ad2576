import Verif.Util.Format

/-!
# Model of `/proc/<pid>/maps` parsing (`src/maps.rs`)

A path is the byte string of its `OsStr` (Unix).  `Pid::resolve` is a parameter: the number of
the process.  The lossy UTF-8 conversion of pseudo paths (`[heap]`, ...) is not modelled:
their bytes are kept as they are.
-/

set_option autoImplicit false

namespace Blazesym.Maps
open Blazesym.Util

/-- `src/maps.rs:35-52` (`EntryPath`). -/
structure EntryPath where
  mapsFile : Bytes
  symbolicPath : Bytes
  deriving DecidableEq, Repr

/-- `src/maps.rs:69-78` (`PathName`). -/
inductive PathName where
  | path (p : EntryPath)
  | component (c : Bytes)
  deriving DecidableEq, Repr

/-- `src/maps.rs:105-107` (`Perm::R`, `Perm::W`, `Perm::X`). -/
def permR : Nat := 4
def permW : Nat := 2
def permX : Nat := 1

/-- `src/maps.rs:161-168` (`MapsEntry`). -/
structure Entry where
  start : Nat
  stop : Nat
  perm : Nat
  offset : Nat
  pathName : Option PathName
  buildId : Option Bytes
  deriving DecidableEq, Repr

/-- `src/maps.rs:212-213`: `/proc/{pid}/map_files/{vma_start:x}-{vma_end:x}`. -/
def mapsFile (pid start stop : Nat) : Bytes :=
  ascii "/proc/" ++ fmtDec pid ++ ascii "/map_files/" ++ fmtHex start ++ ascii "-" ++ fmtHex stop

/-- `src/maps.rs:197-229` (`parse_path_name`).  `bytes_to_path` cannot fail on Unix. -/
def parsePathName (path : Bytes) (pid start stop : Nat) : Option PathName :=
  match path with
  | [] => none
  | b :: _ =>
    if b = 47 then
      some (.path ⟨mapsFile pid start stop, (stripSuffix path (ascii " (deleted)")).getD path⟩)
    else some (.component path)

/-- `src/maps.rs:231-243` (`parse_mode_str`). -/
def parseModeStr (mode : Bytes) : Option Nat :=
  match mode with
  | r :: w :: x :: _ =>
    let perm := 0
    let perm := if r = 114 then perm ||| permR else perm
    let perm := if w = 119 then perm ||| permW else perm
    let perm := if x = 120 then perm ||| permX else perm
    some perm
  | _ => none

/-- The closures `split_once` and the `ok_or_else` of `src/maps.rs:246-337`: `None` is invalid
data, a panic stays a panic. -/
def orInvalid {α : Type} : Option α → Except Err α
  | some a => .ok a
  | none => .error .invalidData

/-- See `orInvalid`. -/
def hexOrInvalid (s : Bytes) : Except Err Nat :=
  match fromRadix16 s with
  | .ok v => .ok v
  | .error .none => .error .invalidData
  | .error .panic => .error .panic

/-- `src/maps.rs:246-337` (`parse_maps_line`). -/
def parseMapsLine (line : Bytes) (pid : Nat) : Except Err Entry := do
  let (addressStr, line) ← orInvalid (splitBytes line isAsciiWs)
  let (loadedStr, endStr) ← orInvalid (splitOnce addressStr (fun b => b == 45))
  let loadedAddr ← hexOrInvalid loadedStr
  let endAddr ← hexOrInvalid endStr
  let (modeStr, line) ← orInvalid (splitBytes line isAsciiWs)
  let perm ← orInvalid (parseModeStr modeStr)
  let (offsetStr, line) ← orInvalid (splitBytes line isAsciiWs)
  let offset ← hexOrInvalid offsetStr
  let (_dev, line) ← orInvalid (splitBytes line isAsciiWs)
  let pathStr :=
    match splitBytes line isAsciiWs with
    | some (_inode, line) => trimAscii line
    | none => []
  pure ⟨loadedAddr, endAddr, perm, offset, parsePathName pathStr pid loadedAddr endAddr, none⟩

/-- `src/maps.rs:347-385` (`MapsEntryIter`, `parse_file`): the items produced for a file with
the given contents, evaluated eagerly.  Errors of the reader are not modelled. -/
def parseFile (text : Bytes) (pid : Nat) : List (Except Err Entry) :=
  (splitLines text).map (fun line => parseMapsLine line pid)

/-- `src/maps.rs:398-403` (`filter_relevant`). -/
def filterRelevant (entry : Entry) : Bool := entry.perm &&& (permR ||| permX) != 0

/-- `src/maps.rs:407-410` (`parse_filtered`): errors are kept. -/
def parseFiltered (text : Bytes) (pid : Nat) : List (Except Err Entry) :=
  (parseFile text pid).filter (fun result =>
    match result with
    | .ok e => filterRelevant e
    | .error _ => true)

/-- `collect::<Result<..>>()` (standard library): the first error, or all items. -/
def collect {α : Type} : List (Except Err α) → Except Err (List α)
  | [] => .ok []
  | .error e :: _ => .error e
  | .ok a :: t =>
    match collect t with
    | .error e => .error e
    | .ok l => .ok (a :: l)

end Blazesym.Maps
