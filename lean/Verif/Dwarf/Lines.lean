import Verif.Dwarf.Data
import Verif.Util.Join
import Verif.Util.Search
import Verif.Util.Sort

/-! # Model of line tables (`src/dwarf/lines.rs`) -/

set_option autoImplicit false

namespace Blazesym.Dwarf
open Blazesym.Util

/-- `src/dwarf/lines.rs:42-48` (`path_push`). -/
def pathPush (path p : Bytes) : Bytes :=
  if p.head? = some 47 then p else pathJoin path p

/-- `src/dwarf/lines.rs:50-74` (`render_file`).  On Unix, `bytes_to_path` and `bytes_to_os_str`
cannot fail. -/
def renderFile (compDir : Option Bytes) (file : FileEntry) : Except Err (Bytes × Bytes) := do
  let dir := compDir.getD []
  let dir ←
    if file.directoryIndex ≠ 0 then
      match file.directory with
      | some d => do
        let d ← d
        pure (pathPush dir d)
      | none => pure dir
    else pure dir
  let name ← file.pathName
  return (dir, name)

/-- `src/dwarf/lines.rs:85-90` (`LineRow`). -/
structure LineRow where
  address : Nat
  fileIndex : Nat
  line : Nat
  column : Nat
  deriving DecidableEq, Repr

/-- `src/dwarf/lines.rs:78-82` (`LineSequence`). -/
structure LineSequence where
  start : Nat
  stop : Nat
  rows : List LineRow
  deriving DecidableEq, Repr

/-- `src/dwarf/lines.rs:93-96` (`Lines`). -/
structure Lines where
  files : List (Bytes × Bytes)
  sequences : List LineSequence
  deriving DecidableEq, Repr

/-- `src/dwarf/lines.rs:122-146`: the row appended to `sequence_rows`; a row at the address of the
last one replaces it. -/
def pushRow (rows : List LineRow) (row : Row) : List LineRow :=
  let new : LineRow :=
    { address := row.address, fileIndex := row.fileIndex, line := row.line % u32Size,
      column := row.column % u32Size }
  match rows.getLast? with
  | some last =>
    if last.address = row.address then
      rows.dropLast ++ [{ last with fileIndex := new.fileIndex, line := new.line, column := new.column }]
    else rows ++ [new]
  | none => [new]

/-- The loop of `src/dwarf/lines.rs:103-147`: `rows` is `sequence_rows`. -/
def sequenceLoop : List Row → List LineRow → List LineSequence → List LineSequence
  | [], _, sequences => sequences
  | row :: rest, rows, sequences =>
    if row.endSequence then
      match rows.head? with
      | some first =>
        sequenceLoop rest [] (sequences ++ [{ start := first.address, stop := row.address, rows }])
      | none => sequenceLoop rest rows sequences
    else sequenceLoop rest (pushRow rows row) sequences

/-- `src/dwarf/lines.rs:150-153`: the file with index zero, which need not exist. -/
def firstFile (compDir : Option Bytes) : Option FileEntry → Except Err (Bytes × Bytes)
  | some file => renderFile compDir file
  | none => .ok ([], [])

/-- `src/dwarf/lines.rs:99-163` (`parse`). -/
def parseLines (σ : Sorter) (compDir : Option Bytes) (prog : LineProgram) : Except Err Lines := do
  let sequences ← finish prog.fail (sequenceLoop prog.rows [] [])
  let sequences := σ.sort (fun a b => decide (a.start ≤ b.start)) sequences
  let first ← firstFile compDir prog.file0
  let files ← prog.files.mapM (renderFile compDir)
  return { files := first :: files, sequences }

/-- `src/dwarf/location.rs:33-44` (`Location`). -/
structure Location where
  dir : Bytes
  file : Bytes
  line : Option Nat
  column : Option Nat
  deriving DecidableEq, Repr

/-- `src/dwarf/lines.rs:165-180` (`row_location`). -/
def Lines.rowLocation (lines : Lines) (row : LineRow) : Except Err Location :=
  match lines.files[row.fileIndex]? with
  | none => .error .panic
  | some (dir, file) =>
    .ok { dir, file, line := if row.line ≠ 0 then some row.line else none,
          column := if row.line ≠ 0 then some row.column else none }

/-- The comparison of `src/dwarf/lines.rs:183-191`. -/
def sequenceCmp (probe : Nat) (s : LineSequence) : Ordering :=
  if probe < s.start then .gt else if s.stop ≤ probe then .lt else .eq

/-- `src/dwarf/lines.rs:200-204`: the position found or the one before the position to insert at. -/
def atOrBefore : Sum Nat Nat → Option Nat
  | .inl x => some x
  | .inr 0 => none
  | .inr (x + 1) => some x

/-- `src/dwarf/lines.rs:182-207` (`find_location`).  Indexing with the position found is in bounds,
see `binarySearchBy_contract`; out of bounds stands for a panic. -/
def Lines.findLocation (lines : Lines) (probe : Nat) : Except Err (Option Location) :=
  match binarySearchBy lines.sequences (sequenceCmp probe) with
  | .inr _ => .ok none
  | .inl i =>
    match lines.sequences[i]? with
    | none => .error .panic
    | some sequence =>
      match atOrBefore (binarySearchBy sequence.rows (fun row => compare row.address probe)) with
      | none => .ok none
      | some idx =>
        match sequence.rows[idx]? with
        | none => .error .panic
        | some row => (lines.rowLocation row).map some

end Blazesym.Dwarf
