import Verif.Util.Search
import Verif.Util.StableSort
import Mathlib.Data.List.Lex

/-!
# Model of the in-memory form of Breakpad symbol files (`src/breakpad/types.rs`)

A `HashMap` filled by `insert` is the list of insertions, newest first.
-/

set_option autoImplicit false

namespace Blazesym.Breakpad
open Blazesym.Util

/-- `src/breakpad/types.rs:36-47` (`PublicSymbol`). -/
structure PublicSymbol where
  addr : Nat
  name : Bytes
  parameterSize : Nat
  deriving DecidableEq, Repr

/-- `src/breakpad/types.rs:51-62` (`SourceLine`). -/
structure SourceLine where
  addr : Nat
  size : Nat
  file : Nat
  line : Nat
  deriving DecidableEq, Repr

/-- `src/breakpad/types.rs:66-81` (`Inlinee`). -/
structure Inlinee where
  depth : Nat
  addr : Nat
  size : Nat
  callFile : Nat
  callLine : Nat
  originId : Nat
  deriving DecidableEq, Repr

/-- `src/breakpad/types.rs:85-105` (`Function`). -/
structure Function where
  addr : Nat
  size : Nat
  parameterSize : Nat
  name : Bytes
  lines : List SourceLine
  inlinees : List Inlinee
  deriving DecidableEq, Repr

/-- `src/breakpad/types.rs:186-197` (`SymbolFile`); the lazily created name index is a function
of the rest. -/
structure SymbolFile where
  module : Option Bytes
  files : List (Nat × Bytes)
  functions : List Function
  inlineOrigins : List (Nat × Bytes)
  deriving DecidableEq, Repr

/-- The test of `src/breakpad/types.rs:115-117` and `207-208` for a record of the given start
and size.  The addition panics on overflow (with overflow checks); it is evaluated only if the
parts before it do not decide. -/
def covers (start size addr : Nat) : Except Err Bool :=
  if start = addr ∧ size = 0 then .ok true
  else if start ≤ addr then
    match addU64 start size with
    | .error e => .error e
    | .ok stop => .ok (decide (addr < stop))
  else .ok false

/-- The loops of `src/breakpad/types.rs:110-121` and `202-213`. -/
def coverScan {α : Type} (start size : α → Nat) (addr : Nat) : List α → Except Err (Option α)
  | [] => .ok none
  | e :: rest =>
    if start e > addr then .ok none
    else
      match covers (start e) (size e) addr with
      | .error err => .error err
      | .ok true => .ok (some e)
      | .ok false => coverScan start size addr rest

/-- `src/breakpad/types.rs:108-122` (`find_line`). -/
def Function.findLine (f : Function) (addr : Nat) : Except Err (Option SourceLine) :=
  match findMatchOrLowerBoundByKey f.lines addr (fun l => l.addr) with
  | none => .ok none
  | some idx => coverScan (fun l => l.addr) (fun l => l.size) addr (f.lines.drop idx)

/-- `src/breakpad/types.rs:151-162`, the part of `find_inlinee_at_depth` that selects a record.
An index the binary search returns is in bounds; out of bounds would be a panic and is `none`
here (`candidate_spec` shows that it does not occur). -/
def Function.candidate (f : Function) (depth addr : Nat) : Option Inlinee :=
  match binarySearchBy f.inlinees
      (fun i => compare (pairKey i.depth i.addr) (pairKey depth addr)) with
  | .inl index => f.inlinees[index]?
  | .inr 0 => none
  | .inr (index + 1) => f.inlinees[index]?

/-- `src/breakpad/types.rs:150-172` (`find_inlinee_at_depth`). -/
def Function.findInlineeAtDepth (f : Function) (depth addr : Nat) : Option Inlinee :=
  match f.candidate depth addr with
  | none => none
  | some inlinee =>
    if inlinee.depth ≠ depth then none
    else if inlinee.addr + inlinee.size < u64Size then
      if addr < inlinee.addr + inlinee.size then some inlinee else none
    else none

/-- The loop of `src/breakpad/types.rs:176-178`.  The depth asked for is the number of records
found, as a `u32`; there are fewer than 2^32 records.  `fuel` bounds the number of iterations,
which is at most the number of records (`findInlineesLoop_fuel`). -/
def Function.findInlineesLoop (f : Function) (addr : Nat) : Nat → List Inlinee → List Inlinee
  | 0, inlinees => inlinees
  | fuel + 1, inlinees =>
    match f.findInlineeAtDepth (inlinees.length % u32Size) addr with
    | none => inlinees
    | some inlinee => f.findInlineesLoop addr fuel (inlinees ++ [inlinee])

/-- `src/breakpad/types.rs:174-180` (`find_inlinees`). -/
def Function.findInlinees (f : Function) (addr : Nat) : List Inlinee :=
  f.findInlineesLoop addr (f.inlinees.length + 1) []

/-- `src/breakpad/types.rs:200-214` (`find_function`). -/
def SymbolFile.findFunction (file : SymbolFile) (addr : Nat) : Except Err (Option Function) :=
  match findMatchOrLowerBoundByKey file.functions addr (fun f => f.addr) with
  | none => .ok none
  | some idx => coverScan (fun f => f.addr) (fun f => f.size) addr (file.functions.drop idx)

/-- The order key of a string (`str: Ord` is lexicographic on bytes). -/
def nameKey (b : Bytes) : List Nat := b.map UInt8.toNat

/-- `funcs[idx]`; indexes are in bounds (`byNameIdx_lt`), the default is never used. -/
def funcAt (funcs : List Function) (idx : Nat) : Function :=
  funcs[idx]?.getD ⟨0, 0, 0, [], [], []⟩

/-- `src/breakpad/types.rs:216-227` (`create_by_name_idx`). -/
def createByNameIdx (funcs : List Function) : List Nat :=
  sortByKey (fun idx => toLex (nameKey (funcAt funcs idx).name, (funcAt funcs idx).addr))
    (List.range funcs.length)

/-- `src/breakpad/types.rs:230-258` (`find_addr`). -/
def SymbolFile.findAddr (file : SymbolFile) (name : Bytes) : List Function :=
  let byNameIdx := createByNameIdx file.functions
  match findLowestMatchByKey byNameIdx (nameKey name)
      (fun idx => nameKey (funcAt file.functions idx).name) with
  | none => []
  | some idx =>
    ((byNameIdx.drop idx).takeWhile (fun idx => (funcAt file.functions idx).name == name)).map
      (funcAt file.functions)

end Blazesym.Breakpad
