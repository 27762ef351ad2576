import Verif.Gsym.Parser

/-! # Model of GSYM inline information (`src/gsym/inline.rs`) -/

set_option autoImplicit false

namespace Blazesym.Gsym
open Blazesym.Util

/-- `src/gsym/inline.rs:7-11` (`InlineFrame`). -/
structure InlineFrame where
  name : Nat
  callFile : Nat
  callLine : Nat
  deriving DecidableEq, Repr

/-- A read whose absence is reported as `InvalidData` (`ok_or_invalid_data(..)?`); every
failure ends the whole parse, so the cursor is returned on success only. -/
def need {α : Type} (m : Rd α) (c : Cursor) : Except Err (α × Cursor) :=
  match m c with
  | (.ok a, c') => .ok (a, c')
  | (.error .none, _) => .error .invalidData
  | (.error .panic, _) => .error .panic

/-- The loop of `src/gsym/inline.rs:25-32`. -/
def skipRanges : Nat → Cursor → Except Err (Unit × Cursor)
  | 0, c => .ok ((), c)
  | n + 1, c => do
    let (_, c) ← need readU64Leb128 c
    let (_, c) ← need readU64Leb128 c
    skipRanges n c

/-- `src/gsym/inline.rs:105-122` (and `:34-46`): what follows the ranges; whether there are
children, the name, the call file and line as read. -/
def readTail (c : Cursor) : Except Err ((Bool × Nat × Nat × Nat) × Cursor) := do
  let (childCnt, c) ← need readU8 c
  let (name, c) ← need readU32 c
  let (callFile, c) ← need readU64Leb128 c
  let (callLine, c) ← need readU64Leb128 c
  return ((childCnt != 0, name, callFile, callLine), c)

mutual

/-- `src/gsym/inline.rs:17-55` (`skip`).  The nesting depth is not bounded by the code; the
budget models unbounded recursion, running out of it (which `C20_no_panic` excludes) is
a panic. -/
def skipNode : Nat → Cursor → Except Err (Bool × Cursor)
  | 0, _ => .error .panic
  | fuel + 1, c => do
    let (rangeCnt, c) ← need readU64Leb128 c
    if rangeCnt = 0 then return (false, c)
    let (_, c) ← skipRanges rangeCnt c
    let ((hasChildren, _, _, _), c) ← readTail c
    if hasChildren then
      let (_, c) ← skipNodes fuel c
      return (true, c)
    else return (true, c)

/-- `src/gsym/inline.rs:49-51`: `while Self::skip(data)? {}`. -/
def skipNodes : Nat → Cursor → Except Err (Unit × Cursor)
  | 0, _ => .error .panic
  | fuel + 1, c => do
    let (more, c) ← skipNode fuel c
    if more then skipNodes fuel c else return ((), c)

end

/-- The loop of `src/gsym/inline.rs:76-103`: whether a range contains the address, and the
start of the first range (`none` if there was none so far). -/
def readRanges (base addr : Nat) : Nat → Bool → Option Nat → Cursor →
    Except Err ((Bool × Option Nat) × Cursor)
  | 0, found, first, c => .ok ((found, first), c)
  | n + 1, found, first, c => do
    let (offset, c) ← need readU64Leb128 c
    let (size, c) ← need readU64Leb128 c
    match checkedAdd base offset with
    | none => .error .invalidData
    | some start =>
      match checkedAdd start size with
      | none => .error .invalidData
      | some stop =>
        readRanges base addr n (found || (decide (start ≤ addr) && decide (addr < stop)))
          (first.or (some start)) c

mutual

/-- `src/gsym/inline.rs:57-141` (`parse_into_stack`); returns the extended stack. -/
def parseNode (addr : Nat) : Nat → Nat → List InlineFrame → Cursor →
    Except Err ((Bool × List InlineFrame) × Cursor)
  | 0, _, _, _ => .error .panic
  | fuel + 1, base, stack, c => do
    let (rangeCnt, c) ← need readU64Leb128 c
    if rangeCnt = 0 then return ((false, stack), c)
    let ((found, first), c) ← readRanges base addr rangeCnt false none c
    let ((hasChildren, name, callFile, callLine), c) ← readTail c
    if callFile ≥ u32Size then .error .invalidData
    else
      let callLine := if callLine < u32Size then callLine else u32Size - 1
      if found then
        let stack := if name > 0 then stack ++ [⟨name, callFile, callLine⟩] else stack
        if hasChildren then
          let (stack, c) ← parseNodes addr fuel (first.getD 0) stack c
          return ((true, stack), c)
        else return ((true, stack), c)
      else if hasChildren then
        let (_, c) ← skipNodes fuel c
        return ((true, stack), c)
      else return ((true, stack), c)

/-- `src/gsym/inline.rs:134`: `while Self::parse_into_stack(..)? {}`. -/
def parseNodes (addr : Nat) : Nat → Nat → List InlineFrame → Cursor →
    Except Err (List InlineFrame × Cursor)
  | 0, _, _, _ => .error .panic
  | fuel + 1, base, stack, c => do
    let ((more, stack), c) ← parseNode addr fuel base stack c
    if more then parseNodes addr fuel base stack c else return (stack, c)

end

/-- A budget that suffices for all data of a given length: a node takes at least a byte. -/
def budget (c : Cursor) : Nat := 2 * c.data.length + 2

/-- `src/gsym/inline.rs:145-153` (`parse_inline_stack`). -/
def parseInlineStack (data : Cursor) (base addr : Nat) (stack : List InlineFrame) :
    Except Err (List InlineFrame) := do
  let ((_, stack), _) ← parseNode addr (budget data) base stack data
  return stack

end Blazesym.Gsym
