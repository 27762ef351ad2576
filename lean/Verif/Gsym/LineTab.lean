import Verif.Gsym.Parser

/-! # Model of the GSYM line table (`src/gsym/linetab.rs`, `src/gsym/resolver.rs:133-171`) -/

set_option autoImplicit false

namespace Blazesym.Gsym
open Blazesym.Util

/-- `src/gsym/linetab.rs:35-42` (`LineTableHeader`). -/
structure LineTableHeader where
  minDelta : Int
  maxDelta : Int
  firstLine : Nat
  deriving DecidableEq, Repr

/-- `src/gsym/linetab.rs:56-67` (`LineTableHeader::parse`). -/
def LineTableHeader.parse : Rd LineTableHeader := do
  let minDelta ← readI64Leb128
  let maxDelta ← readI64Leb128
  let firstLine ← readU64Leb128
  pure ⟨minDelta, maxDelta, firstLine % u32Size⟩

/-- `src/gsym/linetab.rs:71-75` (`LineTableRow`). -/
structure LineTableRow where
  addr : Nat
  fileIdx : Nat
  fileLine : Nat
  deriving DecidableEq, Repr

/-- `src/gsym/linetab.rs:87-93` (`from_header`). -/
def LineTableRow.fromHeader (header : LineTableHeader) (symaddr : Nat) : LineTableRow :=
  ⟨symaddr, 1, header.firstLine⟩

/-- `src/gsym/linetab.rs:25-32` (`RunResult`). -/
inductive RunResult where
  | ok
  | newRow
  | done
  deriving DecidableEq, Repr

/-- A result that has to fit `i64`, in a build with overflow checks. -/
def chkI64 (z : Int) : Except Fail Int :=
  if -9223372036854775808 ≤ z ∧ z < 9223372036854775808 then .ok z else .error .panic

/-- A result that has to fit `i32`, in a build with overflow checks. -/
def chkI32 (z : Int) : Except Fail Int :=
  if -2147483648 ≤ z ∧ z < 2147483648 then .ok z else .error .panic

/-- A result that has to fit `u64`, in a build with overflow checks. -/
def chkU64 (n : Nat) : Except Fail Nat := if n < u64Size then .ok n else .error .panic

/-- The cast `as u32` of a signed integer. -/
def asU32 (z : Int) : Nat := (z % 4294967296).toNat

/-- The cast `as u64` of a signed integer. -/
def asU64 (z : Int) : Nat := (z % 18446744073709551616).toNat

/-- The cast `as i32`. -/
def asI32 (z : Int) : Int := (z + 2147483648) % 4294967296 - 2147483648

/-- `src/gsym/linetab.rs:137-150`: the effect of a special operator, `None` if the range of
line deltas is empty.  Rust's `%` and `/` truncate. -/
def runSpecial (row : LineTableRow) (header : LineTableHeader) (op : Nat) :
    Except Fail LineTableRow := do
  let adjusted : Int := (op : Int) - 4
  let d ← chkI64 (header.maxDelta - header.minDelta)
  let range ← chkI64 (d + 1)
  if range = 0 then .error .none
  else
    let lineDelta ← chkI64 (header.minDelta + adjusted.tmod range)
    let fileLine ← chkI32 (asI32 row.fileLine + asI32 lineDelta)
    let addr ← chkU64 (row.addr + asU64 (adjusted.tdiv range))
    .ok { row with fileLine := asU32 fileLine, addr := addr }

/-- A computation without access to the cursor. -/
def Rd.lift {α : Type} (x : Except Fail α) : Rd α := fun c => (x, c)

/-- `src/gsym/linetab.rs:107-153` (`run_op`): the new row and the outcome. -/
def runOp (row : LineTableRow) (header : LineTableHeader) : Rd (LineTableRow × RunResult) := do
  let op ← readU8
  match op with
  | 0 => return (row, .done)
  | 1 =>
    let f ← readU64Leb128
    return ({ row with fileIdx := f % u32Size }, .ok)
  | 2 =>
    let adv ← readU64Leb128
    let addr ← Rd.lift (chkU64 (row.addr + adv))
    return ({ row with addr := addr }, .newRow)
  | 3 =>
    let adv ← readI64Leb128
    let line ← Rd.lift (chkI64 (row.fileLine + adv))
    return ({ row with fileLine := asU32 line }, .ok)
  | op =>
    let row ← Rd.lift (runSpecial row header op)
    return (row, .newRow)

/-- `src/gsym/resolver.rs:147-170`: the loop of `parse_line_tab_info` and what follows.
Each operator takes a byte, so as many rounds as there are bytes suffice. -/
def lineLoop (header : LineTableHeader) (addr : Nat) :
    Nat → LineTableRow → LineTableRow → Nat → Cursor → Except Err (Option LineTableRow)
  | 0, row, _, cnt, _ => .ok (if cnt = 0 then none else some row)
  | fuel + 1, row, last, cnt, c =>
    if c.data = [] then .ok (if cnt = 0 then none else some row)
    else
      match runOp row header c with
      | (.ok (row', .ok), c') => lineLoop header addr fuel row' last cnt c'
      | (.ok (row', .newRow), c') =>
        if addr < row'.addr then
          if cnt + 1 = 1 then .ok none else .ok (some last)
        else lineLoop header addr fuel row' row' (cnt + 1) c'
      | (.ok (row', .done), _) => .ok (if cnt = 0 then none else some row')
      | (.error .none, _) => .ok (if cnt = 0 then none else some row)
      | (.error .panic, _) => .error .panic

/-- `src/gsym/resolver.rs:133-171` (`parse_line_tab_info`). -/
def parseLineTabInfo (data : Cursor) (symaddr addr : Nat) : Except Err (Option LineTableRow) :=
  match LineTableHeader.parse data with
  | (.error .none, _) => .error .invalidData
  | (.error .panic, _) => .error .panic
  | (.ok header, c) =>
    let row := LineTableRow.fromHeader header symaddr
    lineLoop header addr c.data.length row row 0 c

end Blazesym.Gsym
