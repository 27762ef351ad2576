import Verif.Breakpad.Types
import Verif.Breakpad.ErrorText

/-! # Model of the Breakpad parser (`src/breakpad/parser.rs`, `src/breakpad/file.rs`) -/

set_option autoImplicit false

namespace Blazesym.Breakpad
open Blazesym.Util

/-- `char::to_digit` of a byte (standard library). -/
def toDigit (radix : Nat) (c : UInt8) : Option Nat :=
  let v :=
    if 48 ≤ c.toNat ∧ c.toNat ≤ 57 then some (c.toNat - 48)
    else if 97 ≤ c.toNat ∧ c.toNat ≤ 102 then some (c.toNat - 87)
    else if 65 ≤ c.toNat ∧ c.toNat ≤ 70 then some (c.toNat - 55)
    else none
  match v with
  | none => none
  | some d => if d < radix then some d else none

/-- `src/breakpad/parser.rs:222-232` (`Line`). -/
inductive Line where
  | module (name : Bytes)
  | info
  | file (id : Nat) (name : Bytes)
  | inlineOrigin (id : Nat) (name : Bytes)
  | pub (p : PublicSymbol)
  | function (f : Function)
  | stackWin
  | stackCfi
  deriving DecidableEq, Repr

/-- The loop of `src/breakpad/parser.rs:244-252`, over at most the given number of bytes, with
the value so far (of a type of `bits` bits) and the number of digits so far. -/
def hexLoop (bits : Nat) : Nat → Bytes → Nat → Nat → Nat × Nat
  | 0, _, res, k => (res, k)
  | _ + 1, [], res, k => (res, k)
  | n + 1, v :: t, res, k =>
    match toDigit 16 v with
    | none => (res, k)
    | some digit => hexLoop bits n t ((res <<< 4) % 2 ^ bits ||| digit) (k + 1)

/-- `src/breakpad/parser.rs:235-261` (`hex_str`) for a type of the given number of bytes. -/
def hexStr (bytes : Nat) : Nom Nat := fun input =>
  let r := hexLoop (8 * bytes) (bytes * 2) input 0 0
  if r.2 = 0 then .error (.error [(input, .hexDigit)]) else .ok (input.drop r.2, r.1)

/-- The loop of `src/breakpad/parser.rs:274-282`.  Ten digits do not overflow the `u64`. -/
def decimalLoop : Nat → Bytes → Nat → Nat → Nat × Nat
  | 0, _, res, k => (res, k)
  | _ + 1, [], res, k => (res, k)
  | n + 1, v :: t, res, k =>
    match toDigit 10 v with
    | none => (res, k)
    | some digit => decimalLoop n t (res * 10 + digit) (k + 1)

/-- `src/breakpad/parser.rs:270-293` (`decimal_u32`). -/
def decimalU32 : Nom Nat := fun input =>
  let r := decimalLoop 10 input 0 0
  if r.2 = 0 then .error (.error [(input, .digit)])
  else if r.1 < u32Size then .ok (input.drop r.2, r.1)
  else .error (.error [(input, .tooLarge)])

/-- `src/breakpad/parser.rs:296-298` (`non_space`). -/
def nonSpace : Nom Bytes := takeWhile (fun c => c != 32)

/-- `src/breakpad/parser.rs:304-306` (`my_eol`). -/
def myEol : Nom Unit := do
  let _ ← takeWhile (fun b => b == 13)
  tag [10]

/-- `src/breakpad/parser.rs:312-314` (`not_my_eol`). -/
def notMyEol : Nom Bytes := takeWhile (fun b => b != 13 && b != 10)

/-- `terminated(tag(keyword), space1)`, the beginning of every record. -/
def keyword (k : Bytes) : Nom Unit := terminated (tag k) space1

/-- `terminated(map_res(not_my_eol, str::from_utf8), my_eol)`, a name at the end of a record. -/
def nameField : Nom Bytes := terminated (utf8 notMyEol) myEol

/-- `src/breakpad/parser.rs:317-327` (`module_line`).  `bytes_to_os_str` does not fail on Unix
(`src/util.rs:173-175`). -/
def moduleLine : Nom Bytes := do
  keyword (ascii "MODULE")
  cut (do
    let _ ← terminated nonSpace space1
    let _ ← terminated nonSpace space1
    let _ ← terminated nonSpace space1
    terminated notMyEol myEol)

/-- `src/breakpad/parser.rs:330-334` (`info_url`). -/
def infoUrl : Nom Unit := do
  keyword (ascii "INFO URL")
  let _ ← cut (terminated notMyEol myEol)

/-- `src/breakpad/parser.rs:337-340` (`info_line`). -/
def infoLine : Nom Bytes := do
  keyword (ascii "INFO")
  cut (terminated notMyEol myEol)

/-- `src/breakpad/parser.rs:343-350` (`file_line`). -/
def fileLine : Nom (Nat × Bytes) := do
  keyword (ascii "FILE")
  cut (do
    let id ← terminated decimalU32 space1
    let filename ← nameField
    pure (id, filename))

/-- `src/breakpad/parser.rs:353-360` (`inline_origin_line`). -/
def inlineOriginLine : Nom (Nat × Bytes) := do
  keyword (ascii "INLINE_ORIGIN")
  cut (do
    let id ← terminated decimalU32 space1
    let function ← nameField
    pure (id, function))

/-- `src/breakpad/parser.rs:363-379` (`public_line`). -/
def publicLine : Nom PublicSymbol := do
  keyword (ascii "PUBLIC")
  cut (do
    let _multiple ← opt (terminated (tag (ascii "m")) space1)
    let addr ← terminated (hexStr 8) space1
    let parameterSize ← terminated (hexStr 4) space1
    let name ← nameField
    pure { addr, name, parameterSize })

/-- `src/breakpad/parser.rs:382-398` (`func_line_data`). -/
def funcLineData : Nom SourceLine := do
  let addr ← terminated (hexStr 8) space1
  let size ← terminated (hexStr 4) space1
  let line ← terminated decimalU32 space1
  let file ← terminated decimalU32 myEol
  pure { addr, size, file, line }

/-- `src/breakpad/parser.rs:401-421` (`func_line`). -/
def funcLine : Nom Function := do
  keyword (ascii "FUNC")
  cut (do
    let _multiple ← opt (terminated (tag (ascii "m")) space1)
    let addr ← terminated (hexStr 8) space1
    let size ← terminated (hexStr 4) space1
    let parameterSize ← terminated (hexStr 4) space1
    let name ← nameField
    pure { addr, size, parameterSize, name, lines := [], inlinees := [] })

/-- `src/breakpad/parser.rs:425-427` (`inline_address_range`). -/
def inlineAddressRange : Nom (Nat × Nat) := do
  let addr ← terminated (hexStr 8) space1
  let size ← hexStr 4
  pure (addr, size)

/-- `src/breakpad/parser.rs:433-456` (`inline_line`). -/
def inlineLine : Nom (List Inlinee) := do
  keyword (ascii "INLINE")
  let f ← cut (do
    let depth ← terminated decimalU32 space1
    let callLine ← terminated decimalU32 space1
    let callFile ← terminated decimalU32 space1
    let originId ← terminated decimalU32 space1
    pure (fun (r : Nat × Nat) =>
      ({ depth, addr := r.1, size := r.2, callFile, callLine, originId } : Inlinee)))
  let addressRanges ← cut (terminated (separatedList1 space1 inlineAddressRange) myEol)
  pure (addressRanges.map f)

/-- `src/breakpad/parser.rs:459-464` (`stack_win_line`). -/
def stackWinLine : Nom Unit := do
  keyword (ascii "STACK WIN")
  let _ ← cut (terminated notMyEol myEol)

/-- `src/breakpad/parser.rs:467-472` (`stack_cfi`). -/
def stackCfi : Nom Unit := do
  keyword (ascii "STACK CFI")
  let _ ← cut (terminated notMyEol myEol)

/-- `src/breakpad/parser.rs:475-480` (`stack_cfi_init`). -/
def stackCfiInit : Nom Unit := do
  keyword (ascii "STACK CFI INIT")
  let _ ← cut (terminated notMyEol myEol)

/-- `src/breakpad/parser.rs:483-498` (`line`). -/
def line : Nom Line :=
  terminated
    (alt
      (orElse (mapTo infoUrl (fun _ => .info))
      (orElse (mapTo infoLine (fun _ => .info))
      (orElse (mapTo fileLine (fun r => .file r.1 r.2))
      (orElse (mapTo inlineOriginLine (fun r => .inlineOrigin r.1 r.2))
      (orElse (mapTo publicLine .pub)
      (orElse (mapTo funcLine .function)
      (orElse (mapTo stackWinLine (fun _ => .stackWin))
      (orElse (mapTo stackCfiInit (fun _ => .stackCfi))
        (mapTo moduleLine .module))))))))))
    multispace0

/-- The values `cur_item` can have: only these two kinds of lines are ever stored in it
(`src/breakpad/parser.rs:561, 574, 627-634`). -/
inductive Item where
  | function (f : Function)
  | stackCfi
  deriving DecidableEq, Repr

/-- `src/breakpad/parser.rs:504-512` (`SymbolParser`).  The line counter does not overflow: it
is at most the length of the input. -/
structure SymbolParser where
  module : Option Bytes := none
  files : List (Nat × Bytes) := []
  inlineOrigins : List (Nat × Bytes) := []
  publics : List PublicSymbol := []
  functions : List Function := []
  lines : Nat := 0
  curItem : Option Item := none
  deriving DecidableEq, Repr

/-- `src/breakpad/parser.rs:643-666` (`parse_func_subline`), returning the changed parser and
function instead of changing them. -/
def parseFuncSubline (slf : SymbolParser) (cur : Function) : Nom (SymbolParser × Function) :=
  fun input =>
  if (ascii "INLINE_ORIGIN ").isPrefixOf input then
    match inlineOriginLine input with
    | .error e => .error e
    | .ok (rest, (id, function)) =>
      .ok (rest, ({ slf with inlineOrigins := (id, function) :: slf.inlineOrigins }, cur))
  else if (ascii "INLINE ").isPrefixOf input then
    match inlineLine input with
    | .error e => .error e
    | .ok (rest, newInlinees) =>
      .ok (rest, (slf, { cur with inlinees := cur.inlinees ++ newInlinees }))
  else
    match funcLineData input with
    | .error e => .error e
    | .ok (rest, l) => .ok (rest, (slf, { cur with lines := cur.lines ++ [l] }))

/-- `src/breakpad/parser.rs:670-682` (`finish_item`). -/
def SymbolParser.finishItem (slf : SymbolParser) : Item → SymbolParser
  | .function cur =>
    { slf with functions := slf.functions ++ [{ cur with
        lines := sortByKey (fun x => pairKey x.addr x.size) cur.lines
        inlinees := sortByKey (fun x => pairKey x.depth x.addr) cur.inlinees }] }
  | .stackCfi => slf

/-- What `src/breakpad/parser.rs:604-638` does with a top level line.  The
`debug_assert_eq!(self.module, None)` is a panic. -/
def SymbolParser.addLine (slf : SymbolParser) (l : Line) : Except Fail SymbolParser :=
  let slf' : Except Fail SymbolParser :=
    match l with
    | .module module =>
      if slf.lines ≠ 0 then .error .lateModule
      else if slf.module ≠ none then .error .panic
      else .ok { slf with module := some module }
    | .info => .ok slf
    | .file id filename => .ok { slf with files := (id, filename) :: slf.files }
    | .inlineOrigin id function => .ok { slf with inlineOrigins := (id, function) :: slf.inlineOrigins }
    | .pub p => .ok { slf with publics := slf.publics ++ [p] }
    | .stackWin => .ok slf
    | .function f => .ok { slf with curItem := some (.function f) }
    | .stackCfi => .ok { slf with curItem := some .stackCfi }
  match slf' with
  | .error e => .error e
  | .ok slf' => .ok { slf' with lines := slf'.lines + 1 }

/-- The loop of `src/breakpad/parser.rs:536-639`.  Every iteration consumes input or finishes the
current item, so that twice the length of the input plus two iterations are enough; running out
of them is a panic here, which `loop_fails` shows not to occur. -/
def SymbolParser.parseLoop : Nat → SymbolParser → Bytes → Except Fail SymbolParser
  | 0, _, _ => .error .panic
  | fuel + 1, slf, input =>
    if input = [] then .ok slf
    else
      match slf.curItem with
      | some (.function cur) =>
        match parseFuncSubline { slf with curItem := none } cur input with
        | .ok (newInput, (slf', cur')) =>
          parseLoop fuel { slf' with curItem := some (.function cur'), lines := slf'.lines + 1 } newInput
        | .error _ => parseLoop fuel ({ slf with curItem := none }.finishItem (.function cur)) input
      | some .stackCfi =>
        match Breakpad.stackCfi input with
        | .ok (newInput, _) =>
          parseLoop fuel { slf with curItem := some .stackCfi, lines := slf.lines + 1 } newInput
        | .error _ => parseLoop fuel ({ slf with curItem := none }.finishItem .stackCfi) input
      | none =>
        match Breakpad.line input with
        | .error err => .error (convertNomErr input err)
        | .ok (newInput, l) =>
          match slf.addLine l with
          | .error e => .error e
          | .ok slf' => parseLoop fuel slf' newInput

/-- The input up to and including the last newline (`src/breakpad/parser.rs:526-532`). -/
def trimPartialLine (input : Bytes) : Bytes :=
  (input.reverse.dropWhile (fun b => b != 10)).reverse

/-- `src/breakpad/parser.rs:521-640` (`SymbolParser::parse`): the number of bytes consumed and
the changed parser. -/
def SymbolParser.parse (slf : SymbolParser) (input : Bytes) : Except Fail (Nat × SymbolParser) :=
  let input := trimPartialLine input
  match input with
  | [] => .ok (0, slf)
  | _ :: _ =>
    match slf.parseLoop (2 * input.length + 2) input with
    | .error e => .error e
    | .ok slf' => .ok (input.length, slf')

/-- `src/breakpad/parser.rs:687-705` (`SymbolParser::finish`). -/
def SymbolParser.finish (slf : SymbolParser) : SymbolFile :=
  let slf :=
    match slf.curItem with
    | some item => { slf with curItem := none }.finishItem item
    | none => slf
  { module := slf.module
    files := slf.files
    functions := sortByKey (fun f => pairKey f.addr f.size) slf.functions
    inlineOrigins := slf.inlineOrigins }

/-- `src/breakpad/file.rs:37-53` (`SymbolFile::parse`). -/
def readSymbols (input : Bytes) : Except Fail SymbolFile :=
  match ({} : SymbolParser).parse input with
  | .error e => .error e
  | .ok (consumed, parser) =>
    if consumed = 0 then .error .empty
    else if consumed ≠ input.length then .error .unfinished
    else .ok parser.finish

/-- `src/breakpad/file.rs:56-58` (`SymbolFile::from_bytes`), with the kind of the error only. -/
def fromBytes (input : Bytes) : Except Err SymbolFile :=
  match readSymbols input with
  | .error e => .error e.err
  | .ok file => .ok file

end Blazesym.Breakpad
