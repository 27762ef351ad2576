import Verif.Gsym.LineTab
import Verif.Gsym.Inline
import Verif.Symbolize.Types

/-! # Model of the GSYM resolver (`src/gsym/resolver.rs`) -/

set_option autoImplicit false

namespace Blazesym.Gsym
open Blazesym.Util Blazesym.Symbolize

/-- `ok_or_invalid_data(..)?`. -/
def orInvalid {α : Type} : Option α → Except Err α
  | some a => .ok a
  | none => .error .invalidData

/-- `src/gsym/resolver.rs:105-131` (`query_frame_code_info`). -/
def queryFrameCodeInfo (ctx : Context) (fileIdx line : Nat) : Except Err CodeInfo := do
  let finfo ← orInvalid (ctx.fileInfo fileIdx)
  let dir ← orInvalid (ctx.getStr finfo.directory)
  let file ← orInvalid (ctx.getStr finfo.filename)
  return { dir := some dir, file, line := some line, column := none }

/-- `src/gsym/resolver.rs:241-268`: collecting the line table row and the inline stack. -/
def collectAddrData (symAddr addr : Nat) (inlinedFns : Bool) : List AddrData →
    Option LineTableRow → List InlineFrame → Except Err (Option LineTableRow × List InlineFrame)
  | [], row, stack => .ok (row, stack)
  | ent :: rest, row, stack =>
    if ent.typ = INFO_TYPE_LINE_TABLE_INFO then
      if row.isNone then do
        let row ← parseLineTabInfo ent.data symAddr addr
        collectAddrData symAddr addr inlinedFns rest row stack
      else collectAddrData symAddr addr inlinedFns rest row stack
    else if ent.typ = INFO_TYPE_INLINE_INFO ∧ inlinedFns = true then
      if stack.isEmpty then do
        let stack ← parseInlineStack ent.data symAddr addr stack
        collectAddrData symAddr addr inlinedFns rest row stack
      else collectAddrData symAddr addr inlinedFns rest row stack
    else collectAddrData symAddr addr inlinedFns rest row stack

/-- `inlined.last_mut().map(|f| &mut f.code_info)` with `swap`: replace the code
information of the last element. -/
def setLastCodeInfo (inlined : List InlinedFn) (ci : Option CodeInfo) : List InlinedFn :=
  match inlined.getLast? with
  | some f => inlined.dropLast ++ [{ f with codeInfo := ci }]
  | none => []

/-- The loop of `src/gsym/resolver.rs:294-322`: `lineInfo` is the symbol's code information
so far, `inlined` the functions pushed so far. -/
def addFrames (ctx : Context) : List InlineFrame → CodeInfo → List InlinedFn →
    Except Err (CodeInfo × List InlinedFn)
  | [], lineInfo, inlined => .ok (lineInfo, inlined)
  | frame :: rest, lineInfo, inlined => do
    let name ← orInvalid (ctx.getUtf8 frame.name)
    let codeInfo ← queryFrameCodeInfo ctx frame.callFile frame.callLine
    match inlined.getLast? with
    | some lastFn =>
      addFrames ctx rest lineInfo
        (setLastCodeInfo inlined (some codeInfo) ++ [⟨name, lastFn.codeInfo⟩])
    | none => addFrames ctx rest codeInfo (inlined ++ [⟨name, some lineInfo⟩])

/-- `src/gsym/resolver.rs:229-330` (`fill_code_info`). -/
def fillCodeInfo (ctx : Context) (sym : ResolvedSym) (addr : Nat) (opts : FindSymOpts)
    (symAddr : Nat) (info : AddrInfo) : Except Err ResolvedSym :=
  if opts.wantsCodeInfo then do
    let (row, stack) ← collectAddrData symAddr addr opts.wantsInlined
      (parseAddressData info.data) none []
    match row with
    | none => return sym
    | some row =>
      let lineInfo ← queryFrameCodeInfo ctx row.fileIdx row.fileLine
      match stack with
      | [] => return { sym with codeInfo := some lineInfo, inlined := [] }
      | first :: frames =>
        let name ← orInvalid (ctx.getUtf8 first.name)
        let (lineInfo, inlined) ← addFrames ctx frames lineInfo []
        return { sym with name, codeInfo := some lineInfo, inlined }
  else return sym

/-- `src/gsym/resolver.rs:175-225` (`find_sym`). -/
def findSym (ctx : Context) (addr : Nat) (opts : FindSymOpts) :
    Except Err (Except Reason ResolvedSym) :=
  match ctx.findAddr addr with
  | none => .ok (.error .unknownAddr)
  | some idx => do
    let symAddr ← orInvalid (ctx.addrAt idx)
    if addr < symAddr then return .error .unknownAddr
    else
      let info ← orInvalid (ctx.addrInfo idx)
      -- `info.size > 0 && addr >= sym_addr + info.size`: the sum is not formed for size 0
      let beyond ← (if info.size > 0 then do
          let stop ← addU64 symAddr info.size
          return decide (addr ≥ stop)
        else return false : Except Err Bool)
      if beyond then return .error .unknownAddr
      else
        let name ← orInvalid (ctx.getUtf8 info.name)
        let sym ← fillCodeInfo ctx
          { name, module := none, addr := symAddr, size := some info.size, lang := .unknown, codeInfo := none,
            inlined := [] } addr opts symAddr info
        return .ok sym

end Blazesym.Gsym
