import Verif.Gsym.Resolver
import Verif.Breakpad.Resolver
import Verif.Kernel.Ksym
import Verif.Session.Act

/-!
# Model of open GSYM, Breakpad and kallsyms files

The resolvers keep something between requests: `GsymResolver` has a buffer in which it collects inlined functions
(`src/gsym/resolver.rs:53-56`), the other two make an index of names when they are first asked for a name
(`src/breakpad/types.rs:194`, `src/kernel/ksym.rs:178`).  Here all of that is part of the state.  `Verif.Gsym.Resolver`,
`Verif.Breakpad.Resolver` and `Verif.Kernel.Ksym` have the same functions without it.

Not modelled: the borrow flag of the buffer's `RefCell`; the guard is dropped on every return and nothing called while
it exists uses the buffer.  The cache of BPF programs that a kallsyms resolver also has is that of `Verif.Kernel.BpfSys`;
here source locations of BPF programs are a function of the program.
-/

set_option autoImplicit false

namespace Blazesym.Opened
open Blazesym.Util Blazesym.Symbolize Blazesym.Cache Blazesym.Gsym

/-! ## GSYM -/

mutual

/-- `src/gsym/inline.rs:57-141` (`parse_into_stack`): the frames pushed before an error stay in the buffer. -/
def parseNodeOn (addr : Nat) : Nat → Nat → Cursor → Act (List InlineFrame) (Bool × Cursor)
  | 0, _, _, buf => (.error .panic, buf)
  | fuel + 1, base, c, buf =>
    match need readU64Leb128 c with
    | .error e => (.error e, buf)
    | .ok (rangeCnt, c) =>
      if rangeCnt = 0 then (.ok (false, c), buf)
      else
        match readRanges base addr rangeCnt false none c with
        | .error e => (.error e, buf)
        | .ok ((found, first), c) =>
          match readTail c with
          | .error e => (.error e, buf)
          | .ok ((hasChildren, name, callFile, callLine), c) =>
            if callFile ≥ u32Size then (.error .invalidData, buf)
            else
              let callLine := if callLine < u32Size then callLine else u32Size - 1
              if found then
                let buf := if name > 0 then buf ++ [⟨name, callFile, callLine⟩] else buf
                if hasChildren then
                  match parseNodesOn addr fuel (first.getD 0) c buf with
                  | (.error e, buf) => (.error e, buf)
                  | (.ok c, buf) => (.ok (true, c), buf)
                else (.ok (true, c), buf)
              else if hasChildren then
                match skipNodes fuel c with
                | .error e => (.error e, buf)
                | .ok (_, c) => (.ok (true, c), buf)
              else (.ok (true, c), buf)

/-- `src/gsym/inline.rs:134`: `while Self::parse_into_stack(..)? {}`. -/
def parseNodesOn (addr : Nat) : Nat → Nat → Cursor → Act (List InlineFrame) Cursor
  | 0, _, _, buf => (.error .panic, buf)
  | fuel + 1, base, c, buf =>
    match parseNodeOn addr fuel base c buf with
    | (.error e, buf) => (.error e, buf)
    | (.ok (more, c), buf) => if more then parseNodesOn addr fuel base c buf else (.ok c, buf)

end

/-- `src/gsym/inline.rs:145-153` (`parse_inline_stack`). -/
def parseInlineStackOn (data : Cursor) (base addr : Nat) : Act (List InlineFrame) Unit := fun buf =>
  match parseNodeOn addr (budget data) base data buf with
  | (.error e, buf) => (.error e, buf)
  | (.ok _, buf) => (.ok (), buf)

/-- The loop of `src/gsym/resolver.rs:245-268`. -/
def collectOn (symAddr addr : Nat) (inlinedFns : Bool) :
    List AddrData → Option LineTableRow → Act (List InlineFrame) (Option LineTableRow)
  | [], row, buf => (.ok row, buf)
  | ent :: rest, row, buf =>
    if ent.typ = INFO_TYPE_LINE_TABLE_INFO then
      if row.isNone then
        match parseLineTabInfo ent.data symAddr addr with
        | .error e => (.error e, buf)
        | .ok row => collectOn symAddr addr inlinedFns rest row buf
      else collectOn symAddr addr inlinedFns rest row buf
    else if ent.typ = INFO_TYPE_INLINE_INFO ∧ inlinedFns = true then
      if buf.isEmpty then
        match parseInlineStackOn ent.data symAddr addr buf with
        | (.error e, buf) => (.error e, buf)
        | (.ok (), buf) => collectOn symAddr addr inlinedFns rest row buf
      else collectOn symAddr addr inlinedFns rest row buf
    else collectOn symAddr addr inlinedFns rest row buf

/-- `src/gsym/resolver.rs:276-323`: `drain(..)` hands out the frames and empties the buffer when it goes out of scope,
also if that is because of an error. -/
def drainOn (ctx : Context) (sym : ResolvedSym) (lineInfo : CodeInfo) : Act (List InlineFrame) ResolvedSym
  | [] => (.ok { sym with codeInfo := some lineInfo, inlined := [] }, [])
  | first :: frames =>
    (do let name ← orInvalid (ctx.getUtf8 first.name)
        let (lineInfo, inlined) ← addFrames ctx frames lineInfo []
        return { sym with name, codeInfo := some lineInfo, inlined }, [])

/-- `src/gsym/resolver.rs:229-330` (`fill_code_info`). -/
def fillCodeInfoOn (ctx : Context) (sym : ResolvedSym) (addr : Nat) (opts : FindSymOpts) (symAddr : Nat)
    (info : AddrInfo) : Act (List InlineFrame) ResolvedSym := fun buf =>
  if opts.wantsCodeInfo then
    -- `inline_stack.clear()`
    let buf := buf.take 0
    match collectOn symAddr addr opts.wantsInlined (parseAddressData info.data) none buf with
    | (.error e, buf) => (.error e, buf)
    | (.ok none, buf) => (.ok sym, buf)
    | (.ok (some row), buf) =>
      match queryFrameCodeInfo ctx row.fileIdx row.fileLine with
      | .error e => (.error e, buf)
      | .ok lineInfo => drainOn ctx sym lineInfo buf
  else (.ok sym, buf)

/-- `src/gsym/resolver.rs:175-225` (`find_sym`). -/
def gsymFindSymOn (ctx : Context) (addr : Nat) (opts : FindSymOpts) :
    Act (List InlineFrame) (Except Reason ResolvedSym) := fun buf =>
  match ctx.findAddr addr with
  | none => (.ok (.error .unknownAddr), buf)
  | some idx =>
    match ctx.addrAt idx with
    | none => (.error .invalidData, buf)
    | some symAddr =>
      if addr < symAddr then (.ok (.error .unknownAddr), buf)
      else
        match ctx.addrInfo idx with
        | none => (.error .invalidData, buf)
        | some info =>
          if info.size > 0 ∧ symAddr + info.size ≥ u64Size then (.error .panic, buf)
          else if info.size > 0 ∧ addr ≥ symAddr + info.size then (.ok (.error .unknownAddr), buf)
          else
            match ctx.getUtf8 info.name with
            | none => (.error .invalidData, buf)
            | some name =>
              match fillCodeInfoOn ctx
                  { name, module := none, addr := symAddr, size := some info.size, lang := .unknown, codeInfo := none,
                    inlined := [] } addr opts symAddr info buf with
              | (.error e, buf) => (.error e, buf)
              | (.ok sym, buf) => (.ok (.ok sym), buf)

/-- A request to an open GSYM file: an address, and what is to be reported. -/
def gsymAsk (ctx : Context) (r : Nat × FindSymOpts) : Act (List InlineFrame) (Except Reason ResolvedSym) :=
  gsymFindSymOn ctx r.1 r.2

/-! ## Indexes of names -/

/-- `OnceCell::get_or_init`. -/
def indexOn (make : List Nat) (cell : Option (List Nat)) : List Nat × Option (List Nat) :=
  match cell with
  | some idx => (idx, some idx)
  | none => (make, some make)

/-- A question to an open Breakpad or kallsyms file. -/
inductive Ask where
  | sym (addr : Nat) (opts : FindSymOpts)
  | name (name : Bytes) (symType : Elf.SymType)

/-- `src/breakpad/types.rs:230-258` (`find_addr`). -/
def breakpadFindAddrOn (file : Breakpad.SymbolFile) (name : Bytes) (cell : Option (List Nat)) :
    List Breakpad.Function × Option (List Nat) :=
  match indexOn (Breakpad.createByNameIdx file.functions) cell with
  | (byNameIdx, cell) =>
    match findLowestMatchByKey byNameIdx (Breakpad.nameKey name)
        (fun idx => Breakpad.nameKey (Breakpad.funcAt file.functions idx).name) with
    | none => ([], cell)
    | some idx =>
      (((byNameIdx.drop idx).takeWhile (fun idx => (Breakpad.funcAt file.functions idx).name == name)).map
        (Breakpad.funcAt file.functions), cell)

/-- `src/breakpad/resolver.rs:224-238` (`Inspect::find_addr`). -/
def breakpadLookupOn (file : Breakpad.SymbolFile) (name : Bytes) (symType : Elf.SymType) :
    Act (Option (List Nat)) (List Elf.SymInfo) := fun cell =>
  if symType = .variable then (.error .unsupported, cell)
  else
    match breakpadFindAddrOn file name cell with
    | (funcs, cell) => (.ok (funcs.map Breakpad.symInfo), cell)

/-- `src/kernel/ksym.rs:296-316` (`find_addr`). -/
def ksymLookupOn (syms : List Kernel.Ksym) (name : Bytes) (symType : Elf.SymType) :
    Act (Option (List Nat)) (List Kernel.KsymInfo) := fun cell =>
  if symType = .variable then (.ok [], cell)
  else
    match indexOn (Kernel.ksymByNameIdx syms) cell with
    | (byNameIdx, cell) =>
      match findMatchOrLowerBoundByKey byNameIdx (Breakpad.nameKey name)
          (fun idx => Breakpad.nameKey (Kernel.ksymAt syms idx).name) with
      | some idx => (.ok ((byNameIdx.drop idx).map (fun idx => (Kernel.ksymAt syms idx).toInfo)), cell)
      | none => (.ok [], cell)

/-! ## Requests -/

/-- An answer of a Breakpad or kallsyms file. -/
inductive Answer (I : Type) where
  | sym (r : Except Reason ResolvedSym)
  | infos (l : List I)

/-- `src/breakpad/resolver.rs:195-238`. -/
def breakpadAsk (file : Breakpad.SymbolFile) : Ask → Act (Option (List Nat)) (Answer Elf.SymInfo)
  | .sym addr opts => fun cell => ((file.findSym addr opts).map .sym, cell)
  | .name name symType => (breakpadLookupOn file name symType).mapResult (·.map .infos)

/-- `src/kernel/ksym.rs:284-316`. -/
def ksymAsk (lines : Kernel.BpfLines) (syms : List Kernel.Ksym) :
    Ask → Act (Option (List Nat)) (Answer Kernel.KsymInfo)
  | .sym addr opts => fun cell => ((Kernel.ksymFindSym lines syms addr opts).map .sym, cell)
  | .name name symType => (ksymLookupOn syms name symType).mapResult (·.map .infos)

/-- One request after the other, whether or not they succeed; the answers and what is kept in the end. -/
def askAll {S R A : Type} (ask : R → Act S A) : List R → S → List (Except Err A) × S
  | [], s => ([], s)
  | r :: rest, s =>
    match ask r s with
    | (a, s) =>
      match askAll ask rest s with
      | (as, s) => (a :: as, s)

/-- `for_each` (`src/breakpad/resolver.rs:248-253`, `src/kernel/ksym.rs:323-328`) with a callback that itself asks the
file: `f` says what the callback does with its own state, `asks` what it asks the file for. -/
def visitOn {S T I R A : Type} (ask : R → Act T A) (f : S → I → List (Except Err A) → S × Bool)
    (asks : S → I → List R) : List I → S × T → S × T
  | [], st => st
  | i :: rest, (s, t) =>
    match askAll ask (asks s i) t with
    | (answers, t) =>
      match f s i answers with
      | (s, true) => (s, t)
      | (s, false) => visitOn ask f asks rest (s, t)

/-- `src/breakpad/resolver.rs:241-255` (`Inspect::for_each`). -/
def breakpadForEachOn {S : Type} (file : Breakpad.SymbolFile) (symType : Elf.SymType)
    (f : S → Elf.SymInfo → List (Except Err (Answer Elf.SymInfo)) → S × Bool) (asks : S → Elf.SymInfo → List Ask) :
    S × Option (List Nat) → Except Err Unit × S × Option (List Nat) := fun st =>
  if symType = .variable then (.error .unsupported, st)
  else (.ok (), visitOn (breakpadAsk file) f asks (file.functions.map Breakpad.symInfo) st)

/-- `src/kernel/ksym.rs:318-330` (`for_each`). -/
def ksymForEachOn {S : Type} (lines : Kernel.BpfLines) (syms : List Kernel.Ksym) (symType : Elf.SymType)
    (f : S → Kernel.KsymInfo → List (Except Err (Answer Kernel.KsymInfo)) → S × Bool)
    (asks : S → Kernel.KsymInfo → List Ask) : S × Option (List Nat) → S × Option (List Nat) := fun st =>
  if symType = .variable then st
  else visitOn (ksymAsk lines syms) f asks (syms.map Kernel.Ksym.toInfo) st

end Blazesym.Opened
