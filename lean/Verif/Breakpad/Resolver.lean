import Verif.Breakpad.Parser
import Verif.Symbolize.Types
import Verif.Util.Path
import Verif.Elf.Symtab

/-! # Model of the Breakpad resolver (`src/breakpad/resolver.rs`) -/

set_option autoImplicit false

namespace Blazesym.Breakpad
open Blazesym.Util Blazesym.Symbolize

/-- `src/breakpad/resolver.rs:96-114` (`find_source_location`). -/
def SymbolFile.findSourceLocation (file : SymbolFile) (id : Nat) :
    Except Err (Option Bytes × Bytes) :=
  match file.files.lookup id with
  | none => .error .invalidInput
  | some path =>
    match splitLast path with
    | none => .error .invalidInput
    | some (dir, name) => .ok (if dir = [] then none else some dir, name)

/-- `src/breakpad/resolver.rs:116-126` (`find_inlinee_name`). -/
def SymbolFile.findInlineeName (file : SymbolFile) (originId : Nat) : Except Err Bytes :=
  match file.inlineOrigins.lookup originId with
  | none => .error .invalidInput
  | some name => .ok name

/-- The construction of a `CodeInfo` at `src/breakpad/resolver.rs:145-152` and `159-166`. -/
def SymbolFile.codeInfo (file : SymbolFile) (id line : Nat) : Except Err CodeInfo :=
  match file.findSourceLocation id with
  | .error e => .error e
  | .ok (dir, name) => .ok { dir, file := name, line := some line, column := none }

/-- The loop of `src/breakpad/resolver.rs:157-180`: the code information of the function itself
and of the last inlined function found so far is exchanged for the call site's.  `inlined` is
in the order of the vector. -/
def SymbolFile.inlinedLoop (file : SymbolFile) :
    List Inlinee → CodeInfo → List InlinedFn → Except Err (CodeInfo × List InlinedFn)
  | [], direct, inlined => .ok (direct, inlined)
  | inlinee :: rest, direct, inlined =>
    match file.findInlineeName inlinee.originId with
    | .error e => .error e
    | .ok name =>
      match file.codeInfo inlinee.callFile inlinee.callLine with
      | .error e => .error e
      | .ok codeInfo =>
        match inlined.getLast? with
        | some last =>
          file.inlinedLoop rest direct
            (inlined.dropLast ++ [{ last with codeInfo := some codeInfo }, ⟨name, last.codeInfo⟩])
        | none => file.inlinedLoop rest codeInfo (inlined ++ [⟨name, some direct⟩])

/-- `src/breakpad/resolver.rs:128-190` (`fill_code_info`). -/
def SymbolFile.fillCodeInfo (file : SymbolFile) (sym : ResolvedSym) (addr : Nat)
    (opts : FindSymOpts) (func : Function) : Except Err ResolvedSym :=
  if opts.wantsCodeInfo then
    match func.findLine addr with
    | .error e => .error e
    | .ok none => .ok sym
    | .ok (some sourceLine) =>
      match file.codeInfo sourceLine.file sourceLine.line with
      | .error e => .error e
      | .ok direct =>
        match (if opts.wantsInlined then file.inlinedLoop (func.findInlinees addr) direct []
            else .ok (direct, [])) with
        | .error e => .error e
        | .ok (direct, inlined) => .ok { sym with codeInfo := some direct, inlined }
  else .ok sym

/-- `src/breakpad/resolver.rs:195-220` (`find_sym`). -/
def SymbolFile.findSym (file : SymbolFile) (addr : Nat) (opts : FindSymOpts) :
    Except Err (Except Reason ResolvedSym) :=
  match file.findFunction addr with
  | .error e => .error e
  | .ok none => .ok (.error (if file.functions = [] then .missingSyms else .unknownAddr))
  | .ok (some func) =>
    match file.fillCodeInfo
        { name := func.name, module := file.module, addr := func.addr, size := some func.size,
          lang := .unknown, codeInfo := none, inlined := [] } addr opts func with
    | .error e => .error e
    | .ok sym => .ok (.ok sym)

/-- `src/breakpad/resolver.rs:38-51` (`From<&Function> for SymInfo`). -/
def symInfo (f : Function) : Elf.SymInfo :=
  { name := f.name, addr := f.addr, size := some f.size, symType := .function, fileOffset := none }

/-- `src/breakpad/resolver.rs:224-238` (`Inspect::find_addr`). -/
def SymbolFile.lookupName (file : SymbolFile) (name : Bytes) (symType : Elf.SymType) :
    Except Err (List Elf.SymInfo) :=
  if symType = .variable then .error .unsupported
  else .ok ((file.findAddr name).map symInfo)

/-- The loop of `src/breakpad/resolver.rs:248-253`. -/
def forEachLoop {S : Type} (f : S → Elf.SymInfo → S × Bool) : List Function → S → S
  | [], s => s
  | func :: rest, s =>
    match f s (symInfo func) with
    | (s', true) => s'
    | (s', false) => forEachLoop f rest s'

/-- `src/breakpad/resolver.rs:241-255` (`Inspect::for_each`). -/
def SymbolFile.forEach {S : Type} (file : SymbolFile) (symType : Elf.SymType)
    (f : S → Elf.SymInfo → S × Bool) (s : S) : Except Err Unit × S :=
  if symType = .variable then (.error .unsupported, s)
  else (.ok (), forEachLoop f file.functions s)

end Blazesym.Breakpad
