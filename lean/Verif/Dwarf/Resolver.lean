import Verif.Dwarf.Units
import Verif.Symbolize.Types
import Verif.Elf.Symtab

/-! # Model of the DWARF resolver (`src/dwarf/resolver.rs`) -/

set_option autoImplicit false

namespace Blazesym.Dwarf
open Blazesym.Util Blazesym.Symbolize

/-- `src/dwarf/resolver.rs:222-237` (`DwarfResolver`): the units, the name of the module, and the ELF
file or files: `elfFindSym` and `elfFindAddr` search the symbols of the file with the debug
information, `fileOffset` is `find_file_offset` of the file itself. -/
structure Resolver where
  units : Units
  module : Option Bytes
  elfFindSym : Nat → FindSymOpts → Except Err (Except Reason ResolvedSym)
  elfFindAddr : Bytes → Elf.FindAddrOpts → Except Err (List Elf.SymInfo)
  fileOffset : Nat → Nat → Except Err (Option Nat)

/-- `col.try_into().unwrap_or(u16::MAX)`. -/
def clampU16 (n : Nat) : Nat := if n < 65536 then n else 65535

/-- The conversion of locations in `src/dwarf/resolver.rs:493-506` and `515-530`. -/
def Location.codeInfo (l : Location) : CodeInfo :=
  { dir := some l.dir, file := l.file, line := l.line, column := l.column.map clampU16 }

/-- The swaps of `src/dwarf/resolver.rs:534-541`: the location of the function itself, the functions
so far, and the location for the new function. -/
def shift (direct : CodeInfo) (inlined : List InlinedFn) (codeInfo : Option CodeInfo) :
    CodeInfo × List InlinedFn × Option CodeInfo :=
  match inlined.getLast? with
  | some last => (direct, inlined.dropLast ++ [{ last with codeInfo }], last.codeInfo)
  | none =>
    match codeInfo with
    | some ci => (ci, inlined, some direct)
    | none => (direct, inlined, none)

/-- The loop of `src/dwarf/resolver.rs:513-548`. -/
def inlineLoop (σ : Sorter) (unit : Unit) : List Inlined → CodeInfo → List InlinedFn →
    Except Err (CodeInfo × List InlinedFn)
  | [], direct, inlined => .ok (direct, inlined)
  | fn :: rest, direct, inlined => do
    let (name, location) ← unit.inlinedItem σ fn
    let (direct, inlined, codeInfo) := shift direct inlined (location.map Location.codeInfo)
    inlineLoop σ unit rest direct (inlined ++ [{ name, codeInfo }])

/-- `src/dwarf/resolver.rs:476-563` (`fill_code_info`). -/
def Units.fillCodeInfo (σ : Sorter) (u : Units) (sym : ResolvedSym) (addr : Nat) (opts : FindSymOpts)
    (data : Option (Function × Unit)) : Except Err ResolvedSym :=
  if opts.wantsCodeInfo = false then .ok sym
  else do
    match ← u.findLocation σ addr with
    | none => return sym
    | some location =>
      let direct := location.codeInfo
      if opts.wantsInlined then
        match data with
        | some (function, unit) =>
          let stack ← u.findInlined σ addr function unit
          let (direct, inlined) ← inlineLoop σ unit stack direct []
          return { sym with codeInfo := some direct, inlined }
        | none => return { sym with codeInfo := some direct, inlined := [] }
      else return { sym with codeInfo := some direct, inlined := [] }

/-- `usize::try_from(range.end - range.begin).unwrap_or(usize::MAX)`; on 64 bit targets the
conversion cannot fail. -/
def rangeSize : Option Range → Except Err (Option Nat)
  | none => .ok none
  | some r => (subU r.stop r.start).map some

/-- `src/dwarf/resolver.rs:80-96` (`From<Option<gimli::DwLang>> for SrcLang`), with gimli's constants
`DW_LANG_Rust` (0x1c), `DW_LANG_C_plus_plus` (0x04), `_03` (0x19), `_11` (0x1a), `_14` (0x21), `_17` (0x2a)
and `_20` (0x2b). -/
def srcLang : Option Nat → SrcLang
  | some 0x1c => .rust
  | some 0x04 | some 0x19 | some 0x1a | some 0x21 | some 0x2a | some 0x2b => .cpp
  | _ => .unknown

/-- `src/dwarf/resolver.rs:354-396` (`find_sym`). -/
def Resolver.findSym (σ : Sorter) (r : Resolver) (addr : Nat) (opts : FindSymOpts) :
    Except Err (Except Reason ResolvedSym) := do
  match ← r.units.findFunction σ addr with
  | some (function, unit) =>
    let name ← nameOrEmpty function.name
    let size ← rangeSize function.range
    let lang ← unit.language
    let sym ← r.units.fillCodeInfo σ
      { name, module := r.module, addr := (function.range.map Range.start).getD 0, size,
        lang := srcLang lang, codeInfo := none, inlined := [] } addr opts (some (function, unit))
    return .ok sym
  | none =>
    match ← r.elfFindSym addr opts with
    | .error reason => return .error reason
    | .ok sym =>
      let sym ← r.units.fillCodeInfo σ sym addr opts none
      return .ok sym

/-- `src/dwarf/resolver.rs:316-350` (`function_to_sym_info`), without the module. -/
def Resolver.symInfo (r : Resolver) (function : Function) (offsetInFile : Bool) :
    Except Err (Option Elf.SymInfo) :=
  match function.name with
  | none => .ok none
  | some name =>
    if isUtf8 name = false then .error .panic
    else do
      let addr := (function.range.map Range.start).getD 0
      let size := (function.range.map (fun r => r.stop - r.start)).getD 0
      let fileOffset ← if offsetInFile then r.fileOffset addr size else pure none
      return some { name, addr, size := some size, symType := .function, fileOffset }

/-- The closure of `src/dwarf/resolver.rs:412-424`. -/
def Resolver.symInfos (r : Resolver) (offsetInFile : Bool) : List Function → Except Err (List Elf.SymInfo)
  | [] => .ok []
  | f :: rest => do
    match ← r.symInfo f offsetInFile with
    | none => .error .panic
    | some info =>
      let more ← r.symInfos offsetInFile rest
      return info :: more

/-- `src/dwarf/resolver.rs:404-434` (`find_addr`). -/
def Resolver.findAddr (σ : Sorter) (r : Resolver) (name : Bytes) (opts : Elf.FindAddrOpts) :
    Except Err (List Elf.SymInfo) :=
  if opts.symType = .variable then .error .unsupported
  else do
    let functions ← r.units.findName σ name r.units.units
    let syms ← r.symInfos opts.fileOffset functions
    if syms.isEmpty then r.elfFindAddr name opts else return syms

/-- The closure of `src/dwarf/resolver.rs:442-452`: the state is that of the caller's callback
together with `overall_result`.  A panic ends the iteration like an error. -/
def Resolver.visit {S : Type} (r : Resolver) (offsetInFile : Bool) (f : S → Elf.SymInfo → S × Bool)
    (s : S × Except Err _root_.Unit) (function : Function) : (S × Except Err _root_.Unit) × Bool :=
  match r.symInfo function offsetInFile with
  | .error e => ((s.1, .error e), true)
  | .ok none => (s, false)
  | .ok (some info) => (((f s.1 info).1, s.2), (f s.1 info).2)

/-- `src/dwarf/resolver.rs:436-454` (`for_each`). -/
def Resolver.forEach {S : Type} (σ : Sorter) (r : Resolver) (opts : Elf.FindAddrOpts)
    (f : S → Elf.SymInfo → S × Bool) (s : S) : Except Err _root_.Unit × S :=
  if opts.symType = .variable then (.error .unsupported, s)
  else
    match r.units.forEachFunction σ (r.visit opts.fileOffset f) r.units.units (s, .ok ()) with
    | (.error e, s) => (.error e, s.1)
    | (.ok _, s) => (s.2, s.1)

end Blazesym.Dwarf
