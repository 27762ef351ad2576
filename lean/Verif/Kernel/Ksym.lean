import Verif.Kernel.Bpf
import Verif.Breakpad.Types
import Verif.Util.Sort

/-! # Model of the kallsyms resolver (`src/kernel/ksym.rs`) -/

set_option autoImplicit false

namespace Blazesym.Kernel
open Blazesym.Util Blazesym.Symbolize
open Blazesym.Breakpad (nameKey)

/-- `src/kernel/ksym.rs:43-48`, `124-128` (`Ksym`, `Kfunc`). -/
inductive Ksym where
  | kfunc (addr : Nat) (name : Bytes)
  | bpfProg (prog : BpfProg)
  deriving DecidableEq, Repr

/-- `src/kernel/ksym.rs:76-82` (`Ksym::name`). -/
def Ksym.name : Ksym → Bytes
  | .kfunc _ name => name
  | .bpfProg prog => prog.name

/-- `src/kernel/ksym.rs:84-90` (`Ksym::addr`). -/
def Ksym.addr : Ksym → Nat
  | .kfunc addr _ => addr
  | .bpfProg prog => prog.addr

/-- `src/kernel/ksym.rs:51-61` (`Ksym::new`); `bpf` tells whether the feature is enabled. -/
def Ksym.new (bpf : Bool) (name : Bytes) (addr : Nat) : Except Err Ksym :=
  if bpf then
    match BpfProg.parse name addr with
    | .error e => .error e
    | .ok (some prog) => .ok (.bpfProg prog)
    | .ok none => .ok (.kfunc addr name)
  else .ok (.kfunc addr name)

/-- The system calls `src/kernel/bpf/prog.rs:308-330` makes on behalf of a program, by tag: its
line records, if it has BTF information. -/
abbrev BpfLines := Bytes → Except Err (Option (List LineInfoRecord))

/-- `src/kernel/ksym.rs:63-74`, `131-150` (`resolve`). -/
def Ksym.resolve (bpfLines : BpfLines) (addr : Nat) (opts : FindSymOpts) : Ksym → Except Err ResolvedSym
  | .kfunc symAddr name =>
    .ok { name, module := none, addr := symAddr, size := none, lang := .unknown, codeInfo := none, inlined := [] }
  | .bpfProg prog => prog.resolve addr opts (bpfLines prog.tag)

/-- A `SymInfo` (`src/inspect/mod.rs`) together with its module; the ELF model has no use for
the latter. -/
structure KsymInfo where
  info : Elf.SymInfo
  module : Option Bytes
  deriving DecidableEq, Repr

/-- `src/kernel/ksym.rs:111-121`, `153-169` and `src/kernel/bpf/prog.rs:407-423` (`TryFrom`). -/
def Ksym.toInfo : Ksym → KsymInfo
  | .kfunc addr name => ⟨⟨name, addr, none, .function, none⟩, none⟩
  | .bpfProg prog => ⟨⟨prog.name, prog.addr, none, .function, none⟩, some (ascii "[bpf]")⟩

/-- The body of the loop of `src/kernel/ksym.rs:206-222`; `none` is `continue`. -/
def parseKsymLine (bpf : Bool) (line : Bytes) : Except Err (Option Ksym) :=
  match splitAsciiWhitespace line with
  | addr :: _typ :: name :: _ =>
    match fromStrRadix u64Size 16 addr with
    | none => .ok none
    | some addr =>
      if addr = 0 then .ok none
      else
        match Ksym.new bpf name addr with
        | .error e => .error e
        | .ok ksym => .ok (some ksym)
  | _ => .ok none

/-- The loop of `src/kernel/ksym.rs:199-223` over the lines; `read_line` refuses a line that is
not UTF-8.  Reading is assumed to succeed otherwise. -/
def parseKsymLines (bpf : Bool) : List Bytes → Except Err (List Ksym)
  | [] => .ok []
  | line :: rest =>
    if isUtf8 line then
      match parseKsymLine bpf line with
      | .error e => .error e
      | .ok ksym? =>
        match parseKsymLines bpf rest with
        | .error e => .error e
        | .ok ksyms => .ok (ksym?.toList ++ ksyms)
    else .error .invalidData

/-- `src/kernel/ksym.rs:191-235` (`load_from_reader`): the sorted symbols. -/
def loadKallsyms (bpf : Bool) (data : Bytes) : Except Err (List Ksym) :=
  match parseKsymLines bpf (splitLines data) with
  | .error e => .error e
  | .ok syms => .ok (sortByKey Ksym.addr syms)

/-- `src/kernel/ksym.rs:254-267` (`find_ksym`). -/
def findKsym (syms : List Ksym) (addr : Nat) : Except Reason Ksym :=
  match (findMatchOrLowerBoundByKey syms addr Ksym.addr).bind (fun idx => syms[idx]?) with
  | some sym => .ok sym
  | none => if syms.isEmpty then .error .missingSyms else .error .unknownAddr

/-- `src/kernel/ksym.rs:284-292` (`find_sym`). -/
def ksymFindSym (bpfLines : BpfLines) (syms : List Ksym) (addr : Nat) (opts : FindSymOpts) :
    Except Err (Except Reason ResolvedSym) :=
  match findKsym syms addr with
  | .ok ksym =>
    match ksym.resolve bpfLines addr opts with
    | .error e => .error e
    | .ok sym => .ok (.ok sym)
  | .error reason => .ok (.error reason)

/-- `syms[idx]`; indexes are in bounds (`ksymByNameIdx_lt`), the default is never used. -/
def ksymAt (syms : List Ksym) (idx : Nat) : Ksym := syms[idx]?.getD (.kfunc 0 [])

/-- `src/kernel/ksym.rs:269-280` (`create_by_name_idx`). -/
def ksymByNameIdx (syms : List Ksym) : List Nat :=
  sortByKey (fun idx => toLex (nameKey (ksymAt syms idx).name, (ksymAt syms idx).addr))
    (List.range syms.length)

/-- `src/kernel/ksym.rs:296-316` (`find_addr`). -/
def ksymFindAddr (syms : List Ksym) (name : Bytes) (symType : Elf.SymType) : List KsymInfo :=
  if symType = .variable then []
  else
    let byNameIdx := ksymByNameIdx syms
    match findMatchOrLowerBoundByKey byNameIdx (nameKey name) (fun idx => nameKey (ksymAt syms idx).name) with
    | some idx => (byNameIdx.drop idx).map (fun idx => (ksymAt syms idx).toInfo)
    | none => []

/-- The loop of `src/kernel/ksym.rs:323-328`. -/
def ksymForEachLoop {S : Type} (f : S → KsymInfo → S × Bool) : List Ksym → S → S
  | [], s => s
  | sym :: rest, s =>
    match f s sym.toInfo with
    | (s', true) => s'
    | (s', false) => ksymForEachLoop f rest s'

/-- `src/kernel/ksym.rs:318-330` (`for_each`). -/
def ksymForEach {S : Type} (syms : List Ksym) (symType : Elf.SymType) (f : S → KsymInfo → S × Bool)
    (s : S) : S :=
  if symType = .variable then s else ksymForEachLoop f syms s

end Blazesym.Kernel
