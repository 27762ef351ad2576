import Verif.Go.Bindings
import Verif.CApi.OutputSpec

/-! # What Go programs are to be told -/

set_option autoImplicit false

namespace Blazesym.Go

open Blazesym.CApi Blazesym.Error Blazesym.Symbolize

/-- A string up to its first NUL: all of it if it has none. -/
def upToNul (s : Bytes) : Bytes := s.takeWhile (· != 0)

/-- The values given for debug symbols, in order. -/
def elfDebugSyms : ElfSourceOption → Option Bool
  | .withDebugSyms b => some b

/-- The values given for debug symbols of a process. -/
def processDebugSyms : ProcessSourceOption → Option Bool
  | .withDebugSyms b => some b
  | _ => none

/-- The values given for the use of perf maps. -/
def processPerfMap : ProcessSourceOption → Option Bool
  | .withPerfMap b => some b
  | _ => none

/-- The values given for not using map files. -/
def processNoMapFiles : ProcessSourceOption → Option Bool
  | .withoutMapFiles b => some b
  | _ => none

/-- The values given for not using the vDSO. -/
def processNoVdso : ProcessSourceOption → Option Bool
  | .withoutVdso b => some b
  | _ => none

/-- The last value given counts, or else the default. -/
def chosen {α β : Type} (get : α → Option β) (default : β) (options : List α) : β :=
  (options.filterMap get).getLastD default

/-- The source that is asked for.  By default neither debug symbols nor perf maps are used, but map files and the
vDSO are. -/
def Request.source : Request → Source
  | .elfVirtOffsets path options => .elf (upToNul path) (chosen elfDebugSyms false options)
  | .gsymFileVirtOffsets path => .gsymFile (upToNul path)
  | .gsymDataVirtOffsets data => .gsymData data
  | .processAbsAddrs pid options =>
    .process { pid, debugSyms := chosen processDebugSyms false options, perfMap := chosen processPerfMap false options,
               mapFiles := !chosen processNoMapFiles false options, vdso := !chosen processNoVdso false options }

/-- The kind of addresses that are given. -/
def Request.input (addrs : List Nat) : Request → Input (List Nat)
  | .processAbsAddrs .. => .absAddr addrs
  | _ => .virtOffset addrs

/-- Process IDs are numbers of 32 bits. -/
def Request.Fits : Request → Prop
  | .processAbsAddrs pid _ => pid < 2 ^ 32
  | _ => True

/-- A source location as Go programs see it: absent parts are empty strings and zeros. -/
def ShowsCode : Option CodeInfo → Option GoCodeInfo → Prop
  | none, none => True
  | some info, some g => g.dir = upToNul (info.dir.getD []) ∧ g.file = upToNul info.file
      ∧ g.line = info.line.getD 0 ∧ g.column = info.column.getD 0
  | _, _ => False

/-- An inlined function as Go programs see it. -/
def ShowsInlined (fn : InlinedFn) (g : GoInlined) : Prop := g.name = upToNul fn.name ∧ ShowsCode fn.codeInfo g.codeInfo

/-- A size: -1 if it is not known, and at most the largest number of its type. -/
def ShowsSize : Option Nat → Int → Prop
  | none, g => g = -1
  | some n, g => g = min n (2 ^ 63 - 1)

/-- A result as Go programs see it. -/
def Shows : Symbolized → GoSym → Prop
  | .sym sym, g => g.name = upToNul sym.name ∧ g.module = upToNul (sym.module.getD []) ∧ g.addr = sym.addr
      ∧ g.offset = sym.offset ∧ ShowsSize sym.size g.size ∧ ShowsCode sym.codeInfo g.codeInfo
      ∧ List.Forall₂ ShowsInlined sym.inlined g.inlined ∧ g.reason = 0
  | .unknown r, g => ReasonCode r g.reason ∧ g = ⟨[], [], 0, 0, 0, none, [], g.reason⟩

/-- The text of an error is that of its kind. -/
def errorText : ErrorKind → Bytes
  | .notFound => ascii "entity not found"
  | .permissionDenied => ascii "permission denied"
  | .alreadyExists => ascii "entity already exists"
  | .wouldBlock => ascii "operation would block"
  | .invalidInput => ascii "invalid input parameter"
  | .invalidData => ascii "invalid data"
  | .invalidDwarf => ascii "DWARF data invalid"
  | .timedOut => ascii "timed out"
  | .writeZero => ascii "write zero"
  | .unsupported => ascii "unsupported"
  | .unexpectedEof => ascii "unexpected end of file"
  | .outOfMemory => ascii "out of memory"
  | .other => ascii "other error"

/-- What the library reports has numbers in range, and fits into memory. -/
def FitResults (core : Core) : Prop :=
  ∀ (src : Source) (input : Input (List Nat)) (results : List Symbolized), core.symbolize src input = .ok results →
    (∀ (sym : Sym), .sym sym ∈ results → Sym.Fits sym) ∧ bufSize results ≤ 2 ^ 63 - 8

/-- No symbol has more than `1 << 30` inlined functions. -/
def FewInlined (results : List Symbolized) : Prop :=
  ∀ (sym : Sym), .sym sym ∈ results → sym.inlined.length ≤ 2 ^ 30

/-- The goroutine stays on its thread, which no other goroutine uses (`runtime.LockOSThread`). -/
def Schedule.Locked (sched : Schedule) : Prop :=
  sched.errThread = sched.callThread ∧ ∀ (x : Nat × Int), x ∈ sched.others → x.1 ≠ sched.callThread

/-- The last error of a thread after calls, of which each sets that of its thread: that of the last call on it, or
else what it was before. -/
inductive ErrorAfter (before : LastErr) (calls : List (Nat × Int)) (t : Nat) : Int → Prop where
  | set (pre post : List (Nat × Int)) (err : Int) : calls = pre ++ (t, err) :: post →
      (∀ (x : Nat × Int), x ∈ post → x.1 ≠ t) → ErrorAfter before calls t err
  | kept : (∀ (x : Nat × Int), x ∈ calls → x.1 ≠ t) → ErrorAfter before calls t (before t)

/-- The values given for reloading. -/
def optAutoReload : SymbolizerOption → Option Bool
  | .withAutoReload b => some b
  | _ => none

/-- The values given for source locations. -/
def optCodeInfo : SymbolizerOption → Option Bool
  | .withCodeInfo b => some b
  | _ => none

/-- The values given for inlined functions. -/
def optInlinedFns : SymbolizerOption → Option Bool
  | .withInlinedFns b => some b
  | _ => none

/-- The values given for demangling. -/
def optDemangle : SymbolizerOption → Option Bool
  | .withDemangle b => some b
  | _ => none

/-- The debug directories given. -/
def optDebugDirs : SymbolizerOption → Option (List Bytes)
  | .withDebugDirs dirs => some dirs
  | _ => none

/-- The options a symbolizer of the library is to be created with: the last value given counts, or else the
default, which is `true`.  Without debug directories it uses its
default ones. -/
def settings (options : List SymbolizerOption) : SymbolizerOpts where
  debugDirs := ((options.filterMap optDebugDirs).getLast?).map fun dirs => dirs.map upToNul
  autoReload := chosen optAutoReload true options
  codeInfo := chosen optCodeInfo true options
  inlinedFns := chosen optInlinedFns true options
  demangle := chosen optDemangle true options
  dispatch := none

/-- The options with an empty list of debug directories. -/
def emptyDirs (options : List SymbolizerOption) : List (List Bytes) := (options.filterMap optDebugDirs).filter List.isEmpty

/-- The constant of a reason. -/
def reasonName : Reason → Bytes
  | .unmapped => ascii "SymbolizeReasonUnmapped"
  | .invalidFileOffset => ascii "SymbolizeReasonInvalidFileOffset"
  | .missingComponent => ascii "SymbolizeReasonMissingComponent"
  | .missingSyms => ascii "SymbolizeReasonMissingSyms"
  | .unsupported => ascii "SymbolizeReasonUnsupported"
  | .unknownAddr => ascii "SymbolizeReasonUnknownAddr"
  | .ignoredError => ascii "SymbolizeReasonIgnoredError"

/-- All memory that was allocated is free again: what is in use is what was in use before, with the same
contents. -/
def Released (s s' : Store) : Prop := s'.blocks.Perm s.blocks ∧ Unchanged s.mem s'.mem s.blocks ∧ s'.Valid

/-- The same, except for some memory that is still allocated. -/
def Leaked (s s' : Store) (leak : List Block) : Prop :=
  s'.blocks.Perm (leak ++ s.blocks) ∧ Unchanged s.mem s'.mem s.blocks ∧ s'.Valid

end Blazesym.Go
