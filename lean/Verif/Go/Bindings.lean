import Verif.CApi.Call
import Verif.CApi.Output

/-!
# Model of the Go bindings (`go/`)

The Go package calls the C interface (`Blazesym.CApi`).  What the library does for a request is arbitrary
(`Core`).  Memory of C and of Go is one store; memory of other goroutines is apart from it and not modelled.
Objects of Go that C gets a pointer to are placed in the store when they are needed and are taken out of it when
the function returns (garbage collection); they hold the final values of all members.  Go's own slices and
strings are plain lists.  Deferred calls run where the function returns.

The last error belongs to a thread of the operating system, and so does every call into C.  A goroutine may be
moved to another thread between two such calls, and other goroutines may call the library meanwhile: both are
parameters (`Schedule`).
-/

set_option autoImplicit false

namespace Blazesym.Go

open Blazesym.CApi Blazesym.Error Blazesym.Symbolize

/-- How a function ends without returning: the Go runtime panics because of an index or a slice that is out of
range, or something goes wrong in C. -/
inductive Crash where
  | index
  | slice
  | c (f : Fault)
  deriving DecidableEq, Repr

/-- A call into C. -/
def lift {α : Type} : Except Fault α → Except Crash α
  | .ok a => .ok a
  | .error f => .error (.c f)

/-! ## Memory -/

/-- `C.malloc`: Go ends the program if there is no memory.  Also an allocation of 0 bytes has an address of its
own; it counts as one byte here. -/
def cMalloc (alloc : Allocator) (s : Store) (content : List (Option UInt8)) : Except Crash (Nat × Store) :=
  lift (s.box alloc 16 (if content.isEmpty then [none] else content))

/-- `C.free`: undefined behaviour unless the address is `NULL` or came from `C.malloc` and was not freed yet. -/
def cFree (s : Store) (p : Nat) : Except Crash Store :=
  if p = 0 then .ok s
  else
    match s.blocks.find? fun b => b.addr == p && b.align == 16 with
    | some b => lift (s.free b)
    | none => .error (.c .badLayout)

/-- `C.CString`: a copy of the string and a NUL. -/
def cString (alloc : Allocator) (s : Store) (str : Bytes) : Except Crash (Nat × Store) :=
  cMalloc alloc s (init (str ++ [0]))

/-- `C.GoString`: a copy of the bytes up to the first NUL, the empty string for `NULL`. -/
def goString (m : Mem) (p : Nat) : Except Crash Bytes := if p = 0 then .ok [] else lift (fromCStr m p)

/-- An object of Go is placed in memory. -/
def goNew (alloc : Allocator) (s : Store) (content : Bytes) : Except Crash (Nat × Store) :=
  lift (s.box alloc 8 (init content))

/-- An object of Go is not needed any more. -/
def goDrop (s : Store) (p size : Nat) : Except Crash Store := lift (s.free ⟨p, size, 8⟩)

/-- Writing through a pointer: within one allocation, else undefined behaviour. -/
def cWrite (s : Store) (a : Nat) (bs : Bytes) : Except Crash Store :=
  if s.blocks.any fun b => decide (b.addr ≤ a) && decide (a + bs.length ≤ b.addr + b.size) then
    .ok { s with mem := s.mem.set a bs }
  else .error (.c .outOfBounds)

/-! ## Sources -/

/-- A C `bool`. -/
def cBool (b : Bool) : Bytes := [if b then 1 else 0]

/-- `C.struct_blaze_symbolize_src_elf` without `type_size`. -/
structure ElfStruct where
  path : Nat
  debugSyms : Bool

/-- `go/source_elf.go:18-23` (`newElfSource`): all other members are zero. -/
def newElfSource (path : Nat) : ElfStruct := ⟨path, false⟩

/-- The bytes of the structure; `type_size` is set by `newElfSource` (`go/source_elf.go:20`). -/
def ElfStruct.bytes (x : ElfStruct) : Bytes :=
  leBytes 8 InputType.srcElf.size ++ leBytes 8 x.path ++ cBool x.debugSyms ++ List.replicate 23 0

/-- `go/source_elf.go:26` (`ElfSourceOption`): the options there are. -/
inductive ElfSourceOption where
  | withDebugSyms (enabled : Bool)
  deriving DecidableEq, Repr

/-- `go/source_elf.go:30-34` (`ElfSourceWithDebugSyms`). -/
def ElfSourceOption.apply (x : ElfStruct) : ElfSourceOption → ElfStruct
  | .withDebugSyms enabled => { x with debugSyms := enabled }

/-- `C.struct_blaze_symbolize_src_process` without `type_size`. -/
structure ProcessStruct where
  pid : Nat
  debugSyms : Bool
  perfMap : Bool
  noMapFiles : Bool
  noVdso : Bool

/-- `go/source_process.go:18-23` (`newProcessSource`): all other members are zero. -/
def newProcessSource (pid : Nat) : ProcessStruct := ⟨pid, false, false, false, false⟩

/-- The bytes of the structure; `type_size` is set by `newProcessSource` (`go/source_process.go:20`). -/
def ProcessStruct.bytes (x : ProcessStruct) : Bytes :=
  leBytes 8 InputType.srcProcess.size ++ leBytes 4 x.pid ++ cBool x.debugSyms ++ cBool x.perfMap
    ++ cBool x.noMapFiles ++ cBool x.noVdso ++ List.replicate 16 0

/-- `go/source_process.go:26` (`ProcessSourceOption`): the options there are. -/
inductive ProcessSourceOption where
  | withDebugSyms (enabled : Bool)
  | withPerfMap (enabled : Bool)
  | withoutMapFiles (enabled : Bool)
  | withoutVdso (enabled : Bool)
  deriving DecidableEq, Repr

/-- `go/source_process.go:30-58` (`ProcessSourceWithDebugSyms`, `ProcessSourceWithPerfMap`,
`ProcessSourceWithoutMapFiles`, `ProcessSourceWithoutVDSO`). -/
def ProcessSourceOption.apply (x : ProcessStruct) : ProcessSourceOption → ProcessStruct
  | .withDebugSyms enabled => { x with debugSyms := enabled }
  | .withPerfMap enabled => { x with perfMap := enabled }
  | .withoutMapFiles enabled => { x with noMapFiles := enabled }
  | .withoutVdso enabled => { x with noVdso := enabled }

/-- `go/source_gsym_file.go:18-23` (`newGsymFileSource`): the bytes of the structure. -/
def gsymFileBytes (path : Nat) : Bytes :=
  leBytes 8 InputType.srcGsymFile.size ++ leBytes 8 path ++ List.replicate 16 0

/-- `go/source_gsym_data.go:20-26` (`newGsymDataSource`): the bytes of the structure. -/
def gsymDataBytes (data len : Nat) : Bytes :=
  leBytes 8 InputType.srcGsymData.size ++ leBytes 8 data ++ leBytes 8 len ++ List.replicate 16 0

/-! ## Results -/

/-- `go/sym.go:26-35` (`CodeInfo`). -/
structure GoCodeInfo where
  dir : Bytes
  file : Bytes
  line : Nat
  column : Nat
  deriving DecidableEq, Repr

/-- `go/sym.go:39-44` (`InlinedFn`). -/
structure GoInlined where
  name : Bytes
  codeInfo : Option GoCodeInfo
  deriving DecidableEq, Repr

/-- `go/sym.go:5-22` (`Sym`). -/
structure GoSym where
  name : Bytes
  module : Bytes
  addr : Nat
  offset : Nat
  size : Int
  codeInfo : Option GoCodeInfo
  inlined : List GoInlined
  reason : Nat
  deriving DecidableEq, Repr

/-- `int64(..)` of an `isize`, whose bits are `n`. -/
def toInt64 (n : Nat) : Int := if n < 9223372036854775808 then n else n - 18446744073709551616

/-- `go/symbolizer.go:126-133, 143-150`: the source location in the structure at `a`, if there is a file. -/
def goCodeInfo (m : Mem) (a : Nat) : Except Crash (Option GoCodeInfo) := do
  let file ← lift (readNum m (a + 8) 8)
  if file ≠ 0 then
    let dir ← goString m (← lift (readNum m a 8))
    let file ← goString m file
    let line ← lift (readNum m (a + 16) 4)
    let column ← lift (readNum m (a + 20) 2)
    return some ⟨dir, file, line, column⟩
  else return none

/-- `go/symbolizer.go:140-151`: the loop over inlined functions, from the structure at `a` on. -/
def goInlined (m : Mem) (a : Nat) : Nat → Except Crash (List GoInlined)
  | 0 => .ok []
  | n + 1 => do
    let name ← goString m (← lift (readNum m a 8))
    let codeInfo ← goCodeInfo m (a + 8)
    let rest ← goInlined m (a + inlinedSize) n
    return ⟨name, codeInfo⟩ :: rest

/-- `go/symbolizer.go:135-152`: the inlined functions.  The slice of an array of `1 << 30` elements panics if
there are more. -/
def goInlinedFns (m : Mem) (a cnt : Nat) : Except Crash (List GoInlined) :=
  if cnt > 0 then
    if cnt > 1073741824 then .error .slice else goInlined m a cnt
  else .ok []

/-- `go/symbolizer.go:118-154`: one result, from the structure at `a`. -/
def goSym (m : Mem) (a : Nat) : Except Crash GoSym := do
  let name ← goString m (← lift (readNum m a 8))
  let module ← goString m (← lift (readNum m (a + 8) 8))
  let addr ← lift (readNum m (a + 16) 8)
  let offset ← lift (readNum m (a + 24) 8)
  let size ← lift (readNum m (a + 32) 8)
  let codeInfo ← goCodeInfo m (a + 40)
  let cnt ← lift (readNum m (a + 72) 8)
  let inlined ← goInlinedFns m (← lift (readNum m (a + 80) 8)) cnt
  let reason ← lift (readNum m (a + 88) 1)
  return ⟨name, module, addr, offset, toInt64 size, codeInfo, inlined, reason⟩

/-- `go/symbolizer.go:117-155`: the loop over results, from the structure at `a` on. -/
def goSyms (m : Mem) (a : Nat) : Nat → Except Crash (List GoSym)
  | 0 => .ok []
  | n + 1 => do
    let sym ← goSym m a
    let rest ← goSyms m (a + symSize) n
    return sym :: rest

/-- `capi/src/symbolize.rs:1393-1402` (`blaze_syms_free`). -/
def symsFreeIn (s : Store) (syms : Nat) : Except Crash Store :=
  match symsFree s.mem syms with
  | none => .error (.c .outOfBounds)
  | some none => .ok s
  | some (some (p, size)) => lift (s.free ⟨p, size, 8⟩)

/-- `go/error.go:48-50` (`Error`): the text of an error. -/
def errText (err : Int) : Bytes := (errStr err).takeWhile (· != 0)

/-- What a function of the package returns: the text of an error, or the results (`none` is `nil`). -/
abbrev Result := Except Bytes (Option (List GoSym))

/-- `go/symbolizer.go:103-158` (`processSyms`); `lastErr` is what `C.blaze_err_last` returns. -/
def processSyms (s : Store) (syms : Nat) (lastErr : Int) : Except Crash (Result × Store) := do
  if lastErr ≠ 0 then return (.error (errText lastErr), s)
  if syms = 0 then return (.ok none, s)
  let cnt ← lift (readNum s.mem syms 8)
  let results ← goSyms s.mem (syms + symsSize) cnt
  let s ← symsFreeIn s syms
  return (.ok (some results), s)

/-! ## Calls -/

/-- The thread the library is called on, what other goroutines do before the last error is asked for (the
threads they call the library on and the errors that leaves), and the thread it is asked for on. -/
structure Schedule where
  callThread : Nat
  others : List (Nat × Int)
  errThread : Nat

/-- The last errors after the calls of other goroutines. -/
def afterOthers (l : LastErr) (others : List (Nat × Int)) : LastErr :=
  others.foldl (fun l x => l.set x.1 x.2) l

/-- The functions that symbolize, with their arguments. -/
inductive Request where
  | elfVirtOffsets (path : Bytes) (options : List ElfSourceOption)
  | gsymFileVirtOffsets (path : Bytes)
  | gsymDataVirtOffsets (data : Bytes)
  | processAbsAddrs (pid : Nat) (options : List ProcessSourceOption)
  deriving DecidableEq, Repr

/-- `go/symbolizer.go:60, 71, 86, 100`: the C function. -/
def Request.fn : Request → SymbolizeFn
  | .elfVirtOffsets .. => .elfVirt
  | .gsymFileVirtOffsets _ => .gsymFile
  | .gsymDataVirtOffsets _ => .gsymData
  | .processAbsAddrs .. => .process

/-- What is prepared for a call of C: the bytes of the source structure, what was allocated with `C.malloc` (or
`NULL`), and an object of Go the structure points to, with its size. -/
structure Prepared where
  source : Bytes
  malloced : Nat
  object : Nat
  objectSize : Nat

/-- `go/symbolizer.go:51-56` (ELF files), `:66` (GSYM files), `:78-82` (GSYM data: `&data[0]` panics if there is
none) and `:92-96` (processes). -/
def prepare (alloc : Allocator) (s : Store) : Request → Except Crash (Prepared × Store)
  | .elfVirtOffsets path options => do
    let (p, s) ← cString alloc s path
    return (⟨(options.foldl ElfSourceOption.apply (newElfSource p)).bytes, p, 0, 0⟩, s)
  | .gsymFileVirtOffsets path => do
    let (p, s) ← cString alloc s path
    return (⟨gsymFileBytes p, p, 0, 0⟩, s)
  | .gsymDataVirtOffsets data =>
    if data.isEmpty then .error .index
    else do
      let (p, s) ← goNew alloc s data
      return (⟨gsymDataBytes p data.length, 0, p, data.length⟩, s)
  | .processAbsAddrs pid options =>
    .ok (⟨(options.foldl ProcessSourceOption.apply (newProcessSource pid)).bytes, 0, 0, 0⟩, s)

/-- The bytes of a slice of addresses. -/
def addrsBytes (addrs : List Nat) : Bytes := addrs.flatMap fun addr => leBytes 8 addr

/-- `go/symbolizer.go:160-167` (`addrsToPtr`); the elements are placed in memory here. -/
def addrsToPtr (alloc : Allocator) (s : Store) (addrs : List Nat) : Except Crash ((Nat × Nat) × Store) :=
  if addrs.length > 0 then do
    let (p, s) ← goNew alloc s (addrsBytes addrs)
    return ((p, addrs.length), s)
  else .ok ((0, addrs.length), s)

/-- What a C function that symbolizes returns: the buffer becomes part of the store. -/
def takeRet (s : Store) : Ret → Nat × Store
  | .buffer p st =>
    (p, ⟨s.mem.fill st.heap.base ((List.range st.heap.size).map fun i => st.heap.mem (st.heap.base + i)),
      ⟨st.heap.base, st.heap.size, 8⟩ :: s.blocks⟩)
  | _ => (0, s)

/-- `go/symbolizer.go:50-101` (`SymbolizeElfVirtOffsets`, `SymbolizeGsymFileVirtOffsets`,
`SymbolizeGsymDataVirtOffsets`, `SymbolizeProcessAbsAddrs`), with `go/source_elf.go:36-38`
(`cleanupElfSourceStruct`) and `go/source_gsym_file.go:25-27` (`cleanupGsymFileSourceStruct`). -/
def symbolize (core : Core) (alloc : Allocator) (s : Store) (l : LastErr) (sched : Schedule) (req : Request)
    (addrs : List Nat) : Except Crash (Result × Store × LastErr) := do
  let (prep, s) ← prepare alloc s req
  let ((caddr, clen), s) ← addrsToPtr alloc s addrs
  let (source, s) ← goNew alloc s prep.source
  let (ret, err) ← lift (run core (fun size => alloc s size 8) s.mem (.symbolize req.fn source caddr clen))
  let l := afterOthers (l.set sched.callThread err) sched.others
  let (syms, s) := takeRet s ret
  let (result, s) ← processSyms s syms (l sched.errThread)
  let s ← cFree s prep.malloced
  let s ← goDrop s source prep.source.length
  let s ← goDrop s caddr (8 * clen)
  let s ← goDrop s prep.object prep.objectSize
  return (result, s, l)

/-! ## Symbolizers -/

/-- `C.blaze_symbolizer_opts` without `type_size`. -/
structure OptsStruct where
  debugDirs : Nat
  debugDirsLen : Nat
  autoReload : Bool
  codeInfo : Bool
  inlinedFns : Bool
  demangle : Bool

/-- `go/symbolizer_option.go:19-28` (`newSymbolizerOptions`): all other members are zero. -/
def newSymbolizerOptions : OptsStruct := ⟨0, 0, true, true, true, true⟩

/-- The bytes of the structure; `type_size` is set by `newSymbolizerOptions` (`go/symbolizer_option.go:21`). -/
def OptsStruct.bytes (x : OptsStruct) : Bytes :=
  leBytes 8 InputType.symbolizerOpts.size ++ leBytes 8 x.debugDirs ++ leBytes 8 x.debugDirsLen ++ cBool x.autoReload
    ++ cBool x.codeInfo ++ cBool x.inlinedFns ++ cBool x.demangle ++ List.replicate 20 0

/-- `go/symbolizer_option.go:36` (`SymbolizerOption`): the options there are. -/
inductive SymbolizerOption where
  | withDebugDirs (dirs : List Bytes)
  | withAutoReload (enabled : Bool)
  | withCodeInfo (enabled : Bool)
  | withInlinedFns (enabled : Bool)
  | withDemangle (enabled : Bool)
  deriving DecidableEq, Repr

/-- `go/symbolizer_option.go:89-91`: the loop over the strings; the pointer of the next one goes to `a`. -/
def putStrings (alloc : Allocator) (s : Store) (a : Nat) : List Bytes → Except Crash Store
  | [] => .ok s
  | str :: rest => do
    let (p, s) ← cString alloc s str
    let s ← cWrite s a (leBytes 8 p)
    putStrings alloc s (a + 8) rest

/-- `go/symbolizer_option.go:84-94` (`makeCArrayOfStrings`). -/
def makeCArrayOfStrings (alloc : Allocator) (s : Store) (input : List Bytes) : Except Crash (Nat × Store) := do
  let (arr, s) ← cMalloc alloc s (List.replicate (input.length * 8) none)
  let s ← putStrings alloc s arr input
  return (arr, s)

/-- `go/symbolizer_option.go:103-105`: the loop over the strings, from the pointer at `a` on. -/
def freeStrings (s : Store) (a : Nat) : Nat → Except Crash Store
  | 0 => .ok s
  | n + 1 => do
    let p ← lift (readNum s.mem a 8)
    let s ← cFree s p
    freeStrings s (a + 8) n

/-- `go/symbolizer_option.go:96-108` (`freeCArrayOfStrings`). -/
def freeCArrayOfStrings (s : Store) (input length : Nat) : Except Crash Store :=
  if length = 0 then .ok s
  else do
    let s ← freeStrings s input length
    cFree s input

/-- `go/symbolizer_option.go:40-82` (`SymbolizerWithDebugDirs`, `SymbolizerWithAutoReload`,
`SymbolizerWithCodeInfo`, `SymbolizerWithInlinedFns`, `SymbolizerWithDemangle`). -/
def SymbolizerOption.apply (alloc : Allocator) (s : Store) (x : OptsStruct) :
    SymbolizerOption → Except Crash (OptsStruct × Store)
  | .withDebugDirs dirs => do
    let s ← if x.debugDirsLen ≠ 0 then freeCArrayOfStrings s x.debugDirs x.debugDirsLen else .ok s
    let (arr, s) ← makeCArrayOfStrings alloc s dirs
    return ({ x with debugDirs := arr, debugDirsLen := dirs.length }, s)
  | .withAutoReload enabled => .ok ({ x with autoReload := enabled }, s)
  | .withCodeInfo enabled => .ok ({ x with codeInfo := enabled }, s)
  | .withInlinedFns enabled => .ok ({ x with inlinedFns := enabled }, s)
  | .withDemangle enabled => .ok ({ x with demangle := enabled }, s)

/-- `go/symbolizer.go:31-33`: the loop over options. -/
def applyOptions (alloc : Allocator) (s : Store) (x : OptsStruct) :
    List SymbolizerOption → Except Crash (OptsStruct × Store)
  | [] => .ok (x, s)
  | option :: rest => do
    let (x, s) ← option.apply alloc s x
    applyOptions alloc s x rest

/-- `capi/src/symbolize.rs:789-887` (`blaze_symbolizer_new_opts`): the options of the new symbolizer, or none if
`NULL` is returned, and the error. -/
def symbolizerNewOpts (m : Mem) (p : Nat) : Except Fault (Option SymbolizerOpts × Int) := do
  match ← inputAs m p .symbolizerOpts (symbolizerOpts m) with
  | .error e => return (none, errCode e)
  | .ok opts => return (some opts, 0)

/-- `go/symbolizer.go:27-41` (`NewSymbolizer`), with `go/symbolizer_option.go:31-33` (`Close`): the text of an
error, or the options the symbolizer of the library was created with. -/
def newSymbolizer (alloc : Allocator) (s : Store) (l : LastErr) (sched : Schedule) (options : List SymbolizerOption) :
    Except Crash (Except Bytes SymbolizerOpts × Store × LastErr) := do
  let (so, s) ← applyOptions alloc s newSymbolizerOptions options
  let (p, s) ← goNew alloc s so.bytes
  let (sym, err) ← lift (symbolizerNewOpts s.mem p)
  let l := afterOthers (l.set sched.callThread err) sched.others
  let result := match sym with
    | none => .error (errText (l sched.errThread))
    | some opts => .ok opts
  let s ← freeCArrayOfStrings s so.debugDirs so.debugDirsLen
  let s ← goDrop s p so.bytes.length
  return (result, s, l)

/-- `go/reason.go:7-29` (`SymbolizeReason`): the constants there are. -/
def reasonConstants : List (Bytes × Nat) :=
  [(ascii "SymbolizeReasonSuccess", 0), (ascii "SymbolizeReasonUnmapped", 1),
   (ascii "SymbolizeReasonInvalidFileOffset", 2), (ascii "SymbolizeReasonMissingComponent", 3),
   (ascii "SymbolizeReasonMissingSyms", 4), (ascii "SymbolizeReasonUnknownAddr", 5),
   (ascii "SymbolizeReasonUnsupported", 6)]

end Blazesym.Go
