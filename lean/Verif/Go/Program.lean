import Verif.Go.Bindings
import Verif.CApi.Program

/-!
# Model of Go programs with symbolizers (`go/symbolizer.go`)

`Verif.Go.Bindings` has the functions of the Go package with an arbitrary library underneath.  Here they are those
of `Verif.CApi.Program`: a Go program has symbolizers, which have an address, and which it may use again and again.
A world does not change during a call.  Calls for the same symbolizer do not overlap.
-/

set_option autoImplicit false

namespace Blazesym.Go

open Blazesym.CApi Blazesym.Error Blazesym.Symbolize

variable {M : Type} [DecidableEq M]

/-- `go/symbolizer.go:27-41` (`NewSymbolizer`), with `go/symbolizer_option.go:31-33` (`Close`): the text of an
error, or the address of the symbolizer of the library. -/
def newIn (p : Platform) (alloc : Allocator) (w : World M) (prog : Program M) (sched : Schedule)
    (options : List SymbolizerOption) : Except Crash (Except Bytes Nat × Program M) := do
  let (so, s) ← applyOptions alloc prog.store newSymbolizerOptions options
  let (opts, s) ← goNew alloc s so.bytes
  let (sym, prog) ← lift (Program.step p alloc w sched.callThread { prog with store := s } (.newOpts opts))
  let errs := afterOthers prog.errs sched.others
  let result := if sym = 0 then .error (errText (errs sched.errThread)) else .ok sym
  let s ← freeCArrayOfStrings prog.store so.debugDirs so.debugDirsLen
  let s ← goDrop s opts so.bytes.length
  return (result, { prog with store := s, errs })

/-- `go/symbolizer.go:50-101` (`SymbolizeElfVirtOffsets`, `SymbolizeGsymFileVirtOffsets`,
`SymbolizeGsymDataVirtOffsets`, `SymbolizeProcessAbsAddrs`), with `go/source_elf.go:36-38`
(`cleanupElfSourceStruct`) and `go/source_gsym_file.go:25-27` (`cleanupGsymFileSourceStruct`). -/
def symbolizeIn (p : Platform) (alloc : Allocator) (w : World M) (prog : Program M) (sched : Schedule) (sym : Nat)
    (req : Request) (addrs : List Nat) : Except Crash (Result × Program M) := do
  let (prep, s) ← prepare alloc prog.store req
  let ((caddr, clen), s) ← addrsToPtr alloc s addrs
  let (source, s) ← goNew alloc s prep.source
  let (syms, prog) ← lift
    (Program.step p alloc w sched.callThread { prog with store := s } (.symbolize sym req.fn source caddr clen))
  let errs := afterOthers prog.errs sched.others
  let (result, s) ← processSyms prog.store syms (errs sched.errThread)
  let s ← cFree s prep.malloced
  let s ← goDrop s source prep.source.length
  let s ← goDrop s caddr (8 * clen)
  let s ← goDrop s prep.object prep.objectSize
  return (result, { prog with store := s, errs })

/-- `go/symbolizer.go:44-46` (`Close`): the pointer stays as it is. -/
def closeIn (p : Platform) (alloc : Allocator) (w : World M) (prog : Program M) (thread sym : Nat) :
    Except Crash (Program M) := do
  let (_, prog) ← lift (prog.step p alloc w thread (.free sym))
  return prog

end Blazesym.Go
