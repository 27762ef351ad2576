import Verif.CApi.Program
import Verif.CApi.CallSpec
import Verif.CApi.OutputSpec
import Verif.Session.AnswerSpec

/-!
# What C programs can rely on

A program makes calls in any order, by any threads and in any worlds, and does what it wants with memory that is
its own.  `Runs` also keeps account of the results that were handed out and not freed yet, and of the memory that
is the program's own.
-/

set_option autoImplicit false

namespace Blazesym.CApi

open Blazesym.Symbolize
open Blazesym.Spec.Symbolize (Reachable)

variable {M : Type} [DecidableEq M]

/-- `struct blaze_syms` at `p`: the number of results, and the results. -/
def ResultsAt (m : Mem) (p : Nat) (results : List Symbolized) : Prop :=
  NumAt m p 8 results.length ∧ ∃ (i c stop : Nat), SymArray m (p + 8) i c c stop results

/-- Results that were handed out: where, and what they are. -/
structure Handed where
  ptr : Nat
  results : List Symbolized

/-- The memory results take up, with the size in front that is needed to free them. -/
def Handed.block (h : Handed) : Block := ⟨h.ptr - 8, bufSize h.results, 8⟩

/-- The memory a symbolizer takes up. -/
def Object.block (p : Platform) (o : Object M) : Block := ⟨o.addr, p.boxSize, 8⟩

/-- All memory that belongs to the library. -/
def libraryBlocks (p : Platform) (prog : Program M) (hs : List Handed) : List Block :=
  prog.objects.map (Object.block p) ++ hs.map Handed.block

/-- The program does something else: it may allocate and free memory, and write to all of it that is not the
library's. -/
structure OwnWork (library own : List Block) (s s' : Store) : Prop where
  valid : s'.Valid
  blocks : s'.blocks.Perm (library ++ own)
  same : Unchanged s.mem s'.mem library

/-- The numbers of results are in range of their Rust types. -/
def FitNumbers (r : Except Err (List Symbolized)) : Prop :=
  ∀ (results : List Symbolized), r = .ok results → ∀ (sym : Sym), .sym sym ∈ results → Sym.Fits sym

/-- The rules for calls: only what was handed out is freed.  `ok` is a further condition on the requests that
reach a symbolizer. -/
def Abides (p : Platform) (ok : SymbolizerOpts → State M (KernelCache M) → World M → Spec.Symbolize.Call → Prop)
    (prog : Program M) (hs : List Handed) (w : World M) : SymCall → Prop
  | .symsFree syms => syms = 0 ∨ ∃ (h : Handed), h ∈ hs ∧ h.ptr = syms
  | .symbolize sym fn src addrs cnt => ∀ (o : Object M) (source : Source) (input : Input (List Nat)), o ∈ prog.objects →
      o.addr = sym → SymbolizeArgs prog.store.mem src addrs cnt fn source input →
      ok o.opts o.state w (.symbolize source input)
        ∧ FitNumbers (o.state.symbolize (settingsOf p o.opts) w source input).1
  | .cacheElf sym src => ∀ (o : Object M) (path : Bytes), o ∈ prog.objects → o.addr = sym →
      inputAs prog.store.mem src .cacheElf (cacheElf prog.store.mem) = .ok (.ok path) →
      ok o.opts o.state w (.cache p.fill (.elf path))
  | .cacheProcess sym src => ∀ (o : Object M) (x : Nat × Bool), o ∈ prog.objects → o.addr = sym →
      inputAs prog.store.mem src .cacheProcess cacheProcess = .ok (.ok x) →
      ok o.opts o.state w (.cache p.fill (.process x.1 x.2))
  | _ => True

/-- What the symbolizer at `sym` has to say about a request. -/
def answersTo (p : Platform) (prog : Program M) (w : World M) (sym : Nat) (fn : SymbolizeFn) (src addrs cnt : Nat) :
    List Symbolized :=
  match prog.object sym, sourceOf prog.store.mem src fn, userArray prog.store.mem addrs 8 cnt with
  | .ok o, .ok (.ok source), .ok xs =>
    ((o.state.symbolize (settingsOf p o.opts) w source (kindOf fn xs)).1).toOption.getD []
  | _, _, _ => []

/-- The account of results after a call that returned `ret`. -/
def account (p : Platform) (prog : Program M) (w : World M) (ret : Nat) (hs : List Handed) : SymCall → List Handed
  | .symbolize sym fn src addrs cnt => if ret = 0 then hs else ⟨ret, answersTo p prog w sym fn src addrs cnt⟩ :: hs
  | .symsFree syms => hs.filter fun h => h.ptr != syms
  | _ => hs

/-- The programs there are, with the account of results and the memory of their own.  They may also call functions
of the library that have nothing to do with symbolizers: those set the last error of a thread, and the memory they
allocate counts as memory of the program. -/
inductive Runs (p : Platform) (alloc : Allocator)
    (ok : SymbolizerOpts → State M (KernelCache M) → World M → Spec.Symbolize.Call → Prop) :
    Program M → List Handed → List Block → Prop where
  | start (s : Store) : s.Valid → Runs p alloc ok ⟨s, LastErr.init, []⟩ [] s.blocks
  | own (prog : Program M) (hs : List Handed) (os os' : List Block) (s' : Store) : Runs p alloc ok prog hs os →
      OwnWork (libraryBlocks p prog hs) os' prog.store s' → Runs p alloc ok { prog with store := s' } hs os'
  | error (prog : Program M) (hs : List Handed) (os : List Block) (thread : Nat) (err : Int) : Runs p alloc ok prog hs os →
      Runs p alloc ok { prog with errs := prog.errs.set thread err } hs os
  | call (prog prog' : Program M) (hs : List Handed) (os : List Block) (w : World M) (thread ret : Nat) (c : SymCall) :
      Runs p alloc ok prog hs os → Abides p ok prog hs w c → prog.step p alloc w thread c = .ok (ret, prog') →
      Runs p alloc ok prog' (account p prog w ret hs c) os

/-- No condition. -/
def anyCall : SymbolizerOpts → State M (KernelCache M) → World M → Spec.Symbolize.Call → Prop := fun _ _ _ _ => True

/-- The error codes of the C interface (`capi/include/blazesym.h`). -/
inductive HasCode : Err → Int → Prop
  | notFound : HasCode .notFound (-2)
  | permissionDenied : HasCode .permissionDenied (-1)
  | alreadyExists : HasCode .alreadyExists (-17)
  | wouldBlock : HasCode .wouldBlock (-11)
  | invalidData : HasCode .invalidData (-22)
  | timedOut : HasCode .timedOut (-110)
  | unsupported : HasCode .unsupported (-95)
  | outOfMemory : HasCode .outOfMemory (-12)
  | invalidInput : HasCode .invalidInput (-256)
  | writeZero : HasCode .writeZero (-257)
  | unexpectedEof : HasCode .unexpectedEof (-258)
  | invalidDwarf : HasCode .invalidDwarf (-259)
  | other : HasCode .other (-260)

/-- The symbolizer is built as asked for. -/
structure Asked (p : Platform) (o : SymbolizerOpts) (cfg : Settings M (KernelCache M)) : Prop where
  tools : cfg.tools = p.tools
  demangler : cfg.demangler = p.demangler
  autoReload : cfg.autoReload = o.autoReload
  codeInfo : cfg.codeInfo = o.codeInfo
  inlinedFns : cfg.inlinedFns = o.inlinedFns
  demangle : cfg.demangle = o.demangle
  dirs : ∀ (dirs : List Bytes), o.debugDirs = some dirs → cfg.debugDirs = dirs
  default : o.debugDirs = none → cfg.debugDirs = [ascii "/usr/lib/debug", ascii "/lib/debug/"]
  noDispatch : o.dispatch = none → cfg.processDispatch = none
  dispatch : ∀ (d : Nat), o.dispatch = some d → ∃ (f : Nat → Nat → Maps.PathName → Except Err (Option Resolver)),
    cfg.processDispatch = some f ∧ ∀ (start stop : Nat) (name : Maps.PathName), f start stop name = p.dispatcher d name
  apk : cfg.apkDispatch = none
  kernel : cfg.kernel = createKernelResolver p.tools cfg.debugDirs ∧ cfg.kernelNew = KernelCache.new

/-- The last error of a thread is set, and no other one. -/
def SetsError (prog prog' : Program M) (thread : Nat) (err : Int) : Prop :=
  ∀ (t : Nat), prog'.errs t = if t = thread then err else prog.errs t

/-- A symbolizer takes on another state, no other one does, and the last error of the thread is set. -/
structure Changed (prog prog' : Program M) (o : Object M) (state : State M (KernelCache M)) (thread : Nat) (err : Int) :
    Prop where
  objects : ∀ (x : Object M), x ∈ prog'.objects ↔ (x ∈ prog.objects ∧ x.addr ≠ o.addr) ∨ x = { o with state }
  errs : SetsError prog prog' thread err

/-- Results are handed out in memory that was not in use. -/
structure HandsOut (prog prog' : Program M) (ptr : Nat) (results : List Symbolized) : Prop where
  notNull : ptr ≠ 0
  there : ResultsAt prog'.store.mem ptr results
  blocks : prog'.store.blocks.Perm (Handed.block ⟨ptr, results⟩ :: prog.store.blocks)
  kept : Unchanged prog.store.mem prog'.store.mem prog.store.blocks

/-- What a call for symbolization comes back with, if the library has results that are right: a pointer to them,
or `NULL` with `BLAZE_ERR_OUT_OF_MEMORY` if there is no memory for them; if they are larger than any memory, the
call does not come back. -/
def Delivers (alloc : Allocator) (prog : Program M) (thread : Nat) (right : List Symbolized → Prop)
    (out : Except Fault (Nat × Program M)) : Prop :=
  ∃ (results : List Symbolized), right results ∧
    ((2 ^ 63 - 8 < bufSize results ∧ out = .error .badLayout) ∨
     (alloc prog.store (bufSize results) 8 = none ∧ ∃ (prog' : Program M), out = .ok (0, prog')
        ∧ prog'.store = prog.store ∧ SetsError prog prog' thread (-12)) ∨
     ∃ (ptr : Nat) (prog' : Program M), out = .ok (ptr, prog') ∧ HandsOut prog prog' ptr results
        ∧ SetsError prog prog' thread 0)

end Blazesym.CApi
