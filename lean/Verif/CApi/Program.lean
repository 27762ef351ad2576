import Verif.CApi.Call
import Verif.CApi.Output
import Verif.Session.Kernel

/-!
# Model of programs that use symbolizers through the C interface (`capi/src/symbolize.rs`)

Here the functions of the Rust library are those of `Verif.Session.State`: a symbolizer is an object on the heap,
with the caches it has filled.  The bytes of the object itself are opaque.  A call takes place in a world that does
not change meanwhile, and calls do not overlap (`blaze_symbolizer` must not be used by several threads at once).
A panic aborts the program.  The memory the library uses for itself is not modelled, apart from the objects and
the results it hands out.
-/

set_option autoImplicit false

namespace Blazesym.CApi

open Blazesym.Error Blazesym.Symbolize

variable {M : Type} [DecidableEq M]

/-- What the library is built with, and the parts of the program it calls. -/
structure Platform where
  tools : Dwarf.Tools
  demangler : Demangler
  /-- `ElfResolver::cache`, see `Symbolize.State.cache`. -/
  fill : Dwarf.ElfParser → Except Err Unit
  /-- The dispatcher a structure at an address stands for, by name of the mapping. What it does is arbitrary (see
  `Verif.CApi.Dispatch`), but it does not depend on when it is called. -/
  dispatcher : Nat → Maps.PathName → Except Err (Option Resolver)
  /-- `mem::size_of::<Symbolizer>()`. -/
  boxSize : Nat

/-- `src/symbolize/symbolizer.rs:475-490` (`Builder::default`), `775-777` (`Symbolizer::new`). -/
def defaultOpts : SymbolizerOpts := ⟨none, true, true, true, true, none⟩

/-- `capi/src/symbolize.rs:810-882`: the symbolizer that is built. -/
def settingsOf (p : Platform) (o : SymbolizerOpts) : Settings M (KernelCache M) :=
  let dirs := o.debugDirs.getD Inspect.defaultDebugDirs
  { tools := p.tools
    demangler := p.demangler
    autoReload := o.autoReload
    codeInfo := o.codeInfo
    inlinedFns := o.inlinedFns
    demangle := o.demangle
    debugDirs := dirs
    apkDispatch := none
    processDispatch := o.dispatch.map fun d _ _ name => p.dispatcher d name
    kernel := createKernelResolver p.tools dirs
    kernelNew := KernelCache.new }

/-- A symbolizer, the options it was built with, and its address. -/
structure Object (M : Type) where
  addr : Nat
  opts : SymbolizerOpts
  state : State M (KernelCache M)

/-- A program: its memory, the last error of every thread, and the symbolizers it has. -/
structure Program (M : Type) where
  store : Store
  errs : LastErr
  objects : List (Object M)

/-- `&*symbolizer`: undefined behaviour unless there is a symbolizer. -/
def Program.object (prog : Program M) (addr : Nat) : Except Fault (Object M) :=
  match prog.objects.find? fun o => o.addr == addr with
  | some o => .ok o
  | none => .error .outOfBounds

/-- The symbolizer is changed. -/
def Program.update (prog : Program M) (addr : Nat) (state : State M (KernelCache M)) : Program M :=
  { prog with objects := prog.objects.map fun o => if o.addr = addr then { o with state } else o }

/-- `capi/src/error.rs:85-87` (`set_last_err`). -/
def Program.report (prog : Program M) (thread : Nat) (err : Int) : Program M :=
  { prog with errs := prog.errs.set thread err }

/-- `src/error.rs:483-485` (`kind`): the kind of an error.  A panic is none, see `outcome`. -/
def kindOfErr : Err → ErrorKind
  | .notFound => .notFound
  | .permissionDenied => .permissionDenied
  | .alreadyExists => .alreadyExists
  | .wouldBlock => .wouldBlock
  | .invalidInput => .invalidInput
  | .invalidData => .invalidData
  | .invalidDwarf => .invalidDwarf
  | .timedOut => .timedOut
  | .writeZero => .writeZero
  | .unsupported => .unsupported
  | .unexpectedEof => .unexpectedEof
  | .outOfMemory => .outOfMemory
  | .other => .other
  | .panic => .other

/-- What a function of the library comes back with: a panic does not get out of an `extern "C"` function, the
program is aborted. -/
def outcome {α : Type} : Except Err α → Except Fault (Except ErrorKind α)
  | .ok a => .ok (.ok a)
  | .error .panic => .error .abort
  | .error e => .ok (.error (kindOfErr e))

/-- The library with what it says about a request. -/
def coreWith (r : Except ErrorKind (List Symbolized)) : Core where
  symbolize := fun _ _ => r
  cacheElf := fun _ => .ok ()
  cacheProcess := fun _ => .ok ()
  normalize := fun _ _ _ => .ok ()
  lookup := fun _ _ => .ok []
  buildId := fun _ => .ok none
  procmapQuery := .ok true

/-- The buffer a function returns becomes part of the memory of the program. -/
def Store.take (s : Store) : Ret → Nat × Store
  | .buffer p st =>
    (p, ⟨s.mem.fill st.heap.base ((List.range st.heap.size).map fun i => st.heap.mem (st.heap.base + i)),
      ⟨st.heap.base, st.heap.size, 8⟩ :: s.blocks⟩)
  | _ => (0, s)

/-- `capi/src/symbolize.rs:1393-1402` (`blaze_syms_free`). -/
def Store.freeSyms (s : Store) (syms : Nat) : Except Fault Store :=
  match symsFree s.mem syms with
  | none => .error .outOfBounds
  | some none => .ok s
  | some (some (p, size)) => s.free ⟨p, size, 8⟩

/-- The functions for symbolization; pointers are addresses. -/
inductive SymCall where
  | new
  | newOpts (opts : Nat)
  | free (sym : Nat)
  | symbolize (sym : Nat) (fn : SymbolizeFn) (src addrs cnt : Nat)
  | symsFree (syms : Nat)
  | cacheElf (sym src : Nat)
  | cacheProcess (sym src : Nat)
  deriving DecidableEq, Repr

/-- `Box::into_raw(Box::new(symbolizer))`, with `set_last_err(blaze_err::OK)`. -/
def Program.create (p : Platform) (alloc : Allocator) (prog : Program M) (thread : Nat) (o : SymbolizerOpts) :
    Except Fault (Nat × Program M) := do
  let (addr, store) ← prog.store.box alloc 8 (List.replicate p.boxSize none)
  return (addr, { store, errs := prog.errs.set thread ok,
                  objects := ⟨addr, o, State.new (settingsOf p o)⟩ :: prog.objects })

/-- `capi/src/symbolize.rs:896-900` (`blaze_symbolizer_free`). -/
def Program.destroy (p : Platform) (prog : Program M) (sym : Nat) : Except Fault (Nat × Program M) :=
  if sym = 0 then .ok (0, prog)
  else do
    let _ ← prog.object sym
    let store ← prog.store.free ⟨sym, p.boxSize, 8⟩
    return (0, { prog with store, objects := prog.objects.filter fun o => o.addr != sym })

/-- `capi/src/symbolize.rs:1179-1384`, with `1122-1160` (`blaze_symbolize_impl`). -/
def Program.symbolize (p : Platform) (alloc : Allocator) (w : World M) (prog : Program M) (thread sym : Nat) (fn : SymbolizeFn)
    (src addrs cnt : Nat) : Except Fault (Nat × Program M) := do
  match ← sourceOf prog.store.mem src fn with
  | .error e => return (0, prog.report thread (errCode e))
  | .ok source =>
    let o ← prog.object sym
    let xs ← userArray prog.store.mem addrs 8 cnt
    let (r, state) := o.state.symbolize (settingsOf p o.opts) w source (kindOf fn xs)
    let r ← outcome r
    let (ret, err) ←
      symbolizeImpl (coreWith r) (fun size => alloc prog.store size 8) prog.store.mem source (kindOf fn) addrs cnt
    let (ptr, store) := prog.store.take ret
    return (ptr, { (prog.update sym state).report thread err with store })

/-- `capi/src/symbolize.rs:915-933`, `956-974`: what is common to both functions. -/
def Program.cache {α : Type} (p : Platform) (w : World M) (prog : Program M) (thread sym : Nat)
    (read : Except Fault (Except ErrorKind α)) (req : α → CacheReq) : Except Fault (Nat × Program M) := do
  match ← read with
  | .error e => return (0, prog.report thread (errCode e))
  | .ok a =>
    let o ← prog.object sym
    let (r, state) := o.state.cache w p.fill (req a)
    let r ← outcome r
    return (0, (prog.update sym state).report thread (errOf r))

/-- A call by a thread: what it returns (0 for functions that return nothing) and what becomes of the program. -/
def Program.step (p : Platform) (alloc : Allocator) (w : World M) (thread : Nat) (prog : Program M) :
    SymCall → Except Fault (Nat × Program M)
  -- `capi/src/symbolize.rs:769-774`
  | .new => prog.create p alloc thread defaultOpts
  -- `capi/src/symbolize.rs:789-887`
  | .newOpts opts => do
    match ← inputAs prog.store.mem opts .symbolizerOpts (symbolizerOpts prog.store.mem) with
    | .error e => return (0, prog.report thread (errCode e))
    | .ok o => prog.create p alloc thread o
  | .free sym => prog.destroy p sym
  | .symbolize sym fn src addrs cnt => prog.symbolize p alloc w thread sym fn src addrs cnt
  | .symsFree syms => do
    let store ← prog.store.freeSyms syms
    return (0, { prog with store })
  -- `capi/src/symbolize.rs:915-933`
  | .cacheElf sym src =>
    prog.cache p w thread sym (inputAs prog.store.mem src .cacheElf (cacheElf prog.store.mem)) .elf
  -- `capi/src/symbolize.rs:956-974`
  | .cacheProcess sym src =>
    prog.cache p w thread sym (inputAs prog.store.mem src .cacheProcess cacheProcess) fun x => .process x.1 x.2

end Blazesym.CApi
