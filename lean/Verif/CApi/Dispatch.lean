import Verif.CApi.Output
import Verif.CApi.Input
import Verif.Session.State

/-!
# Model of the dispatchers of the C interface (`capi/src/symbolize.rs`)

A symbolizer that is created with `blaze_symbolizer_opts::process_dispatch` asks a C function which file to use
for a mapping of a process.  That function is arbitrary: it gets the memory of the program and returns memory.
The memory `ElfResolver::open` uses for itself is not modelled.
-/

set_option autoImplicit false

namespace Blazesym.CApi

open Blazesym.Symbolize

/-- `capi/src/symbolize.rs:674-679` (`blaze_symbolizer_dispatch::dispatch_cb`): by memory, the two paths and the
context, what is returned and memory afterwards. -/
abbrev DispatchCb := Store → Nat → Nat → Nat → Nat × Store

/-- `CString::new(..).map_err(..)` (`capi/src/symbolize.rs:852-855`): a string with a NUL is refused. -/
def cstringNew (alloc : Allocator) (s : Store) (str : Bytes) : Except Fault (Except Err (Nat × Store)) :=
  if 0 ∈ str then .ok (.error .invalidData)
  else
    match s.box alloc 1 (init (str ++ [0])) with
    | .error f => .error f
    | .ok r => .ok (.ok r)

/-- The end of a `CString`. -/
def cstringDrop (s : Store) (p : Nat) (str : Bytes) : Except Fault Store := s.free ⟨p, str.length + 1, 1⟩

/-- `libc::free`: undefined behaviour unless the address came from `malloc`, whose memory is aligned to 16 bytes,
and was not freed yet. -/
def libcFree (s : Store) (p : Nat) : Except Fault Store :=
  if p = 0 then .ok s
  else
    match s.blocks.find? fun b => b.addr == p && b.align == 16 with
    | some b => s.free b
    | none => .error .badLayout

/-- `capi/src/symbolize.rs:868-872`: the file is opened, without a cache; the directories are those given for the
symbolizer, or else the default. -/
def openDispatched {M : Type} (tools : Dwarf.Tools) (w : World M) (dirs : Option (List Bytes)) (path : Bytes) :
    Except Err Resolver :=
  let opened :=
    match dirs with
    | some dirs => Dwarf.openWithDebugDirs tools w.files w.disk dirs path
    | none => Dwarf.openWithDebugDirs tools w.files w.disk Inspect.defaultDebugDirs path
  match opened with
  | .error e => .error e
  | .ok r => .ok (elfAsResolver tools r)

/-- `capi/src/symbolize.rs:856-876`: from the call of the function on; `opened` is how a file is opened. -/
def dispatchCall (opened : Bytes → Except Err Resolver) (cb : DispatchCb) (ctx : Nat) (s : Store)
    (maps sym : Nat) : Except Fault (Except Err (Option Resolver) × Store) :=
  match cb s maps sym ctx with
  | (result, s) =>
    if result = 0 then .ok (.ok none, s)
    else
      match fromCStr s.mem result with
      | .error f => .error f
      | .ok path =>
        match libcFree s result with
        | .error f => .error f
        | .ok s => .ok ((opened path).map some, s)

/-- `capi/src/symbolize.rs:849-879`: the closure that is the dispatcher.  The two strings are dropped at its end,
also if it ends early. -/
def dispatch (opened : Bytes → Except Err Resolver) (alloc : Allocator) (cb : DispatchCb) (ctx : Nat) (s : Store) :
    Maps.PathName → Except Fault (Except Err (Option Resolver) × Store)
  | .component _ => .ok (.ok none, s)
  | .path p => do
    match ← cstringNew alloc s p.mapsFile with
    | .error e => return (.error e, s)
    | .ok (maps, s) =>
      match ← cstringNew alloc s p.symbolicPath with
      | .error e => return (.error e, ← cstringDrop s maps p.mapsFile)
      | .ok (sym, s) =>
        let (answer, s) ← dispatchCall opened cb ctx s maps sym
        let s ← cstringDrop s sym p.symbolicPath
        let s ← cstringDrop s maps p.mapsFile
        return (answer, s)

end Blazesym.CApi
