import Verif.Symbolize.Convert
import Verif.Normalize.Walk
import Verif.Util.Reorder
import Verif.Util.Extension
import Verif.Kernel.Resolver

/-!
# Model of symbolization requests (`src/symbolize/symbolizer.rs`)

With all features enabled.  What the symbolizer gets from outside (files and their resolvers, the
mappings of a process, a dispatcher) is an environment of arbitrary functions; it is assumed not to
change during a request.  The caches in front of it have models of their own (`Verif.Cache`), except
for the resolvers supplied by a process dispatcher, whose cache is part of this one.

A panic is an `Err`, but not one that is folded into a result.
-/

set_option autoImplicit false

namespace Blazesym.Symbolize
open Blazesym.Util Blazesym.Maps Blazesym.Normalize

/-- `Resolve` (`src/symbolize/mod.rs`): a resolver that also translates file offsets. -/
structure Resolver where
  find : SymFn
  toVirt : Nat → Except Err (Option Nat)

/-- `src/symbolize/source.rs` (`Kernel`). -/
structure KernelSource where
  kallsyms : Kernel.MaybeDefault Bytes
  vmlinux : Kernel.MaybeDefault Bytes
  kaslr : Option Nat
  debugSyms : Bool

/-- `src/symbolize/source.rs` (`Process`). -/
structure ProcessSource where
  pid : Nat
  debugSyms : Bool
  perfMap : Bool
  mapFiles : Bool
  vdso : Bool

/-- `src/symbolize/source.rs` (`Source`). -/
inductive Source where
  | apk (path : Bytes) (debugSyms : Bool)
  | breakpad (path : Bytes)
  | elf (path : Bytes) (debugSyms : Bool)
  | kernel (src : KernelSource)
  | process (src : ProcessSource)
  | gsymData (data : Bytes)
  | gsymFile (path : Bytes)

/-- `src/symbolize/mod.rs:166-221` (`Input`). -/
inductive Input (α : Type) where
  | absAddr (x : α)
  | virtOffset (x : α)
  | fileOffset (x : α)

/-- The resolvers a process dispatcher has supplied (`process_cache`). -/
abbrev DispatchCache := List (PathName × Option Resolver)

/-- The symbolizer's settings and its environment. -/
structure Env where
  opts : FindSymOpts
  demangle : Bool
  demangler : Demangler
  /-- `apk_resolver`, by actual path, represented path, offset and whether to use debug information. -/
  apk : Bytes → Bytes → Nat → Bool → Except Err (Option (SymFn × Nat))
  breakpad : Bytes → Except Err SymFn
  /-- `elf_resolver`, by actual path, represented path and whether to use debug information. -/
  elf : Bytes → Bytes → Bool → Except Err Resolver
  kernel : KernelSource → Except Err SymFn
  gsymData : Bytes → Except Err SymFn
  gsymFile : Bytes → Except Err SymFn
  /-- `perf_map_resolver`. -/
  perfMap : Nat → Except Err (Option SymFn)
  /-- `vdso_parser`, by process and mapping. -/
  vdso : Nat → Nat → Nat → Except Err Resolver
  /-- The (relevant) mappings of a process, cached or read. -/
  maps : Nat → Except Err (List (Except Err Entry))
  /-- The process dispatcher, if any, by mapping and name. -/
  dispatch : Option (Nat → Nat → PathName → Except Err (Option Resolver))
  /-- What it has supplied before. -/
  dispatched : DispatchCache

/-- `src/symbolize/symbolizer.rs:804-810` (`symbolize_with_resolver` of a symbolizer). -/
def Env.symbolizeWith (env : Env) (addr : Nat) (resolver : SymFn) : Except Err Symbolized :=
  symbolizeWithResolver env.demangler env.demangle env.opts addr resolver

/-- The part that ELF files, the vDSO and dispatched resolvers have in common
(`src/symbolize/symbolizer.rs:552-561`, `583-592`, `611-620`, `1255-1261`): an offset into the file is
translated and what it is translated to symbolized. -/
def Env.symbolizeOffset (env : Env) (resolver : Resolver) (off : Nat) : Except Err Symbolized :=
  match resolver.toVirt off with
  | .error e => .error e
  | .ok (some addr) => env.symbolizeWith addr resolver.find
  | .ok none => .ok (.unknown .invalidFileOffset)

/-- `src/symbolize/symbolizer.rs:515-536` and `1181-1187`. -/
def Env.symbolizeApk (env : Env) (actual represented : Bytes) (off : Nat) (debugSyms : Bool) : Except Err Symbolized :=
  match env.apk actual represented off debugSyms with
  | .error e => .error e
  | .ok (some (resolver, addr)) => env.symbolizeWith addr resolver
  | .ok none => .ok (.unknown .invalidFileOffset)

/-- `src/symbolize/symbolizer.rs:954-974` (`process_dispatch_resolver`). -/
def dispatchResolver (env : Env) (cache : DispatchCache) (start stop : Nat) (name : PathName) :
    Except Err (Option Resolver × DispatchCache) :=
  match env.dispatch with
  | none => .ok (none, cache)
  | some dispatch =>
    match cache.lookup name with
    | some r => .ok (r, cache)
    | none =>
      match dispatch start stop name with
      | .error e => .error e
      | .ok r => .ok (r, (name, r) :: cache)

/-- `src/symbolize/symbolizer.rs:564-574` (`handle_perf_map_addr`). -/
def handlePerfMapAddr (env : Env) (src : ProcessSource) (addr : Nat) : Except Err Symbolized :=
  match env.perfMap src.pid with
  | .error e => .error e
  | .ok (some perfMap) => env.symbolizeWith addr perfMap
  | .ok none => .ok (.unknown .unknownAddr)

/-- `src/symbolize/symbolizer.rs:629-663`: the handling of an entry by default. -/
def handleDefault (env : Env) (src : ProcessSource) (addr fileOff : Nat) (entry : Entry) : Except Err Symbolized :=
  match entry.pathName with
  | some (.path p) =>
    let actual := if src.mapFiles then p.mapsFile else p.symbolicPath
    let ext := (extension p.symbolicPath).getD []
    if ext = ascii "apk" ∨ ext = ascii "zip" then env.symbolizeApk actual p.symbolicPath fileOff src.debugSyms
    else
      match env.elf actual p.symbolicPath src.debugSyms with
      | .error e => .error e
      | .ok resolver => env.symbolizeOffset resolver fileOff
  | some (.component c) =>
    if src.vdso ∧ c = ascii "[vdso]" then
      match env.vdso src.pid entry.start entry.stop with
      | .error e => .error e
      | .ok parser => env.symbolizeOffset parser fileOff
    else .ok (.unknown .unsupported)
  | none => if src.perfMap then handlePerfMapAddr env src addr else .ok (.unknown .unknownAddr)

/-- `src/symbolize/symbolizer.rs:603-664` (`handle_entry_addr`): the symbol it adds.
`addr - entry.range.start` cannot underflow where it is called. -/
def handleEntryAddr (env : Env) (src : ProcessSource) (cache : DispatchCache) (addr : Nat) (entry : Entry) :
    Except Err (Symbolized × DispatchCache) :=
  match addU64 (addr - entry.start) entry.offset with
  | .error e => .error e
  | .ok fileOff =>
    let byDefault (cache : DispatchCache) : Except Err (Symbolized × DispatchCache) :=
      match handleDefault env src addr fileOff entry with
      | .error e => .error e
      | .ok s => .ok (s, cache)
    match entry.pathName with
    | none => byDefault cache
    | some name =>
      match dispatchResolver env cache entry.start entry.stop name with
      | .error e => .error e
      | .ok (none, cache) => byDefault cache
      | .ok (some resolver, cache) =>
        match env.symbolizeOffset resolver fileOff with
        | .error e => .error e
        | .ok s => .ok (s, cache)

/-- `src/symbolize/symbolizer.rs:491-665` (`SymbolizeHandler`). -/
def symHandler (env : Env) (src : ProcessSource) : Handler (List Symbolized × DispatchCache) where
  unknown := fun _ s => (s.1 ++ [.unknown .unmapped], s.2)
  entryAddr := fun addr entry s =>
    match handleEntryAddr env src s.2 addr entry with
    | .error e => .error e
    | .ok (sym, cache) => .ok (s.1 ++ [sym], cache)

/-- The closure of `src/symbolize/symbolizer.rs:987-1022`, for sorted addresses. -/
def userHandle (env : Env) (src : ProcessSource) (items : List (Except Err Entry)) (sorted : List Nat) :
    Except Err (DispatchCache × List Symbolized) :=
  match walk (symHandler env src) sorted (.list items) ([], env.dispatched) with
  | .error e => .error e
  | .ok (syms, cache) => .ok (cache, syms)

/-- `src/symbolize/symbolizer.rs:978-1025` (`symbolize_user_addrs`).  (That the mappings are read
inside of the closure makes no difference.) -/
def symbolizeUserAddrs (env : Env) (src : ProcessSource) (addrs : List Nat) : Except Err (List Symbolized) :=
  match env.maps src.pid with
  | .error e => .error e
  | .ok items =>
    match withOrderedElems addrs (userHandle env src items) with
    | .ok _ syms => .ok syms
    | .err e => .error e
    | .panicked => .error .panic
    | .diverged => .error .panic

/-- `.map(|result| result.or_else(maybe_fold_error))`.  A panic is not a result. -/
def orElse (fold : Err → Except Err Symbolized) : Except Err Symbolized → Except Err Symbolized
  | .ok s => .ok s
  | .error .panic => .error .panic
  | .error e => fold e

/-- `src/symbolize/symbolizer.rs:1146-1392` (`symbolize_impl`): the items it collects. -/
def symbolizeImpl (env : Env) (src : Source) (input : Input (List Nat)) (fold : Err → Except Err Symbolized) :
    Except Err (List (Except Err Symbolized)) :=
  match src with
  | .apk path debugSyms =>
    match input with
    | .virtOffset _ => .error .unsupported
    | .absAddr _ => .error .unsupported
    | .fileOffset addrs => .ok (addrs.map fun off => orElse fold (env.symbolizeApk path path off debugSyms))
  | .breakpad path =>
    match input with
    | .virtOffset _ => .error .unsupported
    | .absAddr _ => .error .unsupported
    | .fileOffset addrs =>
      match env.breakpad path with
      | .error e => .error e
      | .ok resolver => .ok (addrs.map fun addr => orElse fold (env.symbolizeWith addr resolver))
  | .elf path debugSyms =>
    match env.elf path path debugSyms with
    | .error e => .error e
    | .ok resolver =>
      match input with
      | .virtOffset addrs => .ok (addrs.map fun addr => orElse fold (env.symbolizeWith addr resolver.find))
      | .absAddr _ => .error .unsupported
      | .fileOffset addrs => .ok (addrs.map fun off => orElse fold (env.symbolizeOffset resolver off))
  | .kernel kernel =>
    match input with
    | .absAddr addrs =>
      match env.kernel kernel with
      | .error e => .error e
      | .ok resolver => .ok (addrs.map fun addr => orElse fold (env.symbolizeWith addr resolver))
    | .virtOffset _ => .error .unsupported
    | .fileOffset _ => .error .unsupported
  | .process process =>
    match input with
    | .absAddr addrs =>
      match symbolizeUserAddrs env process addrs with
      | .error e => .error e
      | .ok syms => .ok (syms.map fun s => orElse fold (.ok s))
    | .virtOffset _ => .error .unsupported
    | .fileOffset _ => .error .unsupported
  | .gsymData data =>
    match input with
    | .virtOffset addrs =>
      match env.gsymData data with
      | .error e => .error e
      | .ok resolver => .ok (addrs.map fun addr => orElse fold (env.symbolizeWith addr resolver))
    | .absAddr _ => .error .unsupported
    | .fileOffset _ => .error .unsupported
  | .gsymFile path =>
    match input with
    | .virtOffset addrs =>
      match env.gsymFile path with
      | .error e => .error e
      | .ok resolver => .ok (addrs.map fun addr => orElse fold (env.symbolizeWith addr resolver))
    | .absAddr _ => .error .unsupported
    | .fileOffset _ => .error .unsupported

/-- `src/symbolize/symbolizer.rs:1437-1446` (`symbolize`). -/
def symbolize (env : Env) (src : Source) (input : Input (List Nat)) : Except Err (List Symbolized) :=
  match symbolizeImpl env src input (fun _ => .ok (.unknown .ignoredError)) with
  | .error e => .error e
  | .ok items => collect items

/-- `src/symbolize/mod.rs` (`Input::map`). -/
def Input.map {α β : Type} (f : α → β) : Input α → Input β
  | .absAddr x => .absAddr (f x)
  | .virtOffset x => .virtOffset (f x)
  | .fileOffset x => .fileOffset (f x)

/-- `src/symbolize/symbolizer.rs:1461-1469` (`symbolize_single`).  Collecting into a `Single`
(`:684-712`) takes the one item and panics if there is another number of them. -/
def symbolizeSingle (env : Env) (src : Source) (input : Input Nat) : Except Err Symbolized :=
  match symbolizeImpl env src (input.map fun addr => [addr]) (fun e => .error e) with
  | .error e => .error e
  | .ok [item] => item
  | .ok _ => .error .panic

end Blazesym.Symbolize
