import Verif.Symbolize.Symbolizer
import Verif.Session.Act

/-!
# Model of symbolization requests with caches (`src/symbolize/symbolizer.rs`)

The same functions as in `Verif.Symbolize.Symbolizer`, but what they get from outside is obtained by
computations that change a state: the caches.
-/

set_option autoImplicit false

namespace Blazesym.Symbolize
open Blazesym.Util Blazesym.Maps Blazesym.Normalize Blazesym.Cache

variable {S : Type}

/-- A resolver whose lookups change the state. -/
abbrev ActFn (S : Type) := Nat → FindSymOpts → Act S (Except Reason ResolvedSym)

/-- The symbolizer's settings and what it does to get resolvers and mappings. -/
structure Host (S : Type) where
  opts : FindSymOpts
  demangle : Bool
  demangler : Demangler
  /-- `apk_resolver`, by actual path, represented path, offset and whether to use debug information. -/
  apk : Bytes → Bytes → Nat → Bool → Act S (Option (SymFn × Nat))
  breakpad : Bytes → Act S SymFn
  /-- `elf_resolver`, by actual path, represented path and whether to use debug information. -/
  elf : Bytes → Bytes → Bool → Act S Resolver
  /-- `create_kernel_resolver`; symbolization with a kernel resolver uses caches itself. -/
  kernel : KernelSource → Act S (ActFn S)
  gsymData : Bytes → Except Err SymFn
  gsymFile : Bytes → Act S SymFn
  /-- `perf_map_resolver`. -/
  perfMap : Nat → Act S (Option SymFn)
  /-- `vdso_parser`, by process and mapping. -/
  vdso : Nat → Nat → Nat → Act S Resolver
  /-- The (relevant) mappings of a process, cached or read. -/
  maps : Nat → Act S (List (Except Err Entry))
  /-- `process_dispatch_resolver`, by mapping and name. -/
  dispatch : Nat → Nat → PathName → Act S (Option Resolver)

/-- `src/symbolize/symbolizer.rs:804-810` (`symbolize_with_resolver` of a symbolizer). -/
def Host.symbolizeWith (h : Host S) (addr : Nat) (resolver : SymFn) : Except Err Symbolized :=
  symbolizeWithResolver h.demangler h.demangle h.opts addr resolver

/-- The same with a resolver that uses caches. -/
def Host.symbolizeAct (h : Host S) (addr : Nat) (resolver : ActFn S) : Act S Symbolized :=
  (resolver addr h.opts).bind fun r => .lift (h.symbolizeWith addr fun _ _ => .ok r)

/-- `src/symbolize/symbolizer.rs:552-561`, `583-592`, `611-620`, `1255-1261`. -/
def Host.symbolizeOffset (h : Host S) (resolver : Resolver) (off : Nat) : Except Err Symbolized :=
  match resolver.toVirt off with
  | .error e => .error e
  | .ok (some addr) => h.symbolizeWith addr resolver.find
  | .ok none => .ok (.unknown .invalidFileOffset)

/-- `src/symbolize/symbolizer.rs:515-536` and `1181-1187`. -/
def Host.symbolizeApk (h : Host S) (actual represented : Bytes) (off : Nat) (debugSyms : Bool) :
    Act S Symbolized :=
  (h.apk actual represented off debugSyms).bind fun found =>
    match found with
    | some (resolver, addr) => .lift (h.symbolizeWith addr resolver)
    | none => .lift (.ok (.unknown .invalidFileOffset))

/-- `src/symbolize/symbolizer.rs:564-574` (`handle_perf_map_addr`). -/
def Host.handlePerfMapAddr (h : Host S) (src : ProcessSource) (addr : Nat) : Act S Symbolized :=
  (h.perfMap src.pid).bind fun found =>
    match found with
    | some perfMap => .lift (h.symbolizeWith addr perfMap)
    | none => .lift (.ok (.unknown .unknownAddr))

/-- `src/symbolize/symbolizer.rs:629-663`: the handling of an entry by default. -/
def Host.handleDefault (h : Host S) (src : ProcessSource) (addr fileOff : Nat) (entry : Entry) :
    Act S Symbolized :=
  match entry.pathName with
  | some (.path p) =>
    let actual := if src.mapFiles then p.mapsFile else p.symbolicPath
    let ext := (extension p.symbolicPath).getD []
    if ext = ascii "apk" ∨ ext = ascii "zip" then h.symbolizeApk actual p.symbolicPath fileOff src.debugSyms
    else
      (h.elf actual p.symbolicPath src.debugSyms).bind fun resolver => .lift (h.symbolizeOffset resolver fileOff)
  | some (.component c) =>
    if src.vdso ∧ c = ascii "[vdso]" then
      (h.vdso src.pid entry.start entry.stop).bind fun parser => .lift (h.symbolizeOffset parser fileOff)
    else .lift (.ok (.unknown .unsupported))
  | none => if src.perfMap then h.handlePerfMapAddr src addr else .lift (.ok (.unknown .unknownAddr))

/-- `src/symbolize/symbolizer.rs:603-664` (`handle_entry_addr`): the symbol it adds. -/
def Host.handleEntryAddr (h : Host S) (src : ProcessSource) (addr : Nat) (entry : Entry) : Act S Symbolized :=
  match addU64 (addr - entry.start) entry.offset with
  | .error e => .lift (.error e)
  | .ok fileOff =>
    match entry.pathName with
    | none => h.handleDefault src addr fileOff entry
    | some name =>
      (h.dispatch entry.start entry.stop name).bind fun found =>
        match found with
        | none => h.handleDefault src addr fileOff entry
        | some resolver => .lift (h.symbolizeOffset resolver fileOff)

/-- `src/normalize/user.rs:326-358` for symbolization: the loop over the addresses. -/
def Host.walkLoop (h : Host S) (src : ProcessSource) :
    List Nat → Nat → Entry → Normalize.Source → List Symbolized → Act S (List Symbolized)
  | [], _, _, _, out => .lift (.ok out)
  | addr :: rest, prev, entry, items, out =>
    if addr < prev then .lift (.error .invalidInput)
    else
      match skip addr items.fuel entry items with
      | .diverged => .lift (.error .panic)
      | .failed e => .lift (.error e)
      | .exhausted entry items => h.walkLoop src rest addr entry items (out ++ [.unknown .unmapped])
      | .entry entry items =>
        if addr < entry.start then h.walkLoop src rest addr entry items (out ++ [.unknown .unmapped])
        else (h.handleEntryAddr src addr entry).bind fun sym => h.walkLoop src rest addr entry items (out ++ [sym])

/-- `src/normalize/user.rs:304-361` (`normalize_sorted_user_addrs_with_entries`) for symbolization. -/
def Host.walk (h : Host S) (src : ProcessSource) (addrs : List Nat) (items : Normalize.Source) :
    Act S (List Symbolized) :=
  let prev := addrs.head?.getD 0
  match items.next prev with
  | (none, _) => .lift (.error .unexpectedEof)
  | (some (.error e), _) => .lift (.error e)
  | (some (.ok entry), items) => h.walkLoop src addrs prev entry items []

/-- The end of `src/util.rs:254-274` (`with_ordered_elems`): the symbols in the order of the input. -/
def inOrder (addrs : List Nat) (outs : List Symbolized) : Except Err (List Symbolized) :=
  match reorder (addrs.length + 1) outs (sortWithIdx addrs) with
  | .done outs => .ok outs
  | .panicked => .error .panic
  | .diverged => .error .panic

/-- `src/symbolize/symbolizer.rs:978-1025` (`symbolize_user_addrs`). -/
def Host.symbolizeUserAddrs (h : Host S) (src : ProcessSource) (addrs : List Nat) : Act S (List Symbolized) :=
  (h.maps src.pid).bind fun items =>
    (h.walk src ((sortWithIdx addrs).map Prod.fst) (.list items)).bind fun outs => .lift (inOrder addrs outs)

/-- `src/symbolize/symbolizer.rs:1146-1392` (`symbolize_impl`) with the collection of its items. -/
def Host.symbolizeImpl (h : Host S) (src : Source) (input : Input (List Nat))
    (fold : Err → Except Err Symbolized) : Act S (List Symbolized) :=
  match src with
  | .apk path debugSyms =>
    match input with
    | .virtOffset _ => .lift (.error .unsupported)
    | .absAddr _ => .lift (.error .unsupported)
    | .fileOffset addrs =>
      .traverse (fun off => (h.symbolizeApk path path off debugSyms).mapResult (orElse fold)) addrs
  | .breakpad path =>
    match input with
    | .virtOffset _ => .lift (.error .unsupported)
    | .absAddr _ => .lift (.error .unsupported)
    | .fileOffset addrs =>
      (h.breakpad path).bind fun resolver =>
        .traverse (fun addr => .lift (orElse fold (h.symbolizeWith addr resolver))) addrs
  | .elf path debugSyms =>
    (h.elf path path debugSyms).bind fun resolver =>
      match input with
      | .virtOffset addrs => .traverse (fun addr => .lift (orElse fold (h.symbolizeWith addr resolver.find))) addrs
      | .absAddr _ => .lift (.error .unsupported)
      | .fileOffset addrs => .traverse (fun off => .lift (orElse fold (h.symbolizeOffset resolver off))) addrs
  | .kernel kernel =>
    match input with
    | .absAddr addrs =>
      (h.kernel kernel).bind fun resolver =>
        .traverse (fun addr => (h.symbolizeAct addr resolver).mapResult (orElse fold)) addrs
    | .virtOffset _ => .lift (.error .unsupported)
    | .fileOffset _ => .lift (.error .unsupported)
  | .process process =>
    match input with
    | .absAddr addrs =>
      (h.symbolizeUserAddrs process addrs).bind fun syms =>
        .traverse (fun s => .lift (orElse fold (.ok s))) syms
    | .virtOffset _ => .lift (.error .unsupported)
    | .fileOffset _ => .lift (.error .unsupported)
  | .gsymData data =>
    match input with
    | .virtOffset addrs =>
      (Act.lift (h.gsymData data)).bind fun resolver =>
        .traverse (fun addr => .lift (orElse fold (h.symbolizeWith addr resolver))) addrs
    | .absAddr _ => .lift (.error .unsupported)
    | .fileOffset _ => .lift (.error .unsupported)
  | .gsymFile path =>
    match input with
    | .virtOffset addrs =>
      (h.gsymFile path).bind fun resolver =>
        .traverse (fun addr => .lift (orElse fold (h.symbolizeWith addr resolver))) addrs
    | .absAddr _ => .lift (.error .unsupported)
    | .fileOffset _ => .lift (.error .unsupported)

/-- `src/symbolize/symbolizer.rs:1437-1446` (`symbolize`). -/
def Host.symbolize (h : Host S) (src : Source) (input : Input (List Nat)) : Act S (List Symbolized) :=
  h.symbolizeImpl src input (fun _ => .ok (.unknown .ignoredError))

/-- `src/symbolize/symbolizer.rs:1461-1469` (`symbolize_single`).  Collecting into a `Single`
(`:684-712`) takes the one item and panics if there is another number of them. -/
def Host.symbolizeSingle (h : Host S) (src : Source) (input : Input Nat) : Act S Symbolized :=
  (h.symbolizeImpl src (input.map fun addr => [addr]) (fun e => .error e)).mapResult fun r =>
    match r with
    | .error e => .error e
    | .ok [s] => .ok s
    | .ok _ => .error .panic

end Blazesym.Symbolize
