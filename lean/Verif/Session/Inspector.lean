import Verif.Dwarf.Open
import Verif.Breakpad.Resolver

/-!
# Model of the inspector (`src/inspect/inspector.rs`)

With all features enabled.  A call takes place in a world: the files that are there and the debug
files that the search for them sees.  Iteration hands symbols to a callback that maps a state to a new
one and says whether to stop.
-/

set_option autoImplicit false

namespace Blazesym.Inspect
open Blazesym.Util Blazesym.Cache Blazesym.Dwarf

/-- The world at the moment of a call. An opened file is what mapping it yields. -/
structure World (M : Type) where
  disk : Disk Bytes M (Except Err Bytes)
  files : Files

/-- `src/inspect/source.rs:14-111` (`Breakpad`, `Elf`, `Source`). -/
inductive Source where
  | breakpad (path : Bytes)
  | elf (path : Bytes) (debugSyms : Bool)

/-- `src/inspect/inspector.rs:42-46` (`Inspector`). -/
structure Inspector (M : Type) where
  breakpad : FileCache Bytes M (Except Err Bytes) Breakpad.SymbolFile
  elf : ElfCache Bytes M (Except Err Bytes) ElfParser DebugData

/-- `src/inspect/inspector.rs:50-57` (`new`). -/
def Inspector.new {M : Type} : Inspector M := ⟨FileCache.new true, FileCache.new true⟩

/-- `src/elf/mod.rs:13` (`DEFAULT_DEBUG_DIRS`). -/
def defaultDebugDirs : List Bytes := [ascii "/usr/lib/debug", ascii "/lib/debug/"]

/-- `src/breakpad/resolver.rs:73-94` (`from_file`). -/
def breakpadParse (file : Except Err Bytes) : Except Err Breakpad.SymbolFile :=
  match file with
  | .error e => .error e
  | .ok data => Breakpad.fromBytes data

variable {M : Type} [DecidableEq M]

/-- `src/inspect/inspector.rs:59-70` (`breakpad_resolver`). -/
def Inspector.breakpadResolver (s : Inspector M) (w : World M) (path : Bytes) :
    Except Err Breakpad.SymbolFile × Inspector M :=
  match s.breakpad.resolve w.disk path breakpadParse with
  | (r, breakpad) => (r, { s with breakpad })

/-- `src/inspect/inspector.rs:117-128`, `199-210`. -/
def Inspector.elfResolver (t : Tools) (s : Inspector M) (w : World M) (path : Bytes) (debugSyms : Bool) :
    Except Err ElfResolver × Inspector M :=
  if debugSyms then
    match s.elf.dwarfOn w.disk elfParse (fromParser t w.files defaultDebugDirs) path path with
    | (.error e, elf) => (.error e, { s with elf })
    | (.ok (p, d), elf) => (.ok (.dwarf p d), { s with elf })
  else
    match s.elf.plainOn w.disk elfParse path path with
    | (.error e, elf) => (.error e, { s with elf })
    | (.ok p, elf) => (.ok (.elf p), { s with elf })

/-- `names.iter().map(..).collect::<Result<Vec<_>>>()`. -/
def lookupNames (find : Bytes → Except Err (List CApi.SymInfo)) :
    List Bytes → Except Err (List (List CApi.SymInfo))
  | [] => .ok []
  | name :: names =>
    match find name with
    | .error e => .error e
    | .ok syms =>
      match lookupNames find names with
      | .error e => .error e
      | .ok rest => .ok (syms :: rest)

/-- `src/breakpad/resolver.rs:224-238` (`find_addr`); no module is reported (`:47`). -/
def breakpadFindAddr (file : Breakpad.SymbolFile) (name : Bytes) (opts : Elf.FindAddrOpts) :
    Except Err (List CApi.SymInfo) :=
  match file.lookupName name opts.symType with
  | .error e => .error e
  | .ok infos => .ok (infos.map (withModule none))

/-- `src/inspect/inspector.rs:92-147` (`lookup`). -/
def Inspector.lookup (t : Tools) (s : Inspector M) (w : World M) (src : Source) (names : List Bytes) :
    Except Err (List (List CApi.SymInfo)) × Inspector M :=
  match src with
  | .breakpad path =>
    match s.breakpadResolver w path with
    | (.error e, s) => (.error e, s)
    | (.ok file, s) =>
      (lookupNames (fun name => breakpadFindAddr file name ⟨true, .undefined⟩) names, s)
  | .elf path debugSyms =>
    match s.elfResolver t w path debugSyms with
    | (.error e, s) => (.error e, s)
    | (.ok resolver, s) =>
      (lookupNames (fun name => resolver.findAddr t name ⟨true, .undefined⟩) names, s)

/-- `src/inspect/inspector.rs:170-219` (`for_each`). -/
def Inspector.forEach {S : Type} (t : Tools) (s : Inspector M) (w : World M) (src : Source)
    (f : S → CApi.SymInfo → S × Bool) (a : S) : (Except Err _root_.Unit × S) × Inspector M :=
  match src with
  | .breakpad path =>
    match s.breakpadResolver w path with
    | (.error e, s) => ((.error e, a), s)
    | (.ok file, s) => (file.forEach .undefined (fun a i => f a (withModule none i)) a, s)
  | .elf path debugSyms =>
    match s.elfResolver t w path debugSyms with
    | (.error e, s) => ((.error e, a), s)
    | (.ok resolver, s) => (resolver.forEach t ⟨true, .undefined⟩ f a, s)

end Blazesym.Inspect
