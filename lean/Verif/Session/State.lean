import Verif.Session.Symbolize
import Verif.Session.Inspector
import Verif.Zip.ApkCache
import Verif.PerfMap.PerfMap
import Verif.Gsym.Resolver
import Verif.Kernel.System

/-!
# Model of the symbolizer with its caches (`src/symbolize/symbolizer.rs`)

With all features enabled, on Linux.  A call takes place in a world that does not change meanwhile.
A process is a number, 0 being the program itself (`Pid::Slf`).  What is kept about the kernel is an
arbitrary type `K`, see `Verif.Session.Kernel`.
-/

set_option autoImplicit false

namespace Blazesym.Symbolize
open Blazesym.Util Blazesym.Maps Blazesym.Normalize Blazesym.Cache Blazesym.Dwarf

/-- The world at the moment of a call. -/
structure World (M : Type) extends Inspect.World M where
  /-- What reading `/proc/<pid>/maps` (`/proc/self/maps`) yields. -/
  procMaps : Nat → Except Err Bytes
  /-- `process::id()`. -/
  ownPid : Nat
  /-- The memory of the program, by start and length. -/
  memory : Nat → Nat → Bytes
  /-- Where GSYM data that is passed as bytes is in memory. -/
  gsymAddr : Nat
  /-- What the system says about its kernel. -/
  sys : Kernel.System

/-- `src/symbolize/symbolizer.rs:304-330` (`Builder`), and what other libraries do. The dispatchers are
functions: what they return depends on their arguments only. -/
structure Settings (M K : Type) where
  tools : Tools
  demangler : Demangler
  autoReload : Bool
  codeInfo : Bool
  inlinedFns : Bool
  demangle : Bool
  debugDirs : List Bytes
  /-- By path of the archive, place, path and data of the member. -/
  apkDispatch : Option (Bytes → Nat → Bytes → Bytes → Except Err (Option Resolver))
  /-- By mapping and name. -/
  processDispatch : Option (Nat → Nat → PathName → Except Err (Option Resolver))
  /-- `create_kernel_resolver`. -/
  kernel : World M → KernelSource → Act K (ActFn K)
  /-- A new kernel cache. -/
  kernelNew : K

/-- `src/symbolize/symbolizer.rs:435-446`. -/
def findSymOpts (codeInfo inlinedFns : Bool) : FindSymOpts :=
  match codeInfo, inlinedFns with
  | false, _ => .basic
  | true, false => .codeInfo
  | true, true => .codeInfoAndInlined

/-- `src/symbolize/symbolizer.rs:745-771` (`Symbolizer`), without the settings. -/
structure State (M K : Type) where
  apk : FileCache Bytes M (Except Err Bytes) (Bytes × Zip.MemberCache Resolver)
  breakpad : FileCache Bytes M (Except Err Bytes) Breakpad.SymbolFile
  elf : ElfCache Bytes M (Except Err Bytes) ElfParser DebugData
  gsym : FileCache Bytes M (Except Err Bytes) Gsym.Context
  perfMap : FileCache Bytes M (Except Err Bytes) (List PerfMap.Function)
  vmas : Nat → Option (List Maps.Entry)
  process : InsertMap PathName (Option Resolver)
  kernel : K
  vdso : Option ElfParser

variable {M K : Type} [DecidableEq M]

/-- `src/symbolize/symbolizer.rs:448-471` (`Builder::build`). -/
def State.new (cfg : Settings M K) : State M K where
  apk := FileCache.new cfg.autoReload
  breakpad := FileCache.new cfg.autoReload
  elf := FileCache.new cfg.autoReload
  gsym := FileCache.new cfg.autoReload
  perfMap := FileCache.new cfg.autoReload
  vmas := fun _ => none
  process := InsertMap.empty
  kernel := cfg.kernelNew
  vdso := none

/-- A computation on one of the caches. -/
def on {S T α : Type} (get : S → T) (set : S → T → S) (f : T → Except Err α × T) : Act S α :=
  Act.zoom get set f

/-! ### Files -/

/-- `src/gsym/resolver.rs:69-87` (`from_file`). A mapping starts at a page boundary. -/
def gsymParse (file : Except Err Bytes) : Except Err Gsym.Context :=
  match file with
  | .error e => .error e
  | .ok data => Gsym.parseHeader ⟨4096, data⟩

/-- `src/perf_map.rs:138-154` (`from_file`). -/
def perfMapParse (file : Except Err Bytes) : Except Err (List PerfMap.Function) :=
  match file with
  | .error e => .error e
  | .ok data => PerfMap.parsePerfMap data

/-- `src/symbolize/symbolizer.rs:893-901`: the archive, without resolvers for its members. -/
def apkParse (file : Except Err Bytes) : Except Err (Bytes × Zip.MemberCache Resolver) :=
  match file with
  | .error e => .error e
  | .ok data =>
    match Zip.findCd (Mmap.map data).deref with
    | .error e => .error e
    | .ok _ => .ok (data, InsertMap.empty)

/-- An `ElfResolver` as a resolver. -/
def elfAsResolver (t : Tools) (r : ElfResolver) : Resolver := ⟨r.findSym t, r.toVirt t⟩

/-- `src/symbolize/symbolizer.rs:265-283` (`default_apk_dispatcher`); `place` is where in the archive
the member's data is.  The mapping of the archive starts at a page boundary. No cache is used. -/
def defaultApkDispatcher (cfg : Settings M K) (w : World M) (represented : Bytes) (debugSyms : Bool)
    (place : Nat) (member data : Bytes) : Except Err Resolver :=
  let parser : ElfParser := ⟨some (Zip.createApkElfPath represented member), .mem (4096 + place) data⟩
  if debugSyms then
    match (fromParser cfg.tools w.files cfg.debugDirs parser).eval (openParser w.disk) with
    | .error e => .error e
    | .ok d => .ok (elfAsResolver cfg.tools (.dwarf parser d))
  else .ok (elfAsResolver cfg.tools (.elf parser))

/-- `src/symbolize/symbolizer.rs:854-871`: the resolver for a member of an archive. -/
def memberResolver (cfg : Settings M K) (w : World M) (actual represented : Bytes) (debugSyms : Bool)
    (place : Nat) (member data : Bytes) : Except Err Resolver :=
  match cfg.apkDispatch with
  | none => defaultApkDispatcher cfg w represented debugSyms place member data
  | some dispatch =>
    match dispatch actual place member data with
    | .error e => .error e
    | .ok (some r) => .ok r
    | .ok none => defaultApkDispatcher cfg w represented debugSyms place member data

/-- The resolver of a member and the address, as they are used. -/
def asFound (found : Option (Resolver × Nat)) : Option (SymFn × Nat) := found.map fun x => (x.1.find, x.2)

/-- The cell of an entry with new contents. -/
def setCell {T : Type} (s : FileCache Bytes M (Except Err Bytes) T) (m : M) (v : T) :
    FileCache Bytes M (Except Err Bytes) T :=
  { s with entries := s.entries.update m (fun e => { e with value := some v }) }

/-- `get_or_try_init_` on a cell: what it yields. -/
def cellOr {T : Type} (cell : Option T) (init : Except Err T) : Except Err T :=
  match cell with
  | some v => .ok v
  | none => init

/-- `src/symbolize/symbolizer.rs:884-905` (`apk_resolver`). -/
def apkResolverOn (cfg : Settings M K) (w : World M) (actual represented : Bytes) (off : Nat) (debugSyms : Bool)
    (s : FileCache Bytes M (Except Err Bytes) (Bytes × Zip.MemberCache Resolver)) :
    Except Err (Option (SymFn × Nat)) × FileCache Bytes M (Except Err Bytes) (Bytes × Zip.MemberCache Resolver) :=
  match s.entry actual (w.disk.stat actual) (w.disk.opened actual) with
  | (.error e, s) => (.error e, s)
  | (.ok (m, e), s) =>
    match cellOr e.value (apkParse e.file) with
    | .error err => (.error err, s)
    | .ok (data, members) =>
      match Zip.cachedApkResolver data (memberResolver cfg w actual represented) Resolver.toVirt members off
          debugSyms with
      | (.error err, members) => (.error err, setCell s m (data, members))
      | (.ok found, members) => (.ok (asFound found), setCell s m (data, members))

/-- `src/symbolize/symbolizer.rs:538-549`, `1227-1229` (`elf_resolver` with `maybe_debug_dirs`). -/
def elfResolverOn (cfg : Settings M K) (w : World M) (actual represented : Bytes) (debugSyms : Bool)
    (s : ElfCache Bytes M (Except Err Bytes) ElfParser DebugData) :
    Except Err Resolver × ElfCache Bytes M (Except Err Bytes) ElfParser DebugData :=
  if debugSyms then
    match s.dwarfOn w.disk elfParse (fromParser cfg.tools w.files cfg.debugDirs) actual represented with
    | (.error e, s) => (.error e, s)
    | (.ok (p, d), s) => (.ok (elfAsResolver cfg.tools (.dwarf p d)), s)
  else
    match s.plainOn w.disk elfParse actual represented with
    | (.error e, s) => (.error e, s)
    | (.ok p, s) => (.ok (elfAsResolver cfg.tools (.elf p)), s)

/-- `src/symbolize/symbolizer.rs:914-919` (`breakpad_resolver`). -/
def breakpadOn (w : World M) (path : Bytes) (s : FileCache Bytes M (Except Err Bytes) Breakpad.SymbolFile) :
    Except Err SymFn × FileCache Bytes M (Except Err Bytes) Breakpad.SymbolFile :=
  match s.resolve w.disk path Inspect.breakpadParse with
  | (.error e, s) => (.error e, s)
  | (.ok file, s) => (.ok file.findSym, s)

/-- `src/symbolize/symbolizer.rs:818-823` (`gsym_resolver`). -/
def gsymOn (w : World M) (path : Bytes) (s : FileCache Bytes M (Except Err Bytes) Gsym.Context) :
    Except Err SymFn × FileCache Bytes M (Except Err Bytes) Gsym.Context :=
  match s.resolve w.disk path gsymParse with
  | (.error e, s) => (.error e, s)
  | (.ok ctx, s) => (.ok (Gsym.findSym ctx), s)

/-- `src/pid.rs:21-26` (`resolve`). -/
def resolvePid (w : World M) (pid : Nat) : Nat := if pid = 0 then w.ownPid else pid

/-- `src/symbolize/symbolizer.rs:926-940` (`perf_map_resolver`). -/
def perfMapOn (w : World M) (pid : Nat) (s : FileCache Bytes M (Except Err Bytes) (List PerfMap.Function)) :
    Except Err (Option SymFn) × FileCache Bytes M (Except Err Bytes) (List PerfMap.Function) :=
  match s.resolveOptional w.disk (PerfMap.path (resolvePid w pid)) perfMapParse with
  | (.error e, s) => (.error e, s)
  | (.ok none, s) => (.ok none, s)
  | (.ok (some functions), s) => (.ok (some (PerfMap.findSym functions)), s)

/-! ### Processes -/

/-- `src/maps.rs:407-410` (`parse_filtered`): opening the file may fail; after that there are items.
(That reading fails later on is not modelled.) -/
def World.maps (w : World M) (pid : Nat) : Except Err (List (Except Err Maps.Entry)) :=
  match w.procMaps pid with
  | .error e => .error e
  | .ok text => .ok (parseFiltered text pid)

/-- `src/symbolize/symbolizer.rs:1001-1021`: the mappings of a process, cached or read. -/
def mapsOf (w : World M) (vmas : Nat → Option (List Maps.Entry)) (pid : Nat) :
    Except Err (List (Except Err Maps.Entry)) :=
  match vmas pid with
  | some cached => .ok (cached.map .ok)
  | none => w.maps pid

/-- `src/vdso.rs:22-32` (`find_vdso_maps`): the loop. -/
def firstVdso : List (Except Err Maps.Entry) → Except Err (Option (Nat × Nat))
  | [] => .ok none
  | .error e :: _ => .error e
  | .ok entry :: rest =>
    if entry.pathName = some (.component (ascii "[vdso]")) then .ok (some (entry.start, entry.stop))
    else firstVdso rest

/-- `src/vdso.rs:22-32` (`find_vdso_maps`). -/
def findVdsoMaps (w : World M) (pid : Nat) : Except Err (Option (Nat × Nat)) :=
  match w.maps pid with
  | .error e => .error e
  | .ok items => firstVdso items

/-- `src/vdso.rs:59-70`: a parser for what is in a range of the program's memory. -/
def vdsoParser (w : World M) (start stop : Nat) : ElfParser :=
  ⟨some (ascii "[vdso]"), .mem start (w.memory start (stop - start))⟩

/-- `src/vdso.rs:47-75` (`create_vdso_parser`). -/
def createVdsoParser (w : World M) (pid start stop : Nat) : Except Err ElfParser :=
  if pid = 0 then .ok (vdsoParser w start stop)
  else
    match findVdsoMaps w 0 with
    | .error e => .error e
    | .ok none => .error .notFound
    | .ok (some (start, stop)) => .ok (vdsoParser w start stop)

/-- `src/symbolize/symbolizer.rs:942-952` (`vdso_parser`). -/
def vdsoOn (cfg : Settings M K) (w : World M) (pid start stop : Nat) (cell : Option ElfParser) :
    Except Err Resolver × Option ElfParser :=
  match cell with
  | some parser => (.ok (elfAsResolver cfg.tools (.elf parser)), cell)
  | none =>
    match createVdsoParser w pid start stop with
    | .error e => (.error e, none)
    | .ok parser => (.ok (elfAsResolver cfg.tools (.elf parser)), some parser)

/-- `src/symbolize/symbolizer.rs:954-974` (`process_dispatch_resolver`). -/
def dispatchOn (cfg : Settings M K) (start stop : Nat) (name : PathName)
    (cache : InsertMap PathName (Option Resolver)) :
    Except Err (Option Resolver) × InsertMap PathName (Option Resolver) :=
  match cfg.processDispatch with
  | none => (.ok none, cache)
  | some dispatch => cache.getOrTryInsert name (fun _ => dispatch start stop name)

/-! ### The symbolizer -/

/-- What the symbolizer gets its resolvers from. -/
def host (cfg : Settings M K) (w : World M) : Host (State M K) where
  opts := findSymOpts cfg.codeInfo cfg.inlinedFns
  demangle := cfg.demangle
  demangler := cfg.demangler
  apk := fun actual represented off debugSyms =>
    on State.apk (fun s apk => { s with apk }) (apkResolverOn cfg w actual represented off debugSyms)
  breakpad := fun path => on State.breakpad (fun s breakpad => { s with breakpad }) (breakpadOn w path)
  elf := fun actual represented debugSyms =>
    on State.elf (fun s elf => { s with elf }) (elfResolverOn cfg w actual represented debugSyms)
  kernel := fun src =>
    (on State.kernel (fun s kernel => { s with kernel }) (cfg.kernel w src)).bind fun f =>
      .lift (.ok fun addr opts => on State.kernel (fun s kernel => { s with kernel }) (f addr opts))
  gsymData := fun data =>
    match Gsym.parseHeader ⟨w.gsymAddr, data⟩ with
    | .error e => .error e
    | .ok ctx => .ok (Gsym.findSym ctx)
  gsymFile := fun path => on State.gsym (fun s gsym => { s with gsym }) (gsymOn w path)
  perfMap := fun pid => on State.perfMap (fun s perfMap => { s with perfMap }) (perfMapOn w pid)
  vdso := fun pid start stop => on State.vdso (fun s vdso => { s with vdso }) (vdsoOn cfg w pid start stop)
  maps := fun pid s => (mapsOf w s.vmas pid, s)
  dispatch := fun start stop name =>
    on State.process (fun s process => { s with process }) (dispatchOn cfg start stop name)

/-- `src/symbolize/symbolizer.rs:1437-1446` (`symbolize`). -/
def State.symbolize (cfg : Settings M K) (w : World M) (s : State M K) (src : Source) (input : Input (List Nat)) :
    Except Err (List Symbolized) × State M K := (host cfg w).symbolize src input s

/-- `src/symbolize/symbolizer.rs:1461-1469` (`symbolize_single`). -/
def State.symbolizeSingle (cfg : Settings M K) (w : World M) (s : State M K) (src : Source) (input : Input Nat) :
    Except Err Symbolized × State M K := (host cfg w).symbolizeSingle src input s

/-- `src/symbolize/cache.rs:14-113` (`Cache`). -/
inductive CacheReq where
  | elf (path : Bytes)
  | process (pid : Nat) (cacheVmas : Bool)

/-- `src/symbolize/evict.rs:13-106` (`Evict`). -/
inductive EvictReq where
  | elf (path : Bytes)
  | process (pid : Nat)

/-- `src/symbolize/symbolizer.rs:1069-1100` (`cache`).  `ElfResolver::cache` (`src/elf/resolver.rs:
229-233`) fills caches in the parser, and fails like the lookups that do so; it is given by `fill`. -/
def State.cache (w : World M) (fill : ElfParser → Except Err _root_.Unit) (s : State M K) (req : CacheReq) :
    Except Err _root_.Unit × State M K :=
  match req with
  | .elf path =>
    match s.elf.cacheElf path (w.disk.stat path) (w.disk.opened path) (elfParse path) fill with
    | (r, elf) => (r, { s with elf })
  | .process pid cacheVmas =>
    let parsed := match w.maps pid with
      | .error e => .error e
      | .ok items => collect items
    match cacheProcess s.vmas pid cacheVmas parsed with
    | (r, vmas) => (r, { s with vmas })

/-- The condition of `src/symbolize/symbolizer.rs:1126-1133`, negated. -/
def namesPath (path : Bytes) : PathName → Bool
  | .path p => p.mapsFile = path || p.symbolicPath = path
  | .component _ => false

/-- `src/symbolize/symbolizer.rs:1119-1144` (`evict`).  The result of `FileCache::evict` is ignored; a
panic in it is an error here. -/
def State.evict (w : World M) (s : State M K) (req : EvictReq) : Except Err _root_.Unit × State M K :=
  match req with
  | .elf path =>
    match s.elf.evict path with
    | (.error e, elf) => (.error e, { s with elf })
    | (.ok _, elf) => (.ok (), { s with elf, process := s.process.retain (fun name _ => !namesPath path name) })
  | .process pid =>
    match s.perfMap.evict (PerfMap.path (resolvePid w pid)) with
    | (.error e, perfMap) => (.error e, { s with vmas := evictProcess s.vmas pid, perfMap })
    | (.ok _, perfMap) => (.ok (), { s with vmas := evictProcess s.vmas pid, perfMap })

/-- `src/elf/resolver.rs:50-63` (`From<Rc<ElfResolver>> for ElfResolverData`). -/
def elfData : ElfResolver → ElfData ElfParser DebugData
  | .elf p => ⟨some p, none⟩
  | .dwarf p d => ⟨none, some (p, d)⟩

/-- `src/elf/resolver.rs:134-153` (`register`). -/
def registerOn (w : World M) (path : Bytes) (resolver : ElfResolver)
    (s : ElfCache Bytes M (Except Err Bytes) ElfParser DebugData) :
    Except Err _root_.Unit × ElfCache Bytes M (Except Err Bytes) ElfParser DebugData :=
  match s.entry path (w.disk.stat path) (w.disk.opened path) with
  | (.error e, s) => (.error e, s)
  | (.ok (m, e), s) =>
    match e.value with
    | some _ => (.error .alreadyExists, s)
    | none => (.ok (), ElfCache.setValue s m (elfData resolver))

/-- `src/symbolize/symbolizer.rs:794-800` (`register_elf_resolver`). -/
def State.register (w : World M) (s : State M K) (path : Bytes) (resolver : ElfResolver) :
    Except Err _root_.Unit × State M K :=
  match registerOn w path resolver s.elf with
  | (r, elf) => (r, { s with elf })

end Blazesym.Symbolize
