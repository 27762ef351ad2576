import Verif.Session.State
import Verif.Session.Spec
import Verif.Session.LookupSpec
import Verif.Zip.Props

/-!
# Specification of the symbolizer with its caches: answers without any cache

`envAt` is what a request has to work with if every file is opened anew; only which version of a file
counts is a parameter.  With the versions that are on disk, this is a symbolizer without caches.
-/

set_option autoImplicit false

namespace Blazesym.Spec.Symbolize
open Blazesym.Symbolize Blazesym.Util Blazesym.Maps Blazesym.Cache
open Blazesym.Dwarf hiding Resolver

variable {M K : Type}

/-- The version of the file at a path, for every kind of file. -/
structure Versions (M : Type) where
  apk : Bytes → Except Err M
  breakpad : Bytes → Except Err M
  elf : Bytes → Except Err M
  gsym : Bytes → Except Err M
  perfMap : Bytes → Except Err M

/-- The versions that are on disk. -/
def present (w : World M) : Versions M :=
  ⟨w.disk.stat, w.disk.stat, w.disk.stat, w.disk.stat, w.disk.stat⟩

/-- The versions a symbolizer uses: those on disk, except for pinned ones, and those it knows if it
does not reload files. -/
def versions [DecidableEq M] (s : State M K) (w : World M) : Versions M :=
  ⟨effective s.apk w.disk.stat, effective s.breakpad w.disk.stat, effective s.elf w.disk.stat,
    effective s.gsym w.disk.stat, effective s.perfMap w.disk.stat⟩

/-- The file of a version. -/
def fileOf (w : World M) (version : Except Err M) : Except Err (Except Err Bytes) :=
  ofVersion w.disk.contents (fun _ f => .ok f) version

/-- The ELF file at a path, with the name that is reported. -/
def elfAt (w : World M) (version : Bytes → Except Err M) (actual represented : Bytes) : Except Err ElfParser :=
  match fileOf w (version actual) with
  | .error e => .error e
  | .ok f => elfParse represented f

/-- It and its debug information. -/
def debugAt (cfg : Settings M K) (w : World M) (version : Bytes → Except Err M) (actual represented : Bytes) :
    Except Err Resolver :=
  match elfAt w version actual represented with
  | .error e => .error e
  | .ok p =>
    match (fromParser cfg.tools w.files cfg.debugDirs p).eval (fun q => elfAt w version q q) with
    | .error e => .error e
    | .ok d => .ok (elfAsResolver cfg.tools (.dwarf p d))

/-- What a request has to work with, without any cache. -/
def envAt (cfg : Settings M K) (w : World M) (v : Versions M)
    (maps : Nat → Except Err (List (Except Err Maps.Entry))) : Env where
  opts := findSymOpts cfg.codeInfo cfg.inlinedFns
  demangle := cfg.demangle
  demangler := cfg.demangler
  apk := fun actual represented off debugSyms =>
    match fileOf w (v.apk actual) with
    | .error e => .error e
    | .ok (.error e) => .error e
    | .ok (.ok data) =>
      match Zip.createApkResolver data (memberResolver cfg w actual represented debugSyms) Resolver.toVirt off with
      | .error e => .error e
      | .ok found => .ok (asFound found)
  breakpad := fun path =>
    match fileOf w (v.breakpad path) with
    | .error e => .error e
    | .ok (.error e) => .error e
    | .ok (.ok data) =>
      match Breakpad.fromBytes data with
      | .error e => .error e
      | .ok file => .ok file.findSym
  elf := fun actual represented debugSyms =>
    if debugSyms then debugAt cfg w v.elf actual represented
    else
      match elfAt w v.elf actual represented with
      | .error e => .error e
      | .ok p => .ok (elfAsResolver cfg.tools (.elf p))
  kernel := fun _ => .error .unsupported
  gsymData := fun data =>
    match Gsym.parseHeader ⟨w.gsymAddr, data⟩ with
    | .error e => .error e
    | .ok ctx => .ok (Gsym.findSym ctx)
  gsymFile := fun path =>
    match fileOf w (v.gsym path) with
    | .error e => .error e
    | .ok (.error e) => .error e
    | .ok (.ok data) =>
      match Gsym.parseHeader ⟨4096, data⟩ with
      | .error e => .error e
      | .ok ctx => .ok (Gsym.findSym ctx)
  perfMap := fun pid =>
    match fileOf w (v.perfMap (PerfMap.path (resolvePid w pid))) with
    | .error .notFound => .ok none
    | .error e => .error e
    | .ok (.error e) => .error e
    | .ok (.ok data) =>
      match PerfMap.parsePerfMap data with
      | .error e => .error e
      | .ok functions => .ok (some (PerfMap.findSym functions))
  vdso := fun pid start stop =>
    match createVdsoParser w pid start stop with
    | .error e => .error e
    | .ok p => .ok (elfAsResolver cfg.tools (.elf p))
  maps := maps
  dispatch := cfg.processDispatch
  dispatched := []

/-- What a version of a file is and stays: its contents, the name an ELF file is used under, its debug
information, and the resolvers of the members of an archive; and what the vDSO is. -/
structure Known (M : Type) where
  contents : M → Except Err (Except Err Bytes)
  name : M → Bytes
  debug : M → Except Err DebugData
  member : M → Nat → Bytes → Bytes → Except Err Resolver
  vdso : Except Err ElfParser

/-- As a universe of ELF files. -/
def Known.elf (k : Known M) : Universe Bytes M (Except Err Bytes) ElfParser DebugData :=
  ⟨k.contents, k.name, elfParse, k.debug⟩

/-- A lookup finds what is known: an ELF file is used under its name and has its debug information, the
members of an archive have their resolvers, and the vDSO is what it is. -/
def Fits (cfg : Settings M K) (k : Known M) (w : World M) (v : Versions M) : Lookup → Prop
  | .apk actual represented debugSyms => ∀ m data, v.apk actual = .ok m → k.contents m = .ok (.ok data) →
      ∀ before e, Zip.Members data before e →
        memberResolver cfg w actual represented debugSyms e.dataOffset e.path e.data =
          k.member m e.dataOffset e.path e.data
  | .elf actual represented debugSyms => ∀ m, v.elf actual = .ok m → k.name m = represented ∧
      (debugSyms = true → k.elf.Settled (fromParser cfg.tools w.files cfg.debugDirs) v.elf m)
  | .vdso pid start stop => createVdsoParser w pid start stop = k.vdso
  | _ => True

/-- A call. -/
inductive Call where
  | symbolize (src : Source) (input : Input (List Nat))
  | symbolizeSingle (src : Source) (input : Input Nat)
  | cache (fill : ElfParser → Except Err _root_.Unit) (req : CacheReq)
  | evict (req : EvictReq)
  | register (path : Bytes) (resolver : ElfResolver)

/-- What the symbolizer becomes. -/
def after [DecidableEq M] (cfg : Settings M K) (w : World M) (s : State M K) : Call → State M K
  | .symbolize src input => (s.symbolize cfg w src input).2
  | .symbolizeSingle src input => (s.symbolizeSingle cfg w src input).2
  | .cache fill req => (s.cache w fill req).2
  | .evict req => (s.evict w req).2
  | .register path resolver => (s.register w path resolver).2

/-- The symbolizers a program can have: a new one, and what it becomes by calls that satisfy a
condition. Every call is made in a world of its own. -/
inductive Reachable [DecidableEq M] (cfg : Settings M K) (ok : State M K → World M → Call → Prop) :
    State M K → Prop where
  | new : Reachable cfg ok (State.new cfg)
  | call (s : State M K) (w : World M) (c : Call) :
      Reachable cfg ok s → ok s w c → Reachable cfg ok (after cfg w s c)

/-- What a symbolizer becomes by further calls that satisfy a condition. -/
inductive Later [DecidableEq M] (cfg : Settings M K) (ok : State M K → World M → Call → Prop) (s : State M K) :
    State M K → Prop where
  | now : Later cfg ok s s
  | call (s' : State M K) (w : World M) (c : Call) :
      Later cfg ok s s' → ok s' w c → Later cfg ok s (after cfg w s' c)

/-- A call that caches or evicts the ELF file at a path. -/
def Touches (path : Bytes) : Call → Prop
  | .cache _ (.elf p) => p = path
  | .evict (.elf p) => p = path
  | _ => False

/-- A call that caches or evicts the mappings of a process. -/
def TouchesMaps (pid : Nat) : Call → Prop
  | .cache _ (.process p vmas) => p = pid ∧ vmas = true
  | .evict (.process p) => p = pid
  | _ => False

/-- What is looked up depends on the versions of files only: symbols, without debug information. -/
def Plain : Lookup → Prop
  | .breakpad _ | .gsym _ | .perfMap _ | .dispatch _ _ _ => True
  | .elf _ _ debugSyms => debugSyms = false
  | _ => False

/-- The version that is used when a path is cached: pins do not count. -/
def uncached [DecidableEq M] (cfg : Settings M K) (s : State M K) (w : World M) (path : Bytes) : Except Err M :=
  if cfg.autoReload then w.disk.stat path else (versions s w).elf path

/-- A version of a file has the same contents in all worlds (another file at the same path, or one that
was written to, is another version), and all lookups find what is known. -/
def Orderly [DecidableEq M] (cfg : Settings M K) (k : Known M) (s : State M K) (w : World M) (c : Call) : Prop :=
  w.disk.contents = k.contents ∧
  match c with
  | .symbolize src _ | .symbolizeSingle src _ =>
    ∀ l, Uses (mapsOf w s.vmas) src l → Fits cfg k w (versions s w) l
  | .cache _ (.elf path) => ∀ m, uncached cfg s w path = .ok m → k.name m = path
  | .cache _ (.process _ _) => True
  | .evict _ => True
  | .register path resolver => ∀ m f, (versions s w).elf path = .ok m → k.contents m = .ok f →
      elfParse (k.name m) f = .ok resolver.parser ∧ ∀ p d, resolver = .dwarf p d → k.debug m = .ok d

/-- Only that a version of a file has the same contents in all worlds, and that a resolver that is
registered for a file is a resolver of this file. -/
def SameContents [DecidableEq M] (contents : M → Except Err (Except Err Bytes)) (s : State M K) (w : World M)
    (c : Call) : Prop :=
  w.disk.contents = contents ∧
  match c with
  | .register path resolver => ∀ m f, (versions s w).elf path = .ok m → contents m = .ok f →
      ∃ name, elfParse name f = .ok resolver.parser
  | _ => True

/-- Not a request to keep something. -/
def NotCaching : Call → Prop
  | .cache _ _ => False
  | _ => True

/-- What a process dispatcher returns depends on the name only. -/
def DispatchByName (cfg : Settings M K) : Prop :=
  ∀ d, cfg.processDispatch = some d → ∀ start stop start' stop' name, d start stop name = d start' stop' name

end Blazesym.Spec.Symbolize
