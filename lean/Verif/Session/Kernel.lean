import Verif.Session.State

/-!
# Model of the kernel resolver with its caches (`src/kernel/cache.rs`, `src/kernel/resolver.rs`)

The functions of `Verif.Kernel.Resolver` again, but files come from the caches of the symbolizer.  A
kallsyms file is read through a descriptor that stays open, so how far it was read matters.
-/

set_option autoImplicit false

namespace Blazesym.Symbolize
open Blazesym.Util Blazesym.Cache Blazesym.Kernel Blazesym.Kernel.Depmod
open Blazesym.Dwarf hiding Resolver

/-- The cell of a kallsyms file, and the position of its descriptor. -/
structure KsymCell where
  syms : Option (List Ksym)
  position : Nat

/-- `src/kernel/cache.rs:25-38` (`KernelCache`), without the directories for debug files. -/
structure KernelCache (M : Type) where
  elf : ElfCache Bytes M (Except Err Bytes) ElfParser DebugData
  ksym : FileCache Bytes M (Except Err Bytes) KsymCell
  modmap : Option (List Mod)
  /-- The directory and the contents of the index. -/
  depmod : Option (Bytes × Bytes)
  kaslr : Option Nat

/-- `src/kernel/cache.rs:42-51` (`new`). `FileCache::default` reloads files. -/
def KernelCache.new {M : Type} : KernelCache M := ⟨FileCache.new true, FileCache.new true, none, none, none⟩

/-! ### Reading kallsyms -/

/-- How many bytes there are up to the end of the first line that is not UTF-8. -/
def badLine : List Bytes → Option Nat
  | [] => none
  | line :: rest => if isUtf8 line then (badLine rest).map (line.length + ·) else some line.length

/-- `src/kernel/ksym.rs:195-204`: how far a file is read if a line is not UTF-8. A `BufReader` reads 8192
bytes at a time, as a regular file always has that many up to its end. -/
def readUpTo (data : Bytes) : Nat :=
  match badLine (splitLines data) with
  | none => 0
  | some n => min data.length ((n + 8191) / 8192 * 8192)

variable {M K : Type} [DecidableEq M]

/-- `src/kernel/cache.rs:81-91` (`ksym_resolver`). -/
def ksymOn (w : World M) (path : Bytes) (s : FileCache Bytes M (Except Err Bytes) KsymCell) :
    Except Err (List Ksym) × FileCache Bytes M (Except Err Bytes) KsymCell :=
  match s.entry path (w.disk.stat path) (w.disk.opened path) with
  | (.error e, s) => (.error e, s)
  | (.ok (m, e), s) =>
    let cell := e.value.getD ⟨none, 0⟩
    match cell.syms with
    | some syms => (.ok syms, s)
    | none =>
      match e.file with
      | .error err => (.error err, s)
      | .ok data =>
        let rest := data.drop cell.position
        match loadKallsyms true rest with
        | .error err => (.error err, setCell s m ⟨none, cell.position + readUpTo rest⟩)
        | .ok syms => (.ok syms, setCell s m ⟨some syms, data.length⟩)

/-- `src/kernel/cache.rs:64-79` (`elf_resolver`). -/
def kernelElfOn (t : Tools) (dirs : List Bytes) (w : World M) (debugSyms : Bool) (actual represented : Bytes)
    (s : ElfCache Bytes M (Except Err Bytes) ElfParser DebugData) :
    Except Err ElfResolver × ElfCache Bytes M (Except Err Bytes) ElfParser DebugData :=
  if debugSyms then
    match s.dwarfOn w.disk elfParse (fromParser t w.files dirs) actual represented with
    | (.error e, s) => (.error e, s)
    | (.ok (p, d), s) => (.ok (.dwarf p d), s)
  else
    match s.plainOn w.disk elfParse actual represented with
    | (.error e, s) => (.error e, s)
    | (.ok p, s) => (.ok (.elf p), s)

/-- `src/kernel/modmap.rs:38-41` (`new`). -/
def loadModmap (t : Tools) (w : World M) : Except Err (List Mod) :=
  match w.sys.modules with
  | .error e => .error e
  | .ok data => loadModules t.σ data

/-- `src/kernel/depmod.rs:44`: the directory of the modules of a kernel release. -/
def modulesDir (release : Bytes) : Bytes := ascii "/lib/modules/" ++ release

/-- `src/kernel/depmod.rs:38-68` (`with_system_default`, `new`). -/
def loadDepmod (w : World M) : Except Err (Bytes × Bytes) :=
  match w.sys.release with
  | .error e => .error e
  | .ok release =>
    if isUtf8 release then
      match w.disk.opened (pathJoin (modulesDir release) (ascii "modules.dep.bin")) with
      | .error e => .error e
      | .ok (.error e) => .error e
      | .ok (.ok data) =>
        match validate data with
        | .error e => .error e
        | .ok () => .ok (modulesDir release, data)
    else .error .invalidData

/-- Symbol information without the module. -/
def withoutModule (i : CApi.SymInfo) : Elf.SymInfo := ⟨i.name, i.addr, i.size, i.symType, i.fileOffset⟩

/-- `find_addr` of an ELF file with default options (`src/kernel/kaslr.rs:118`). -/
def elfFindAddr (t : Tools) (r : ElfResolver) : FindAddr := fun name =>
  match r.findAddr t name ⟨false, .undefined⟩ with
  | .error e => .error e
  | .ok infos => .ok (infos.map withoutModule)

/-- The same of kallsyms. -/
def kallsymsFindAddr (syms : List Ksym) : FindAddr := fun name =>
  .ok ((ksymFindAddr syms name .undefined).map KsymInfo.info)

/-- `src/kernel/cache.rs:116-120`: the detection of the KASLR offset. -/
def detectKaslr (t : Tools) (w : World M) (ksym : Option (List Ksym)) (vmlinux : Option ElfResolver) :
    Except Err Nat :=
  match findKaslrOffset w.sys.kcore (ksym.map kallsymsFindAddr) (vmlinux.map (elfFindAddr t)) with
  | .error e => .error e
  | .ok r => .ok (r.getD 0)

/-- `get_or_try_init_` on a cell. -/
def initCell {T : Type} (init : Except Err T) (cell : Option T) : Except Err T × Option T :=
  match cellOr cell init with
  | .error e => (.error e, cell)
  | .ok v => (.ok v, some v)

/-! ### The resolver -/

/-- What the kernel resolver gets from outside, by computations that change a state. -/
structure KernelHost (S : Type) where
  ksym : Bytes → Act S (List Ksym)
  /-- By actual and represented path. -/
  elf : Bytes → Bytes → Act S ElfResolver
  kaslr : Option (List Ksym) → Option ElfResolver → Act S Nat
  modmap : Act S (List Mod)
  depmod : Act S (Bytes × Bytes)
  release : Except Err Bytes
  fileExists : Bytes → Bool
  decompress : Compression → Bytes → Except Err Bytes
  ksymFn : List Ksym → SymFn
  elfFn : ElfResolver → SymFn

/-- What it gets from a kernel cache. `Path::exists` is whether there are metadata. -/
def kernelHostOf (t : Tools) (dirs : List Bytes) (w : World M) (debugSyms : Bool) : KernelHost (KernelCache M) where
  ksym := fun path => on KernelCache.ksym (fun s ksym => { s with ksym }) (ksymOn w path)
  elf := fun actual represented =>
    on KernelCache.elf (fun s elf => { s with elf }) (kernelElfOn t dirs w debugSyms actual represented)
  kaslr := fun ksym vmlinux =>
    on KernelCache.kaslr (fun s kaslr => { s with kaslr }) (initCell (detectKaslr t w ksym vmlinux))
  modmap := on KernelCache.modmap (fun s modmap => { s with modmap }) (initCell (loadModmap t w))
  depmod := on KernelCache.depmod (fun s depmod => { s with depmod }) (initCell (loadDepmod w))
  release := w.sys.release
  fileExists := fun path => (w.disk.stat path).toBool
  decompress := w.sys.decompress
  ksymFn := ksymFindSym w.sys.bpfLines
  elfFn := fun r => r.findSym t

variable {S : Type}

/-- `src/kernel/resolver.rs:121-141`. -/
def KernelHost.selectKsym (h : KernelHost S) : MaybeDefault Bytes → Act S (Option (List Ksym))
  | .some path => (h.ksym path).bind fun r => .lift (.ok (some r))
  | .default => (h.ksym (ascii "/proc/kallsyms")).mapResult ignoring
  | .none => .lift (.ok none)

/-- `src/kernel/resolver.rs:143-180`. -/
def KernelHost.selectVmlinux (h : KernelHost S) : MaybeDefault Bytes → Act S (Option ElfResolver)
  | .some path => (h.elf path path).bind fun r => .lift (.ok (some r))
  | .default =>
    match h.release with
    | .error e => .lift (.error e)
    | .ok release =>
      match (vmlinuxPaths release).find? h.fileExists with
      | none => .lift (.ok none)
      | some path => (h.elf path path).mapResult ignoring
  | .none => .lift (.ok none)

/-- `src/kernel/resolver.rs:114-211` (`new`). -/
def KernelHost.create (h : KernelHost S) (kallsyms vmlinux : MaybeDefault Bytes) (kaslr : Option Nat) :
    Act S (KernelParts (List Ksym) ElfResolver) :=
  (h.selectKsym kallsyms).bind fun ksym =>
    (h.selectVmlinux vmlinux).bind fun vmlinux =>
      if ksym.isNone ∧ vmlinux.isNone then .lift (.error .notFound)
      else
        match kaslr with
        | some offset => .lift (.ok ⟨ksym, vmlinux, offset⟩)
        | none =>
          if vmlinux.isSome then (h.kaslr ksym vmlinux).bind fun offset => .lift (.ok ⟨ksym, vmlinux, offset⟩)
          else .lift (.ok ⟨ksym, vmlinux, 0⟩)

/-- `src/kernel/resolver.rs:233-249`: the resolver of a module's file. -/
def KernelHost.moduleResolver (h : KernelHost S) (path : Bytes) : Act S ElfResolver :=
  match compression path with
  | some c =>
    match h.decompress c path with
    | .error e => .lift (.error e)
    | .ok tmp => h.elf tmp (withoutExtension path)
  | none => h.elf path path

/-- `src/kernel/resolver.rs:251-263`: symbolization with the file of a module. -/
def inModuleFile (resolver : SymFn) (base addr : Nat) (opts : FindSymOpts) :
    Except Err (Except Reason ResolvedSym) :=
  if base ≤ addr then
    match resolver (addr - base) opts with
    | .error e => .error e
    | .ok (.ok sym) => .ok (.ok sym)
    | .ok (.error _) => .ok (.error .unknownAddr)
  else .error .invalidInput

/-- `src/kernel/resolver.rs:225-263`: symbolization with a module. -/
def KernelHost.findInModule (h : KernelHost S) (name : Bytes) (base addr : Nat) (opts : FindSymOpts) :
    Act S (Except Reason ResolvedSym) :=
  h.depmod.bind fun depmod =>
    match findPath depmod.1 depmod.2 name with
    | .error e => .lift (.error e)
    | .ok none => .lift (.ok (.error .unknownAddr))
    | .ok (some path) => (h.moduleResolver path).bind fun r => .lift (inModuleFile (h.elfFn r) base addr opts)

/-- `src/kernel/resolver.rs:215-305` (`find_sym`). Symbolization with the core kernel uses no caches. -/
def KernelHost.findSym (h : KernelHost S) (r : KernelParts (List Ksym) ElfResolver) : ActFn S := fun addr opts =>
  match r.vmlinux, r.ksym with
  | some vmlinux, ksym =>
    h.modmap.bind fun mods =>
      match findModule mods addr with
      | .error e => .lift (.error e)
      | .ok (.ok (name, base)) => h.findInModule name base addr opts
      | .ok (.error _) => .lift (findInCore (h.elfFn vmlinux) (ksym.map h.ksymFn) r.kaslr addr opts)
  | none, some k => .lift (h.ksymFn k addr opts)
  | none, none => .lift (.error .panic)

/-- `src/symbolize/symbolizer.rs:1028-1044` (`create_kernel_resolver`), for a symbolizer with these debug
directories. -/
def createKernelResolver (t : Tools) (dirs : List Bytes) (w : World M) (src : KernelSource) :
    Act (KernelCache M) (ActFn (KernelCache M)) :=
  ((kernelHostOf t dirs w src.debugSyms).create src.kallsyms src.vmlinux src.kaslr).bind fun r =>
    .lift (.ok ((kernelHostOf t dirs w src.debugSyms).findSym r))

/-- `src/symbolize/symbolizer.rs:448-471` (`Builder::build`): the kernel cache is a new one, and gets the
directories for debug files. -/
def Standard (cfg : Settings M (KernelCache M)) : Prop :=
  cfg.kernelNew = KernelCache.new ∧ cfg.kernel = createKernelResolver cfg.tools cfg.debugDirs

end Blazesym.Symbolize
