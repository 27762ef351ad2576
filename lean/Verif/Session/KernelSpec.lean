import Verif.Session.Kernel
import Verif.Session.StateSpec
import Verif.Util.TextSpec

/-!
# Specification of symbolization with the kernel as source

`kernelAt` is a kernel resolver that opens all files anew, as they are on disk.  Only the list of
modules, the index of their files and the KASLR offset may be remembered from before.
-/

set_option autoImplicit false

namespace Blazesym.Spec.Symbolize
open Blazesym.Symbolize Blazesym.Util Blazesym.Cache Blazesym.Kernel Blazesym.Kernel.Depmod
open Blazesym.Dwarf hiding Resolver

variable {M : Type}

/-- What may be remembered. -/
structure Remembered where
  modules : Option (List Mod)
  /-- The directory and the contents of the index. -/
  index : Option (Bytes × Bytes)
  kaslr : Option Nat

/-- What a symbolizer remembers. -/
def remembered (s : State M (KernelCache M)) : Remembered := ⟨s.kernel.modmap, s.kernel.depmod, s.kernel.kaslr⟩

/-- What is remembered, or else what there is now. -/
def orNow {T : Type} (before : Option T) (now : Except Err T) : Except Err T :=
  match before with
  | some x => .ok x
  | none => now

/-- The symbols of the kallsyms file at a path. -/
def kallsymsAt (w : World M) (path : Bytes) : Except Err (List Ksym) :=
  match fileOf w (w.disk.stat path) with
  | .error e => .error e
  | .ok (.error e) => .error e
  | .ok (.ok data) => loadKallsyms true data

/-- The ELF file at a path, with or without debug information. -/
def kernelElfAt (t : Tools) (dirs : List Bytes) (w : World M) (debugSyms : Bool) (actual represented : Bytes) :
    Except Err ElfResolver :=
  match elfAt w w.disk.stat actual represented with
  | .error e => .error e
  | .ok p =>
    if debugSyms then
      match (fromParser t w.files dirs p).eval (fun q => elfAt w w.disk.stat q q) with
      | .error e => .error e
      | .ok d => .ok (.dwarf p d)
    else .ok (.elf p)

/-- What a kernel resolver is created from. -/
def sourcesAt (t : Tools) (dirs : List Bytes) (w : World M) (r : Remembered) (debugSyms : Bool) :
    NewEnv (List Ksym) ElfResolver where
  ksym := kallsymsAt w
  elf := fun path => kernelElfAt t dirs w debugSyms path path
  release := w.sys.release
  fileExists := fun path => (w.disk.stat path).toBool
  kaslr := fun ksym vmlinux => orNow r.kaslr (detectKaslr t w ksym vmlinux)

/-- What it uses later on. -/
def modulesAt (t : Tools) (dirs : List Bytes) (w : World M) (r : Remembered) (debugSyms : Bool) : KernelEnv where
  modmap := orNow r.modules (loadModmap t w)
  depmod := orNow r.index (loadDepmod w)
  decompress := w.sys.decompress
  elfPath := fun path => (kernelElfAt t dirs w debugSyms path path).map (·.findSym t)
  elfTemp := fun tmp represented => (kernelElfAt t dirs w debugSyms tmp represented).map (·.findSym t)

/-- The kernel resolver without caches. -/
def kernelAt (t : Tools) (dirs : List Bytes) (w : World M) (r : Remembered) (src : KernelSource) : Except Err SymFn :=
  match kernelResolverNew (sourcesAt t dirs w r src.debugSyms) src.kallsyms src.vmlinux src.kaslr with
  | .error e => .error e
  | .ok parts =>
    .ok (KernelResolver.findSym
      ⟨parts.ksym.map (ksymFindSym w.sys.bpfLines), parts.vmlinux.map (·.findSym t), parts.kaslr⟩
      (modulesAt t dirs w r src.debugSyms))

/-- What a request has to work with, the kernel included. -/
def envWithKernel [DecidableEq M] (cfg : Settings M (KernelCache M)) (w : World M) (s : State M (KernelCache M)) : Env :=
  { envAt cfg w (versions s w) (mapsOf w s.vmas) with
    kernel := kernelAt cfg.tools cfg.debugDirs w (remembered s) }

/-- A request for the kernel without any cache. -/
def envNow [DecidableEq M] (cfg : Settings M (KernelCache M)) (w : World M) (s : State M (KernelCache M)) : Env :=
  { envAt cfg w (versions s w) (mapsOf w s.vmas) with
    kernel := kernelAt cfg.tools cfg.debugDirs w ⟨none, none, none⟩ }

/-- What the detection of the KASLR offset results in, for the files of a source. -/
def detectionAt (t : Tools) (dirs : List Bytes) (w : World M) (r : Remembered) (src : KernelSource) : Except Err Nat :=
  match selectKsym (sourcesAt t dirs w r src.debugSyms) src.kallsyms,
    selectVmlinux (sourcesAt t dirs w r src.debugSyms) src.vmlinux with
  | .ok k, .ok v => detectKaslr t w k v
  | _, _ => .error .panic

/-- Where the descriptor of a kallsyms file is before it is read: at the start, or where a failed attempt
to read it ended. -/
inductive Position (data : Bytes) : Nat → Prop where
  | start : Position data 0
  | failed (n : Nat) (e : Err) : Position data n → loadKallsyms true (data.drop n) = .error e →
      Position data (n + readUpTo (data.drop n))

/-- The kallsyms file of a source. -/
def KallsymsPath (src : KernelSource) (path : Bytes) : Prop :=
  src.kallsyms = .some path ∨ (src.kallsyms = .default ∧ path = ascii "/proc/kallsyms")

/-- It is text, if it can be read. -/
def TextKallsyms (w : World M) (src : KernelSource) : Prop :=
  ∀ path m data lines, KallsymsPath src path → w.disk.stat path = .ok m → w.disk.contents m = .ok (.ok data) →
    Lines data lines → ∀ l ∈ lines, isUtf8 l = true

/-- The ELF files a kernel source uses: the path where a file is and the one that is reported. -/
inductive KernelFile (w : World M) (index : Except Err (Bytes × Bytes)) (src : KernelSource) : Bytes → Bytes → Prop where
  | vmlinux (path : Bytes) : src.vmlinux = .some path → KernelFile w index src path path
  | release (rel path : Bytes) : src.vmlinux = .default → w.sys.release = .ok rel → path ∈ vmlinuxPaths rel →
      KernelFile w index src path path
  | module (dir data name path : Bytes) : index = .ok (dir, data) → findPath dir data name = .ok (some path) →
      compression path = none → KernelFile w index src path path
  | temp (dir data name path tmp : Bytes) (c : Compression) : index = .ok (dir, data) →
      findPath dir data name = .ok (some path) → compression path = some c → w.sys.decompress c path = .ok tmp →
      KernelFile w index src tmp (withoutExtension path)

/-- Every ELF file a kernel source uses is used under its name and has its debug information. -/
def KernelFits (cfg : Settings M (KernelCache M)) (k : Known M) (w : World M) (s : State M (KernelCache M))
    (src : KernelSource) : Prop :=
  ∀ actual represented, KernelFile w (orNow s.kernel.depmod (loadDepmod w)) src actual represented →
    ∀ m, w.disk.stat actual = .ok m → k.name m = represented ∧
      (src.debugSyms = true → k.elf.Settled (fromParser cfg.tools w.files cfg.debugDirs) w.disk.stat m)

/-- A version of a file has the same contents in all worlds, and requests for the kernel use files under
their names and find the debug information they have. -/
def KernelOrderly (cfg : Settings M (KernelCache M)) (k : Known M) (s : State M (KernelCache M)) (w : World M)
    (c : Call) : Prop :=
  w.disk.contents = k.contents ∧
  match c with
  | .symbolize (.kernel src) _ | .symbolizeSingle (.kernel src) _ => KernelFits cfg k w s src
  | _ => True

/-- A request for the kernel. -/
def KernelCall (src : KernelSource) : Call → Prop
  | .symbolize s _ | .symbolizeSingle s _ => s = .kernel src
  | _ => False

/-- The system does not change: these modules are loaded, this is the index, and this is the offset that
is always detected (as it is, if `/proc/kcore` says so). -/
def SameSystem (t : Tools) (mods : Except Err (List Mod)) (index : Except Err (Bytes × Bytes)) (offset : Nat)
    (w : World M) : Prop :=
  loadModmap t w = mods ∧ loadDepmod w = index ∧ ∀ k v, detectKaslr t w k v = .ok offset

end Blazesym.Spec.Symbolize
