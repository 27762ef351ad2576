import Verif.Kernel.ModMap
import Verif.Kernel.Depmod
import Verif.Kernel.Kaslr
import Verif.Util.Extension
import Verif.Symbolize.Convert

/-!
# Model of the kernel resolver (`src/kernel/resolver.rs`)

What is outside (the files of the system, the decompression libraries, the resolvers of ELF files
and of kallsyms) is an environment of arbitrary functions.
-/

set_option autoImplicit false

namespace Blazesym.Kernel
open Blazesym.Util Blazesym.Symbolize Blazesym.Kernel.Depmod

/-- The compression formats of `src/kernel/resolver.rs:52-101`. -/
inductive Compression where
  | gz
  | xz
  | zstd
  deriving DecidableEq, Repr

/-- What the kernel resolver gets from outside. -/
structure KernelEnv where
  /-- The module map (`KernelCache::modmap`). -/
  modmap : Except Err (List Mod)
  /-- The directory and the contents of the depmod index (`KernelCache::depmod`). -/
  depmod : Except Err (Bytes × Bytes)
  /-- Decompression of a file into a temporary one, given by its contents. -/
  decompress : Compression → Bytes → Except Err Bytes
  /-- `KernelCache::elf_resolver` of the file at a path. -/
  elfPath : Bytes → Except Err SymFn
  /-- `KernelCache::elf_resolver` of a temporary file, which represents another path. -/
  elfTemp : Bytes → Bytes → Except Err SymFn

/-- `src/kernel/resolver.rs:104-110` (`KernelResolver`), the cache being the environment. -/
structure KernelParts (A B : Type) where
  ksym : Option A
  vmlinux : Option B
  kaslr : Nat

/-- Its resolvers as what matters of them for symbolization. -/
abbrev KernelResolver := KernelParts SymFn SymFn

/-- `src/kernel/resolver.rs:233-240`: how a module is compressed, going by its extension. -/
def compression (path : Bytes) : Option Compression :=
  let ext := (extension path).getD []
  if ext = ascii "gz" then some .gz
  else if ext = ascii "xz" then some .xz
  else if ext = ascii "zstd" then some .zstd
  else none

/-- `src/kernel/resolver.rs:233-249`: the resolver of a module's file. -/
def moduleResolver (env : KernelEnv) (path : Bytes) : Except Err SymFn :=
  match compression path with
  | some c =>
    match env.decompress c path with
    | .error e => .error e
    | .ok tmp => env.elfTemp tmp (withoutExtension path)
  | none => env.elfPath path

/-- `src/kernel/resolver.rs:225-263`: symbolization with a module. -/
def findInModule (env : KernelEnv) (name : Bytes) (base addr : Nat) (opts : FindSymOpts) :
    Except Err (Except Reason ResolvedSym) :=
  match env.depmod with
  | .error e => .error e
  | .ok (dir, index) =>
    match findPath dir index name with
    | .error e => .error e
    | .ok none => .ok (.error .unknownAddr)
    | .ok (some path) =>
      match moduleResolver env path with
      | .error e => .error e
      | .ok resolver =>
        if base ≤ addr then
          match resolver (addr - base) opts with
          | .error e => .error e
          | .ok (.ok sym) => .ok (.ok sym)
          | .ok (.error _) => .ok (.error .unknownAddr)
        else .error .invalidInput

/-- `src/kernel/resolver.rs:267-298`: symbolization with the core kernel. -/
def findInCore (vmlinux : SymFn) (ksym : Option SymFn) (kaslr addr : Nat) (opts : FindSymOpts) :
    Except Err (Except Reason ResolvedSym) :=
  if kaslr ≤ addr then
    match vmlinux (addr - kaslr) opts with
    | .error e => .error e
    | .ok (.ok sym) =>
      if sym.size = none then
        match ksym with
        | none => .ok (.ok sym)
        | some k =>
          match k addr opts with
          | .ok (.ok s) => .ok (.ok s)
          | .error .panic => .error .panic
          | _ => .ok (.ok sym)
      else .ok (.ok sym)
    | .ok (.error reason) =>
      match ksym with
      | some k => k addr opts
      | none => .ok (.error reason)
  else .error .invalidInput

/-- `src/kernel/resolver.rs:215-305` (`find_sym`). -/
def KernelResolver.findSym (r : KernelResolver) (env : KernelEnv) (addr : Nat) (opts : FindSymOpts) :
    Except Err (Except Reason ResolvedSym) :=
  match r.vmlinux, r.ksym with
  | some vmlinux, ksym =>
    match env.modmap with
    | .error e => .error e
    | .ok mods =>
      match findModule mods addr with
      | .error e => .error e
      | .ok (.ok (name, base)) => findInModule env name base addr opts
      | .ok (.error _) => findInCore vmlinux ksym r.kaslr addr opts
  | none, some k => k addr opts
  | none, none => .error .panic

/-- `src/lib.rs:121-128` (`MaybeDefault`). -/
inductive MaybeDefault (α : Type) where
  | none
  | default
  | some (x : α)

/-- What the creation of a kernel resolver gets from outside; `A` and `B` are the resolvers of kallsyms
and of ELF files. -/
structure NewEnv (A B : Type) where
  /-- `KernelCache::ksym_resolver`. -/
  ksym : Bytes → Except Err A
  /-- `KernelCache::elf_resolver`. -/
  elf : Bytes → Except Err B
  /-- The kernel release (`uname_release`). -/
  release : Except Err Bytes
  /-- `Path::exists`. -/
  fileExists : Bytes → Bool
  /-- `KernelCache::kaslr_offset`. -/
  kaslr : Option A → Option B → Except Err Nat

variable {A B : Type}

/-- `src/kernel/resolver.rs:127-139`, `162-175`: a failure is logged and ignored. Panics are not failures. -/
def ignoring {A : Type} (r : Except Err A) : Except Err (Option A) :=
  match r with
  | .error .panic => .error .panic
  | .error _ => .ok none
  | .ok x => .ok (some x)

/-- `src/kernel/resolver.rs:121-141`. -/
def selectKsym (env : NewEnv A B) (kallsyms : MaybeDefault Bytes) : Except Err (Option A) :=
  match kallsyms with
  | .some path =>
    match env.ksym path with
    | .error e => .error e
    | .ok r => .ok (some r)
  | .default => ignoring (env.ksym (ascii "/proc/kallsyms"))
  | .none => .ok none

/-- `src/kernel/resolver.rs:152-158`: the places for the image of a kernel release. -/
def vmlinuxPaths (release : Bytes) : List Bytes :=
  [ascii "/boot/", ascii "/usr/lib/debug/boot/"].map (fun dir => dir ++ (ascii "vmlinux-" ++ release))

/-- `src/kernel/resolver.rs:143-180`. -/
def selectVmlinux (env : NewEnv A B) (vmlinux : MaybeDefault Bytes) : Except Err (Option B) :=
  match vmlinux with
  | .some path =>
    match env.elf path with
    | .error e => .error e
    | .ok r => .ok (some r)
  | .default =>
    match env.release with
    | .error e => .error e
    | .ok release =>
      match (vmlinuxPaths release).find? env.fileExists with
      | none => .ok none
      | some path => ignoring (env.elf path)
  | .none => .ok none

/-- `src/kernel/resolver.rs:114-211` (`new`). -/
def kernelResolverNew (env : NewEnv A B) (kallsyms vmlinux : MaybeDefault Bytes) (kaslr : Option Nat) :
    Except Err (KernelParts A B) :=
  match selectKsym env kallsyms with
  | .error e => .error e
  | .ok ksym =>
    match selectVmlinux env vmlinux with
    | .error e => .error e
    | .ok vmlinux =>
      if ksym.isNone ∧ vmlinux.isNone then .error .notFound
      else
        match kaslr with
        | some offset => .ok ⟨ksym, vmlinux, offset⟩
        | none =>
          if vmlinux.isSome then
            match env.kaslr ksym vmlinux with
            | .error e => .error e
            | .ok offset => .ok ⟨ksym, vmlinux, offset⟩
          else .ok ⟨ksym, vmlinux, 0⟩

end Blazesym.Kernel
