import Verif.Session.KernelAnswerSpec
import Verif.Dwarf.ResolverSpec

/-!
# Specification of what is reported for kernel addresses if debug information is used
-/

set_option autoImplicit false

namespace Blazesym.Spec.Symbolize
open Blazesym.Symbolize Blazesym.Util Blazesym.Kernel Blazesym.Kernel.Depmod
open Blazesym.Dwarf (DebugData Tools ElfParser fromParser)

variable {M K : Type}

/-- A file with some contents has some debug information (C66 is about what that is). -/
def DebugOf (cfg : Settings M K) (w : World M) (module data : Bytes) (d : DebugData) : Prop :=
  (fromParser cfg.tools w.files cfg.debugDirs ⟨some module, .mem 4096 data⟩).eval
    (fun q => elfAt w w.disk.stat q q) = .ok d

/-- The kernel image a kernel source has, if any, with its debug information. -/
inductive UsesDebugImage (cfg : Settings M K) (w : World M) (src : KernelSource) :
    Option (Bytes × Bytes × DebugData) → Prop
  | none : src.vmlinux = .none → UsesDebugImage cfg w src none
  | given (path data : Bytes) (d : DebugData) : src.vmlinux = .some path → HasContents w (w.disk.stat path) data →
      DebugOf cfg w path data d → UsesDebugImage cfg w src (some (path, data, d))
  | usual (rel path data : Bytes) (d : DebugData) : src.vmlinux = .default → w.sys.release = .ok rel →
      UsualImage w rel path → HasContents w (w.disk.stat path) data → DebugOf cfg w path data d →
      UsesDebugImage cfg w src (some (path, data, d))
  | unusable (rel path : Bytes) : src.vmlinux = .default → w.sys.release = .ok rel → UsualImage w rel path →
      (∀ data, HasContents w (w.disk.stat path) data → ∀ d, ¬ DebugOf cfg w path data d) → UsesDebugImage cfg w src none
  | absent (rel : Bytes) : src.vmlinux = .default → w.sys.release = .ok rel → (∀ path, ¬ UsualImage w rel path) →
      UsesDebugImage cfg w src none

/-- Debug information has no function with the code at an address. -/
def NoFunction (s : Dwarf.Sections) (x : Nat) : Prop :=
  ∀ hd d e, Spec.Dwarf.UnitFor s x hd → ¬ Spec.Dwarf.FunctionFor hd x d e

/-- The same answer, except for where in the source the address is: if line programs are orderly, that is
the location of the line programs of `s` for `x`, if it is wanted.  There are no inlined functions. -/
inductive SamePlace (s : Dwarf.Sections) (opts : FindSymOpts) (x : Nat) : Symbolized → Symbolized → Prop
  | sym (y y' : Sym) : y.name = y'.name → y.module = y'.module → y.addr = y'.addr → y.offset = y'.offset →
      y.size = y'.size → (Spec.Dwarf.LinesOrderly s → Spec.Dwarf.LineWanted s x opts y.codeInfo ∧ y.inlined = []) →
      SamePlace s opts x (.sym y) (.sym y')
  | unknown (r : Reason) : SamePlace s opts x (.unknown r) (.unknown r)

/-- What is reported for a virtual address of an ELF file if debug information is used: a function of the
debug information comes before the symbols of `file`, which is the ELF file or the file the debug
information is from. -/
inductive InElfDebug (shown : SrcLang → Bytes → Bytes) (opts : FindSymOpts) (module : Bytes)
    (units : List Dwarf.Unit) (s : Dwarf.Sections) (file : Bytes) (symtab dynsym : Elf.SymTab) (addr : Nat) : Symbolized → Prop
  | function (y : Sym) : TellsFunction shown opts module units s addr addr y →
      InElfDebug shown opts module units s file symtab dynsym addr (.sym y)
  | symbols (out out' : Symbolized) : NoFunction s addr → InElf (shown .unknown) file symtab dynsym addr out' →
      SamePlace s opts addr out out' → InElfDebug shown opts module units s file symtab dynsym addr out

/-- What is reported for an address of the core kernel, `x` being the address in the image, if debug
information is used: a function of the debug information comes before the symbols of `file`, which is the
image or the file the debug information is from. -/
inductive InCoreDebug (shown : SrcLang → Bytes → Bytes) (opts : FindSymOpts) (image : Bytes)
    (units : List Dwarf.Unit) (s : Dwarf.Sections) (file : Bytes) (symtab dynsym : Elf.SymTab) (kallsyms : Option (List Ksym)) (addr x : Nat) : Symbolized → Prop
  | function (y : Sym) : TellsFunction shown opts image units s addr x y → y.size ≠ none →
      InCoreDebug shown opts image units s file symtab dynsym kallsyms addr x (.sym y)
  | better (y y' : Sym) (ks : List Ksym) : TellsFunction shown opts image units s (y.addr + y.offset) x y → y.size = none →
      kallsyms = some ks → InKallsyms (shown .unknown) ks addr (.sym y') →
      InCoreDebug shown opts image units s file symtab dynsym kallsyms addr x (.sym y')
  | unsized (y : Sym) : TellsFunction shown opts image units s addr x y → y.size = none →
      (∀ ks, kallsyms = some ks → (∀ k ∈ ks, addr < k.addr) ∨
        ∃ prog, Ksym.bpfProg prog ∈ ks ∧ NearestKsym ks addr prog.addr) →
      InCoreDebug shown opts image units s file symtab dynsym kallsyms addr x (.sym y)
  | symbols (out out' : Symbolized) : NoFunction s x → InCore (shown .unknown) file symtab dynsym kallsyms addr x out' →
      SamePlace s opts x out out' → InCoreDebug shown opts image units s file symtab dynsym kallsyms addr x out
  | kallsyms (ks : List Ksym) (out : Symbolized) : NoFunction s x →
      InCore (shown .unknown) file symtab dynsym kallsyms addr x out → kallsyms = some ks →
      InKallsyms (shown .unknown) ks addr out →
      InCoreDebug shown opts image units s file symtab dynsym kallsyms addr x out

/-- The same for an address of a module, `x` being the distance from its start. -/
inductive InModuleDebug (shown : SrcLang → Bytes → Bytes) (opts : FindSymOpts) (module : Bytes)
    (units : List Dwarf.Unit) (s : Dwarf.Sections) (file : Bytes) (symtab dynsym : Elf.SymTab) (addr x : Nat) : Symbolized → Prop
  | function (y : Sym) : TellsFunction shown opts module units s addr x y →
      InModuleDebug shown opts module units s file symtab dynsym addr x (.sym y)
  | symbols (out out' : Symbolized) : NoFunction s x → InModuleFile (shown .unknown) file symtab dynsym addr x out' →
      SamePlace s opts x out out' → InModuleDebug shown opts module units s file symtab dynsym addr x out

/-- The sections and symbols behind debug information of a file, if functions are not nested: the
symbols are those of the separate file with the debug information, if there is one, or else of the file. -/
structure DebugParts (t : Tools) (module : Bytes) (image : Elf.Backend) (d : DebugData) (s : Dwarf.Sections) (file : Bytes)
    (symtab dynsym : Elf.SymTab) : Prop where
  units : Dwarf.parseUnits t.σ s = .ok d.units
  sorted : Spec.Dwarf.HeadersSorted s
  apart : Spec.Dwarf.AllInOrder s
  file : ∃ source phdrs, d.linkee.getD ⟨some module, image⟩ = ⟨some file, source⟩ ∧
    ElfParts t.codec source phdrs symtab dynsym

/-- No function of debug information has a name. -/
def NoFunctionNamed (units : List Dwarf.Unit) (name : Bytes) : Prop :=
  ∀ u ∈ units, ∀ d stream x, Spec.Dwarf.EntriesOf u.header d stream → x ∈ Spec.Dwarf.functionsIn stream →
    ¬ Spec.Dwarf.HasName units d x.2.attrs (some name)

/-- What is reported for an address of the kernel if debug information is used. -/
inductive KernelDebugAnswer (cfg : Settings M K) (shown : SrcLang → Bytes → Bytes) (opts : FindSymOpts) (w : World M)
    (src : KernelSource) (addr : Nat) (out : Symbolized) : Prop
  | kallsyms (ks : List Ksym) : UsesDebugImage cfg w src none → UsesKallsyms w src (some ks) →
      InKallsyms (shown .unknown) ks addr out → KernelDebugAnswer cfg shown opts w src addr out
  | core (image data : Bytes) (d : DebugData) (kallsyms : Option (List Ksym)) (mods : List Mod) (offset x : Nat) :
      UsesDebugImage cfg w src (some (image, data, d)) → UsesKallsyms w src kallsyms → LoadedModules w mods →
      (∀ m ∈ mods, ¬ Spec.Kernel.InMod m addr) → x + offset = addr →
      (x + 1 < 2 ^ 64 → ∀ s file symtab dynsym, DebugParts cfg.tools image (.mem 4096 data) d s file symtab dynsym →
        (NoFunctionNamed d.units.units (ascii "_stext") → UsesOffset w src kallsyms symtab dynsym offset) ∧
        InCoreDebug shown opts image d.units.units s file symtab dynsym kallsyms addr x out) →
      KernelDebugAnswer cfg shown opts w src addr out
  | module (image data : Bytes) (d : DebugData) (mods : List Mod) (m : Mod) (dir index path represented file : Bytes)
      (md : DebugData) (x : Nat) :
      UsesDebugImage cfg w src (some (image, data, d)) → LoadedModules w mods → m ∈ mods → Spec.Kernel.InMod m addr →
      HasIndex w dir index → Listed dir index m.name path → ModuleData w path represented file →
      DebugOf cfg w represented file md → x + m.addr = addr →
      (x + 1 < 2 ^ 64 → ∀ s name symtab dynsym, DebugParts cfg.tools represented (.mem 4096 file) md s name symtab dynsym →
        InModuleDebug shown opts represented md.units.units s name symtab dynsym addr x out) →
      KernelDebugAnswer cfg shown opts w src addr out
  | unlisted (image data : Bytes) (d : DebugData) (mods : List Mod) (m : Mod) (dir index : Bytes) :
      UsesDebugImage cfg w src (some (image, data, d)) → LoadedModules w mods → m ∈ mods → Spec.Kernel.InMod m addr →
      HasIndex w dir index → (∀ path, ¬ Listed dir index m.name path) → out = .unknown .unknownAddr →
      KernelDebugAnswer cfg shown opts w src addr out

end Blazesym.Spec.Symbolize
