import Verif.Session.AnswerSpec
import Verif.Session.KernelSpec
import Verif.Kernel.KsymSpec
import Verif.Kernel.ResolverProps
import Verif.Kernel.KaslrProps
import Verif.Kernel.DepmodSpec

/-!
# Specification of what is reported for kernel addresses, from the contents of files
-/

set_option autoImplicit false

namespace Blazesym.Spec.Symbolize
open Blazesym.Symbolize Blazesym.Util Blazesym.Kernel Blazesym.Kernel.Depmod

variable {M : Type}

/-- The symbols of a kallsyms file, in the order of its lines. -/
def KallsymsHave (data : Bytes) (ks : List Ksym) : Prop :=
  ∃ lines : List Bytes, Spec.Lines data lines ∧ Spec.Kernel.Kept true lines ks

/-- The greatest address of a symbol that is not above an address. -/
def NearestKsym (ks : List Ksym) (addr a : Nat) : Prop := a ≤ addr ∧ ∀ k ∈ ks, k.addr ≤ addr → k.addr ≤ a

/-- What is reported for an address according to kallsyms. (C71 is about the locations of BPF programs.) -/
inductive InKallsyms (shown : Bytes → Bytes) (ks : List Ksym) (addr : Nat) : Symbolized → Prop
  | function (a : Nat) (name : Bytes) : Ksym.kfunc a name ∈ ks → NearestKsym ks addr a →
      InKallsyms shown ks addr (.sym ⟨shown name, none, a, addr - a, none, none, []⟩)
  | bpf (prog : BpfProg) (location : Option CodeInfo) : Ksym.bpfProg prog ∈ ks → NearestKsym ks addr prog.addr →
      InKallsyms shown ks addr
        (.sym ⟨shown prog.name, some (ascii "[bpf]"), prog.addr, addr - prog.addr, none, location, []⟩)
  | missing : ks = [] → InKallsyms shown ks addr (.unknown .missingSyms)
  | unknown : ks ≠ [] → (∀ k ∈ ks, addr < k.addr) → InKallsyms shown ks addr (.unknown .unknownAddr)

/-- The symbol of an ELF file for an address: from the symbol table, or else from the dynamic symbols. -/
inductive Chosen (symtab dynsym : Elf.SymTab) (x : Nat) (s : Elf.Sym) (name : Bytes) : Prop
  | symtab : StandsFor symtab .symtab x s name → Chosen symtab dynsym x s name
  | dynsym : Absent symtab .symtab x → StandsFor dynsym .dynsym x s name → Chosen symtab dynsym x s name

/-- No symbol of an ELF file stands for an address. -/
def Neither (symtab dynsym : Elf.SymTab) (x : Nat) : Prop := Absent symtab .symtab x ∧ Absent dynsym .dynsym x

/-- What is reported for an address of the core kernel, `x` being the address in the image.  A symbol of
the image is preferred, unless its size is not known and kallsyms has one (or would have one, but what
there is about a BPF program cannot be read).  The start that is reported is
the one in the image, the offset is the distance of `addr` from there (C34 is about that). -/
inductive InCore (shown : Bytes → Bytes) (image : Bytes) (symtab dynsym : Elf.SymTab) (kallsyms : Option (List Ksym))
    (addr x : Nat) : Symbolized → Prop
  | sized (s : Elf.Sym) (name : Bytes) : Chosen symtab dynsym x s name → s.size ≠ 0 →
      InCore shown image symtab dynsym kallsyms addr x (reported shown image addr s name)
  | better (s : Elf.Sym) (name : Bytes) (ks : List Ksym) (y : Sym) : Chosen symtab dynsym x s name → s.size = 0 →
      kallsyms = some ks → InKallsyms shown ks addr (.sym y) →
      InCore shown image symtab dynsym kallsyms addr x (.sym y)
  | unsized (s : Elf.Sym) (name : Bytes) : Chosen symtab dynsym x s name → s.size = 0 →
      (∀ ks, kallsyms = some ks → (∀ k ∈ ks, addr < k.addr) ∨
        ∃ prog, Ksym.bpfProg prog ∈ ks ∧ NearestKsym ks addr prog.addr) →
      InCore shown image symtab dynsym kallsyms addr x (reported shown image addr s name)
  | kallsyms (ks : List Ksym) (out : Symbolized) : Neither symtab dynsym x → kallsyms = some ks →
      InKallsyms shown ks addr out → InCore shown image symtab dynsym kallsyms addr x out
  | missing : Neither symtab dynsym x → kallsyms = none → symtab.syms = [] →
      InCore shown image symtab dynsym kallsyms addr x (.unknown .missingSyms)
  | unknown : Neither symtab dynsym x → kallsyms = none → symtab.syms ≠ [] →
      InCore shown image symtab dynsym kallsyms addr x (.unknown .unknownAddr)

/-- What is reported for an address of a module, `x` being the distance from its start. -/
inductive InModuleFile (shown : Bytes → Bytes) (file : Bytes) (symtab dynsym : Elf.SymTab) (addr x : Nat) :
    Symbolized → Prop
  | found (s : Elf.Sym) (name : Bytes) : Chosen symtab dynsym x s name →
      InModuleFile shown file symtab dynsym addr x (reported shown file addr s name)
  | unknown : Neither symtab dynsym x → InModuleFile shown file symtab dynsym addr x (.unknown .unknownAddr)

/-- A file cannot be read. -/
def Unreadable (w : World M) (version : Except Err M) : Prop := ¬ ∃ data, HasContents w version data

/-- A text has a line that is not UTF-8. -/
def Garbled (data : Bytes) : Prop := ∃ lines : List Bytes, Spec.Lines data lines ∧ ∃ l ∈ lines, isUtf8 l = false

/-- The kallsyms symbols a kernel source has, if any. Those of the system are not missed. -/
inductive UsesKallsyms (w : World M) (src : KernelSource) : Option (List Ksym) → Prop
  | none : src.kallsyms = .none → UsesKallsyms w src none
  | absent : src.kallsyms = .default → Unreadable w (w.disk.stat (ascii "/proc/kallsyms")) → UsesKallsyms w src none
  | garbled (data : Bytes) : src.kallsyms = .default → HasContents w (w.disk.stat (ascii "/proc/kallsyms")) data →
      Garbled data → UsesKallsyms w src none
  | some (path data : Bytes) (ks : List Ksym) : KallsymsPath src path → HasContents w (w.disk.stat path) data →
      KallsymsHave data ks → UsesKallsyms w src (some ks)

/-- The first that exists of the usual places for the image of a kernel release. -/
inductive UsualImage (w : World M) (rel : Bytes) : Bytes → Prop
  | boot (m : M) : w.disk.stat (ascii "/boot/vmlinux-" ++ rel) = .ok m → UsualImage w rel (ascii "/boot/vmlinux-" ++ rel)
  | debug (m : M) (e : Err) : w.disk.stat (ascii "/boot/vmlinux-" ++ rel) = .error e →
      w.disk.stat (ascii "/usr/lib/debug/boot/vmlinux-" ++ rel) = .ok m →
      UsualImage w rel (ascii "/usr/lib/debug/boot/vmlinux-" ++ rel)

/-- The path and the contents of the kernel image a kernel source has, if any: the one that is asked for,
or else the usual one. -/
inductive UsesImage (w : World M) (src : KernelSource) : Option (Bytes × Bytes) → Prop
  | none : src.vmlinux = .none → UsesImage w src none
  | given (path data : Bytes) : src.vmlinux = .some path → HasContents w (w.disk.stat path) data →
      UsesImage w src (some (path, data))
  | usual (rel path data : Bytes) : src.vmlinux = .default → w.sys.release = .ok rel → UsualImage w rel path →
      HasContents w (w.disk.stat path) data → UsesImage w src (some (path, data))
  | unreadable (rel path : Bytes) : src.vmlinux = .default → w.sys.release = .ok rel → UsualImage w rel path →
      Unreadable w (w.disk.stat path) → UsesImage w src none
  | absent (rel : Bytes) : src.vmlinux = .default → w.sys.release = .ok rel → (∀ path, ¬ UsualImage w rel path) →
      UsesImage w src none

/-- The start of the kernel according to kallsyms. -/
def RunningStart (ks : List Ksym) (a : Nat) : Prop :=
  (∃ k ∈ ks, k.name = ascii "_stext" ∧ k.addr = a) ∧ ∀ k ∈ ks, k.name = ascii "_stext" → a ≤ k.addr

/-- A symbol of a table has a name. -/
def HasSymbol (t : Elf.SymTab) (name : Bytes) (s : Elf.Sym) : Prop :=
  s ∈ t.syms ∧ Spec.Elf.Supported s ∧ Spec.Elf.Defined s ∧ NameAt t.strs s.name name

/-- The start of the kernel according to its image: from the symbol table, or else from the dynamic
symbols. -/
def ImageStart (symtab dynsym : Elf.SymTab) (b : Nat) : Prop :=
  ∃ s, s.value = b ∧ (HasSymbol symtab (ascii "_stext") s ∨
    ((∀ s', ¬ HasSymbol symtab (ascii "_stext") s') ∧ HasSymbol dynsym (ascii "_stext") s))

/-- The KASLR offset by the start of the kernel: 0 unless kallsyms and the image tell where the kernel
starts, and it is not moved down. -/
inductive StartOffset (ks : List Ksym) (symtab dynsym : Elf.SymTab) : Nat → Prop
  | moved (a b offset : Nat) : RunningStart ks a → ImageStart symtab dynsym b → b + offset = a →
      StartOffset ks symtab dynsym offset
  | down (a b : Nat) : RunningStart ks a → ImageStart symtab dynsym b → a < b → StartOffset ks symtab dynsym 0
  | notRunning : (∀ k ∈ ks, k.name ≠ ascii "_stext") → StartOffset ks symtab dynsym 0
  | notImage : (∀ s, ¬ HasSymbol symtab (ascii "_stext") s) → StartOffset ks symtab dynsym 0

/-- The offset that is used: the one that is given, or else what `/proc/kcore` says (0 if it says nothing
or is not there; C35 is about how it is read), or without permission for it what the start of the kernel
says. -/
inductive UsesOffset (w : World M) (src : KernelSource) (kallsyms : Option (List Ksym)) (symtab dynsym : Elf.SymTab) :
    Nat → Prop
  | given (offset : Nat) : src.kaslr = some offset → UsesOffset w src kallsyms symtab dynsym offset
  | kcore (data : Bytes) (offset : Nat) : src.kaslr = none → w.sys.kcore = .ok data →
      readKcoreOffset data = .ok (some offset) → UsesOffset w src kallsyms symtab dynsym offset
  | silent (data : Bytes) : src.kaslr = none → w.sys.kcore = .ok data → readKcoreOffset data = .ok none →
      UsesOffset w src kallsyms symtab dynsym 0
  | absent : src.kaslr = none → w.sys.kcore = .error .notFound → UsesOffset w src kallsyms symtab dynsym 0
  | start (ks : List Ksym) (offset : Nat) : src.kaslr = none → w.sys.kcore = .error .permissionDenied →
      kallsyms = some ks → StartOffset ks symtab dynsym offset → UsesOffset w src kallsyms symtab dynsym offset

/-- The modules that are loaded. -/
def LoadedModules (w : World M) (mods : List Mod) : Prop :=
  ∃ (data : Bytes) (lines : List Bytes), w.sys.modules = .ok data ∧ Spec.Lines data lines ∧
    Spec.Kernel.ModsKept lines mods

/-- The index of the files of modules: the one of the kernel's release. -/
def HasIndex (w : World M) (dir index : Bytes) : Prop :=
  ∃ rel, w.sys.release = .ok rel ∧ isUtf8 rel = true ∧ dir = ascii "/lib/modules/" ++ rel ∧
    HasContents w (w.disk.stat (pathJoin dir (ascii "modules.dep.bin"))) index ∧
    Spec.Depmod.Be index 0 0xb007f457 ∧ Spec.Depmod.Be index 4 0x00020001

/-- The index lists a path for a name. -/
def Listed (dir index name path : Bytes) : Prop :=
  ∃ root rel, Spec.Depmod.Be index 8 root ∧ Spec.Depmod.Stored index root name rel ∧ path = pathJoin dir rel

/-- The file of a module: itself, or what decompressing it yields, under the name without the extension. -/
inductive ModuleData (w : World M) (path : Bytes) : Bytes → Bytes → Prop
  | plain (data : Bytes) : compression path = none → HasContents w (w.disk.stat path) data → ModuleData w path path data
  | compressed (c : Compression) (tmp data : Bytes) : compression path = some c → w.sys.decompress c path = .ok tmp →
      HasContents w (w.disk.stat tmp) data → ModuleData w path (withoutExtension path) data

/-- What is reported for an address of the kernel. What symbol tables ELF files have is for C36 and
C37. -/
inductive KernelAnswer (codec : Elf.Codec) (shown : Bytes → Bytes) (w : World M) (src : KernelSource) (addr : Nat)
    (out : Symbolized) : Prop
  | kallsyms (ks : List Ksym) : UsesImage w src none → UsesKallsyms w src (some ks) →
      InKallsyms shown ks addr out → KernelAnswer codec shown w src addr out
  | core (image data : Bytes) (kallsyms : Option (List Ksym)) (mods : List Mod) : UsesImage w src (some (image, data)) →
      UsesKallsyms w src kallsyms → LoadedModules w mods → (∀ m ∈ mods, ¬ Spec.Kernel.InMod m addr) →
      (∀ phdrs symtab dynsym, ElfParts codec (.mem 4096 data) phdrs symtab dynsym →
        ∃ offset x, UsesOffset w src kallsyms symtab dynsym offset ∧ x + offset = addr ∧
          InCore shown image symtab dynsym kallsyms addr x out) →
      KernelAnswer codec shown w src addr out
  | module (image data : Bytes) (mods : List Mod) (m : Mod) (dir index path represented file : Bytes) (x : Nat) :
      UsesImage w src (some (image, data)) → LoadedModules w mods → m ∈ mods → Spec.Kernel.InMod m addr →
      HasIndex w dir index → Listed dir index m.name path → ModuleData w path represented file → x + m.addr = addr →
      (∀ phdrs symtab dynsym, ElfParts codec (.mem 4096 file) phdrs symtab dynsym →
        InModuleFile shown represented symtab dynsym addr x out) →
      KernelAnswer codec shown w src addr out
  | unlisted (image data : Bytes) (mods : List Mod) (m : Mod) (dir index : Bytes) :
      UsesImage w src (some (image, data)) → LoadedModules w mods → m ∈ mods → Spec.Kernel.InMod m addr →
      HasIndex w dir index → (∀ path, ¬ Listed dir index m.name path) → out = .unknown .unknownAddr →
      KernelAnswer codec shown w src addr out

end Blazesym.Spec.Symbolize
