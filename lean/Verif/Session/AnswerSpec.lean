import Verif.Session.StateSpec
import Verif.Elf.OffsetProps
import Verif.PerfMap.Props
import Verif.Normalize.WalkSpec
import Verif.Dwarf.ResolverSpec
import Verif.Symbolize.SymbolizerSpec

/-!
# Specification of what is reported for an address, from the contents of files
-/

set_option autoImplicit false

namespace Blazesym.Spec.Symbolize
open Blazesym.Symbolize Blazesym.Util Blazesym.Maps

/-- A symbol of a table stands for an address. -/
structure StandsFor (t : Elf.SymTab) (table : Elf.Table) (addr : Nat) (s : Elf.Sym) (name : Bytes) : Prop where
  mem : s ∈ t.syms
  defined : Spec.Elf.Defined s
  supported : Spec.Elf.Supported s
  covers : Spec.Elf.Covers table s addr
  nearest : Spec.Elf.NearestStart t.syms addr s.value
  named : NameAt t.strs s.name name
  utf8 : isUtf8 name = true

/-- No symbol of a table stands for an address, with an exception: symbols before the address that have
the lowest start of all. -/
def Absent (t : Elf.SymTab) (table : Elf.Table) (addr : Nat) : Prop :=
  ∀ s name, StandsFor t table addr s name →
    s.value ≠ addr ∧ ∀ s' ∈ t.syms, Spec.Elf.Supported s' → s.value ≤ s'.value

/-- A symbol as it is reported. -/
def reported (shown : Bytes → Bytes) (module : Bytes) (addr : Nat) (s : Elf.Sym) (name : Bytes) : Symbolized :=
  .sym ⟨shown name, some module, s.value, addr - s.value, if s.size = 0 then none else some s.size, none, []⟩

/-- What is reported for a virtual address of an ELF file with these symbol tables, without debug
information. -/
inductive InElf (shown : Bytes → Bytes) (module : Bytes) (symtab dynsym : Elf.SymTab) (addr : Nat) :
    Symbolized → Prop
  | symtab (s : Elf.Sym) (name : Bytes) : StandsFor symtab .symtab addr s name →
      InElf shown module symtab dynsym addr (reported shown module addr s name)
  | dynsym (s : Elf.Sym) (name : Bytes) : Absent symtab .symtab addr → StandsFor dynsym .dynsym addr s name →
      InElf shown module symtab dynsym addr (reported shown module addr s name)
  | missing : symtab.syms = [] → Absent dynsym .dynsym addr →
      InElf shown module symtab dynsym addr (.unknown .missingSyms)
  | unknown : symtab.syms ≠ [] → Absent symtab .symtab addr → Absent dynsym .dynsym addr →
      InElf shown module symtab dynsym addr (.unknown .unknownAddr)

/-- What is reported for an offset in an ELF file with these segments, by what is reported for a virtual
address. -/
inductive AtOffset (phdrs : List Elf.Phdr) (at_ : Nat → Symbolized → Prop) (off : Nat) : Symbolized → Prop
  | inside (p : Elf.Phdr) (out : Symbolized) : Spec.Elf.FirstInFile phdrs off p →
      at_ (p.vaddr + (off - p.offset)) out → AtOffset phdrs at_ off out
  | outside : (∀ p ∈ phdrs, ¬ Spec.Elf.InFile p off) → AtOffset phdrs at_ off (.unknown .invalidFileOffset)

/-- The contents of an ELF file. -/
structure ElfParts (codec : Elf.Codec) (image : Elf.Backend) (phdrs : List Elf.Phdr) (symtab dynsym : Elf.SymTab) :
    Prop where
  segments : (Elf.File.ofImage codec image).phdrs = .ok phdrs
  fits : Spec.Elf.SegmentsFit phdrs
  symbols : (Elf.File.ofImage codec image).symtab = .ok symtab
  dynamic : (Elf.File.ofImage codec image).dynsym = .ok dynsym

/-- No symbol ends beyond the address space, and all have names. -/
def Sound (t : Elf.SymTab) : Prop :=
  Spec.Elf.NoWrap t.syms ∧ ∀ s ∈ t.syms, ∃ n, NameAt t.strs s.name n ∧ isUtf8 n = true

/-- How names of symbols in a language are shown. -/
def shownBy {M K : Type} (cfg : Settings M K) (lang : SrcLang) (name : Bytes) : Bytes :=
  shownName cfg.demangler cfg.demangle lang name

/-- A file is, in a version, in the file system, with these contents. -/
def HasContents {M : Type} (w : World M) (version : Except Err M) (data : Bytes) : Prop :=
  ∃ m, version = .ok m ∧ w.disk.contents m = .ok (.ok data)

/-- The first mapping of the program itself that is named `[vdso]`. -/
def OwnVdso {M : Type} (w : World M) (start stop : Nat) : Prop :=
  ∃ (pre : List Maps.Entry) (e : Maps.Entry) (post : List (Except Err Maps.Entry)),
    w.maps 0 = .ok (pre.map .ok ++ .ok e :: post) ∧
    e.pathName = some (.component (ascii "[vdso]")) ∧
    (∀ x ∈ pre, x.pathName ≠ some (.component (ascii "[vdso]"))) ∧ e.start = start ∧ e.stop = stop

/-- An address lies in a mapping of a process that has this path name, at this offset of the file. -/
structure MappedAt (maps : Nat → Except Err (List (Except Err Maps.Entry))) (pid addr : Nat) (e : Maps.Entry)
    (off : Nat) : Prop where
  listed : ∃ es : List Maps.Entry, maps pid = .ok (es.map .ok) ∧ Blazesym.Spec.Normalize.Listing es ∧ e ∈ es
  lower : e.start ≤ addr
  upper : addr < e.stop
  offset : off = addr - e.start + e.offset
  fits : off < 2 ^ 64

/-- What a process dispatcher, if there is one, has for a mapping: nothing. -/
def NoDispatch {M K : Type} (cfg : Settings M K) (e : Maps.Entry) : Prop :=
  ∀ d, cfg.processDispatch = some d → ∀ name, e.pathName = some name → d e.start e.stop name = .ok none

/-- The file a mapping is read from: the kernel's link to it, or the path in the listing. -/
def readFrom (src : ProcessSource) (p : EntryPath) : Bytes := if src.mapFiles then p.mapsFile else p.symbolicPath

/-- The name of an archive. -/
def IsArchive (path : Bytes) : Prop := extension path = some (ascii "apk") ∨ extension path = some (ascii "zip")

/-- What is reported for a function of a perf map. -/
def perfMapReported (shown : Bytes → Bytes) (addr : Nat) (f : PerfMap.Function) : Symbolized :=
  .sym ⟨shown f.name, none, f.addr, addr - f.addr, some f.size, none, []⟩

/-- The mappings without a path belong to code that a program generates; what it says about it is here. -/
def perfMapPath {M : Type} (w : World M) (pid : Nat) : Bytes :=
  PerfMap.path (if pid = 0 then w.ownPid else pid)

/-- What is reported for an address according to a perf map with these functions. -/
inductive InPerfMap (shown : Bytes → Bytes) (fs : List PerfMap.Function) (addr : Nat) : Symbolized → Prop
  | found (f : PerfMap.Function) : PerfMap.For fs addr f → InPerfMap shown fs addr (perfMapReported shown addr f)
  | unknown : (¬ ∃ f, PerfMap.For fs addr f) → InPerfMap shown fs addr (.unknown .unknownAddr)

/-- A member of an archive, and all members before it are readable and do not have the byte at an
offset. -/
def MemberAt (data : Bytes) (off : Nat) (e : Zip.Entry) : Prop :=
  ∃ before, Zip.Members data before e ∧ Zip.Within e off ∧ ∀ x ∈ before, ¬ Zip.Within x off

/-- The dispatcher for archives, if there is one, has nothing for a member. -/
def NoApkDispatch {M K : Type} (cfg : Settings M K) (actual : Bytes) (e : Zip.Entry) : Prop :=
  ∀ d, cfg.apkDispatch = some d → d actual e.dataOffset e.path e.data = .ok none

/-- What is wanted about the source: nothing, unless source locations are enabled; inlined functions only
if they are, too. -/
def wantedBy {M K : Type} (cfg : Settings M K) : FindSymOpts :=
  if cfg.codeInfo then (if cfg.inlinedFns then .codeInfoAndInlined else .codeInfo) else .basic

/-- A symbol that is reported for `addr` tells of a function of debug information with the code at `x`.  If
line programs are orderly, the location is that of the line programs, and inlined functions are those of the
function (shown like the function itself), as far as wanted. -/
def TellsFunction (shown : SrcLang → Bytes → Bytes) (opts : FindSymOpts) (module : Bytes) (units : List Dwarf.Unit)
    (s : Dwarf.Sections) (addr x : Nat) (y : Sym) : Prop :=
  ∃ hd d e name lang, Spec.Dwarf.UnitFor s x hd ∧ Spec.Dwarf.FunctionFor hd x d e ∧
    Spec.Dwarf.HasName units d e.2.attrs name ∧ Spec.Dwarf.WrittenIn hd lang ∧
    y.name = shown lang (name.getD []) ∧ y.module = some module ∧ y.addr + y.offset = addr ∧
    (Spec.Dwarf.rangesOf e.2.attrs = none → ∃ r, Spec.Dwarf.spanOf e.2.attrs = some r ∧ y.addr = r.start ∧
      y.size = some (r.stop - r.start)) ∧
    (Spec.Dwarf.LinesOrderly s → ∃ fns, Spec.Dwarf.SourceOf units s hd d e.1 x opts y.codeInfo fns ∧
      y.inlined = fns.map fun f => { name := shown lang f.name, codeInfo := f.codeInfo })

/-- What is reported for an address in the code of a function according to debug information. -/
def InDebugInfo (shown : SrcLang → Bytes → Bytes) (opts : FindSymOpts) (module : Bytes) (units : List Dwarf.Unit)
    (s : Dwarf.Sections) (addr : Nat) (out : Symbolized) : Prop :=
  ∃ y, out = .sym y ∧ TellsFunction shown opts module units s addr addr y

end Blazesym.Spec.Symbolize
