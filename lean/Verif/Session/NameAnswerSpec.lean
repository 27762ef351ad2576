import Verif.Session.InspectorSpec
import Verif.Session.BreakpadAnswerSpec
import Verif.Elf.OffsetProps
import Verif.Dwarf.ResolverSpec

/-!
# Specification of what is reported for names, from the contents of files
-/

set_option autoImplicit false

namespace Blazesym.Spec.Inspect
open Blazesym.Elf Blazesym.Spec.Elf

/-- What is reported for a symbol of a table: its name, address, size and kind, and where it is in the file. -/
structure Tells (module : Option Bytes) (shdrs : List Shdr) (strs : Bytes) (s : Sym) (i : CApi.SymInfo) : Prop where
  name : NameAt strs s.name i.name
  addr : i.addr = s.value
  size : i.size = some s.size
  kind : KindOf s i.symType
  offset : SymbolOffset shdrs s i.fileOffset
  module : i.module = module

/-- There is one entry for each of the symbols of a table that satisfy `P`, and no other, and it tells about the
symbol.  (Symbols are told apart by their position in the table.) -/
def OneEach (module : Option Bytes) (shdrs : List Shdr) (t : SymTab) (P : Sym → Prop) (infos : List CApi.SymInfo) : Prop :=
  ∃ is : List Nat, is.Nodup ∧ (∀ i, i ∈ is ↔ ∃ s, t.syms[i]? = some s ∧ P s) ∧
    List.Forall₂ (fun i r => ∃ s, t.syms[i]? = some s ∧ Tells module shdrs t.strs s r) is infos

/-- A symbol of a supported type that the file defines. -/
def Own (s : Sym) : Prop := Supported s ∧ Defined s

/-- Such a symbol, with a name. -/
def Bears (strs name : Bytes) (s : Sym) : Prop := Own s ∧ NameAt strs s.name name

/-- The symbol `s'` of `.symtab` stands for the address of `s`: it is of the same kind (or of no kind), it covers the
address, and no other symbol starts between its start and the address. -/
def StandsFor (symtab : SymTab) (s' s : Sym) : Prop :=
  s' ∈ symtab.syms ∧ Defined s' ∧ (∃ ty, KindOf s ty ∧ HasKind s' ty) ∧ Covers .symtab s' s.value ∧
    NearestStart symtab.syms s.value s'.value

/-- A symbol that may be overlooked for addresses behind its start: no symbol starts before it, and another one
that is not larger starts at the same address. -/
def Overlooked (symtab : SymTab) (s : Sym) (addr : Nat) : Prop :=
  s.value ≠ addr ∧ (∀ x ∈ symtab.syms, Supported x → s.value ≤ x.value) ∧
    ∃ (i j : Nat) (x : Sym), i ≠ j ∧ symtab.syms[i]? = some s ∧ symtab.syms[j]? = some x ∧ Supported x ∧ x.value = s.value ∧
      x.size ≤ s.size

/-- What is reported of the symbols of `.dynsym` that satisfy `Q`: those for whose address no symbol of `.symtab`
stands.  It is not certain whether a symbol is reported if the only ones standing for its address may be overlooked. -/
def FromDynsym (module : Option Bytes) (shdrs : List Shdr) (symtab dynsym : SymTab) (Q : Sym → Prop)
    (infos : List CApi.SymInfo) : Prop :=
  ∃ P : Sym → Prop, (∀ s, P s → Q s ∧ ∀ s', StandsFor symtab s' s → Overlooked symtab s' s.value) ∧
    (∀ s, Q s → (∀ s', ¬ StandsFor symtab s' s) → P s) ∧ OneEach module shdrs dynsym P infos

/-- What is reported for a name: the symbols of `.symtab` with the name; if there is none, those of `.dynsym`. -/
inductive NamedIn (module : Option Bytes) (shdrs : List Shdr) (symtab dynsym : SymTab) (name : Bytes)
    (infos : List CApi.SymInfo) : Prop
  | symtab : (∃ s ∈ symtab.syms, Bears symtab.strs name s) →
      OneEach module shdrs symtab (Bears symtab.strs name) infos → NamedIn module shdrs symtab dynsym name infos
  | dynsym : (∀ s ∈ symtab.syms, ¬ Bears symtab.strs name s) →
      FromDynsym module shdrs symtab dynsym (Bears dynsym.strs name) infos → NamedIn module shdrs symtab dynsym name infos

/-- The sections and symbols of an ELF file, if it is not malformed: symbols end within the address space and have
names that are text and existing sections, and sections end within the address space. -/
structure SymbolsOf (codec : Codec) (image : Backend) (shdrs : List Shdr) (symtab dynsym : SymTab) : Prop where
  headers : (File.ofImage codec image).shdrs = .ok shdrs
  static : (File.ofImage codec image).symtab = .ok symtab
  dynamic : (File.ofImage codec image).dynsym = .ok dynsym
  sections : SectionsFit shdrs
  fits : NoWrap symtab.syms
  names : GoodNames symtab ∧ GoodNames dynsym
  home : ∀ s, s ∈ symtab.syms ∨ s ∈ dynsym.syms → Own s → s.shndx < 0xff00 → s.shndx < shdrs.length

/-- What is reported for a function of a Breakpad file. -/
structure TellsRecord (f : Breakpad.Function) (i : CApi.SymInfo) : Prop where
  name : i.name = f.name
  addr : i.addr = f.addr
  size : i.size = some f.size
  kind : i.symType = .function
  offset : i.fileOffset = none
  module : i.module = none

/-- Where in the file the code at an address is, through the first loadable segment that has it. -/
inductive SegmentOffset (phdrs : List Phdr) (addr size : Nat) : Option Nat → Prop
  | mapped (pre : List Phdr) (p : Phdr) (post : List Phdr) : phdrs = pre ++ p :: post → InMem p addr size →
      (∀ q ∈ pre, ¬ InMem q addr size) → SegmentOffset phdrs addr size (some (p.offset + (addr - p.vaddr)))
  | unmapped : (∀ p ∈ phdrs, ¬ InMem p addr size) → SegmentOffset phdrs addr size none

/-- What is reported for a function of debug information: its name, the start and length of its code if it is
contiguous, and where that is in the file. -/
structure TellsCode (module : Bytes) (phdrs : List Phdr) (units : List Dwarf.Unit) (du : Dwarf.DieUnit)
    (x : Nat × Dwarf.Entry) (i : CApi.SymInfo) : Prop where
  name : Dwarf.HasName units du x.2.attrs (some i.name)
  kind : i.symType = .function
  addr : i.addr = ((Dwarf.spanOf x.2.attrs).map (fun r => r.start)).getD 0
  size : i.size = some (((Dwarf.spanOf x.2.attrs).map (fun r => r.stop - r.start)).getD 0)
  offset : ∀ n, i.size = some n → SegmentOffset phdrs i.addr n i.fileOffset
  module : i.module = some module

/-- What is reported for a name: the first function with this name of every unit that has one, in the order of units. -/
inductive FirstPerUnit (module : Bytes) (phdrs : List Phdr) (units : List Dwarf.Unit) (name : Bytes) :
    List Dwarf.Unit → List CApi.SymInfo → Prop
  | nil : FirstPerUnit module phdrs units name [] []
  | skip (u : Dwarf.Unit) (us : List Dwarf.Unit) (du : Dwarf.DieUnit) (stream : Dwarf.Stream) (infos : List CApi.SymInfo) :
      Dwarf.EntriesOf u.header du stream → (∀ x ∈ Dwarf.functionsIn stream, ¬ Dwarf.HasName units du x.2.attrs (some name)) →
      FirstPerUnit module phdrs units name us infos → FirstPerUnit module phdrs units name (u :: us) infos
  | first (u : Dwarf.Unit) (us : List Dwarf.Unit) (du : Dwarf.DieUnit) (stream : Dwarf.Stream)
      (pre post : List (Nat × Dwarf.Entry)) (x : Nat × Dwarf.Entry) (i : CApi.SymInfo) (infos : List CApi.SymInfo) :
      Dwarf.EntriesOf u.header du stream → Dwarf.functionsIn stream = pre ++ x :: post →
      (∀ y ∈ pre, ¬ Dwarf.HasName units du y.2.attrs (some name)) → TellsCode module phdrs units du x i → i.name = name →
      FirstPerUnit module phdrs units name us infos → FirstPerUnit module phdrs units name (u :: us) (i :: infos)

/-- What is reported for a name if debug information is used: functions of the debug information, or, if none has the
name, the symbols of `file`, which is the ELF file or the separate one with the debug information. -/
inductive NamedInDebug (module : Bytes) (phdrs : List Phdr) (units : List Dwarf.Unit) (file : Bytes) (shdrs : List Shdr)
    (symtab dynsym : SymTab) (name : Bytes) (infos : List CApi.SymInfo) : Prop
  | functions : FirstPerUnit module phdrs units name units infos → infos ≠ [] →
      NamedInDebug module phdrs units file shdrs symtab dynsym name infos
  | symbols : FirstPerUnit module phdrs units name units [] → NamedIn (some file) shdrs symtab dynsym name infos →
      NamedInDebug module phdrs units file shdrs symtab dynsym name infos

/-- What is reported for the functions of a list that have a name. -/
inductive EachNamed (module : Bytes) (phdrs : List Phdr) (units : List Dwarf.Unit) :
    List (Dwarf.DieUnit × (Nat × Dwarf.Entry)) → List CApi.SymInfo → Prop
  | nil : EachNamed module phdrs units [] []
  | skip (du : Dwarf.DieUnit) (x : Nat × Dwarf.Entry) (xs : List (Dwarf.DieUnit × (Nat × Dwarf.Entry)))
      (infos : List CApi.SymInfo) : Dwarf.HasName units du x.2.attrs none → EachNamed module phdrs units xs infos →
      EachNamed module phdrs units ((du, x) :: xs) infos
  | cons (du : Dwarf.DieUnit) (x : Nat × Dwarf.Entry) (xs : List (Dwarf.DieUnit × (Nat × Dwarf.Entry)))
      (i : CApi.SymInfo) (infos : List CApi.SymInfo) : TellsCode module phdrs units du x i →
      EachNamed module phdrs units xs infos → EachNamed module phdrs units ((du, x) :: xs) (i :: infos)

/-- The parts of a file with debug information, if they can be decoded. -/
structure DebugPartsOf (t : Dwarf.Tools) (path data : Bytes) (d : Dwarf.DebugData) (phdrs : List Phdr) (file : Bytes)
    (source : Backend) : Prop where
  sorted : Dwarf.UnitsSorted d.units.units
  entries : ∀ u ∈ d.units.units, ∃ du stream, Dwarf.EntriesOf u.header du stream ∧ Dwarf.StreamOk d.units.units du stream
  segments : (File.ofImage t.codec (.mem 4096 data)).phdrs = .ok phdrs ∧ SegmentsFit phdrs
  source : d.linkee.getD ⟨some path, .mem 4096 data⟩ = ⟨some file, source⟩

end Blazesym.Spec.Inspect
