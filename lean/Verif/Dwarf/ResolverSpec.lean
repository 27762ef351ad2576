import Verif.Dwarf.InlineSpec
import Verif.Dwarf.UnitsSpec
import Verif.Symbolize.Types
import Verif.Elf.Symtab

/-! Specification of what is reported with DWARF data. -/

set_option autoImplicit false

namespace Blazesym.Spec.Dwarf
open Blazesym.Symbolize (CodeInfo ResolvedSym SrcLang FindSymOpts InlinedFn)
open Blazesym.Dwarf (Inlined LineProgram MainUnit Function Entry Sections Header DieUnit Stream)

/-- The place of the call of an inlined function, if it is known: the file must be one of the line
program of the unit.  Columns above 65535 are reported as 65535. -/
def CallSite (main : MainUnit) (fn : Inlined) : Option CodeInfo → Prop
  | some ci => ∃ p i dir file, main.line = some p ∧ fn.callFile = some i ∧ FileIs main.compDir p i dir file ∧
      ci = { dir := some dir, file, line := some fn.callLine, column := some (min fn.callColumn 65535) }
  | none => ∀ p i dir file, main.line = some p → fn.callFile = some i → ¬ FileIs main.compDir p i dir file

/-- The unit declares the address. -/
def UnitFor (s : Sections) (addr : Nat) (h : Header) : Prop :=
  h ∈ s.headers ∧ ∃ r, Declares s h r ∧ r.start ≤ addr ∧ addr < r.stop

/-- The entries of a unit are those of its split unit, if it has one. -/
def EntriesOf (h : Header) (d : DieUnit) (stream : Stream) : Prop :=
  ∃ main, h.unit = .ok main ∧ (main.dwo = .ok (some d) ∨ (main.dwo = .ok none ∧ d = main.dies)) ∧
    d.entries none = .ok stream

/-- The unit has the function, and the function has the address in its code. -/
def FunctionFor (h : Header) (addr : Nat) (d : DieUnit) (x : Nat × Entry) : Prop :=
  ∃ stream, EntriesOf h d stream ∧ x ∈ functionsIn stream ∧ Covers x.2 addr

/-- The source location of the address according to the line program of a unit.  Lines and columns are
cut to 32 bits; columns above 65535 are reported as 65535; a row with line zero has neither. -/
def LocationFor (h : Header) (addr : Nat) (ci : CodeInfo) : Prop :=
  ∃ main p row dir file, h.unit = .ok main ∧ main.line = some p ∧ RowFor p.rows addr row ∧
    FileIs main.compDir p row.fileIndex dir file ∧
    ci = { dir := some dir, file,
           line := if row.line % 2 ^ 32 = 0 then none else some (row.line % 2 ^ 32),
           column := if row.line % 2 ^ 32 = 0 then none else some (min (row.column % 2 ^ 32) 65535) }

/-- The source location of an address according to the line programs of a file: one of a unit that declares
the address; there is none only if no such unit has one. -/
def LineAt (s : Sections) (addr : Nat) : Option CodeInfo → Prop
  | some ci => ∃ h, UnitFor s addr h ∧ LocationFor h addr ci
  | none => ∀ h, UnitFor s addr h → ∀ ci, ¬ LocationFor h addr ci

/-- The same if it is wanted. -/
def LineWanted (s : Sections) (addr : Nat) : FindSymOpts → Option CodeInfo → Prop
  | .basic, loc => loc = none
  | _, loc => LineAt s addr loc

/-- The locations of a function and of the functions inlined into it, one into the other, at `here`, given
the places of the calls: a function is at the place of the call of the next one, and the last one is `here`.
If the place of the first call is not known, the function itself is said to be `here`, and the place of the
last one is not known. -/
inductive Attributed (here : CodeInfo) : List (Option CodeInfo) → CodeInfo → List (Option CodeInfo) → Prop
  | direct : Attributed here [] here []
  | known (first : CodeInfo) (rest : List (Option CodeInfo)) :
      Attributed here (some first :: rest) first (rest ++ [some here])
  | lost (rest : List (Option CodeInfo)) : Attributed here (none :: rest) here (rest ++ [none])

/-- The inlined functions that are reported for an address, and the location of the function they are
inlined into: those of the tree of entries of the function that have the address, outermost first. -/
def InlinedAt (units : List Blazesym.Dwarf.Unit) (main : MainUnit) (d : DieUnit) (children : Dies) (addr : Nat)
    (here loc : CodeInfo) (fns : List InlinedFn) : Prop :=
  ∃ stack sites, List.Forall₂ (InlinedIs units d) (children.chain addr) stack ∧
    List.Forall₂ (CallSite main) stack sites ∧
    fns.map InlinedFn.name = stack.map (fun i => i.name.getD []) ∧
    Attributed here sites loc (fns.map InlinedFn.codeInfo)

/-- What is reported about the source for an address in the function whose entry is at `off` of the unit:
nothing, the location of the address, or the locations of the function and of the inlined functions the
address is in (if the entries of the function form a tree of nested pieces of code), as wanted.  Without a
location of the address there are no inlined functions. -/
inductive SourceOf (units : List Blazesym.Dwarf.Unit) (s : Sections) (h : Header) (d : DieUnit) (off addr : Nat) :
    FindSymOpts → Option CodeInfo → List InlinedFn → Prop
  | basic : SourceOf units s h d off addr .basic none []
  | line (loc : Option CodeInfo) : LineAt s addr loc → SourceOf units s h d off addr .codeInfo loc []
  | nowhere : LineAt s addr none → SourceOf units s h d off addr .codeInfoAndInlined none []
  | inlined (here loc : CodeInfo) (main : MainUnit) (fns : List InlinedFn) : LineAt s addr (some here) →
      h.unit = .ok main →
      (∀ children, FunctionAt d off children → children.Nested → InlinedAt units main d children addr here loc fns) →
      SourceOf units s h d off addr .codeInfoAndInlined (some loc) fns

/-- The headers are in the order of their offsets, as they are in the file. -/
def HeadersSorted (s : Sections) : Prop := s.headers.Pairwise (fun a b => a.offset < b.offset)

/-- All line programs are orderly. -/
def LinesOrderly (s : Sections) : Prop :=
  ∀ h ∈ s.headers, ∀ main p, h.unit = .ok main → main.line = some p → Orderly p.rows

/-- In no unit functions are nested. -/
def AllInOrder (s : Sections) : Prop :=
  ∀ h ∈ s.headers, ∀ d stream, EntriesOf h d stream → FunctionsInOrder stream

/-- The language an attribute value stands for. -/
def languageOf : Blazesym.Dwarf.AttrValue → Option Nat
  | .language v => some v
  | _ => none

/-- The languages with a way to mangle names that is known, by the numbers the DWARF standard and its
register of languages give them: 28 is Rust; 4, 25, 26, 33, 42 and 43 are C++ and its revisions of 2003,
2011, 2014, 2017 and 2020. -/
def languageName : Blazesym.Dwarf.AttrValue → SrcLang
  | .language v => if v = 28 then .rust else if v ∈ [4, 25, 26, 33, 42, 43] then .cpp else .unknown
  | _ => .unknown

/-- The language of a unit is the one its root entry states.  It is unknown if the entry states none, or if
there is no entry. -/
def WrittenIn (h : Header) (l : SrcLang) : Prop :=
  ∃ main, h.unit = .ok main ∧
    ((∃ e, RootEntry main e ∧
      ((∃ a ∈ e.attrs, a.name = .language ∧ l = languageName a.value) ∨
       ((∀ a ∈ e.attrs, a.name ≠ .language) ∧ l = .unknown))) ∨
     ((∀ e, ¬ RootEntry main e) ∧ l = .unknown))

/-- A symbol has the extent of an entry with contiguous code. -/
def ExtentOf (e : Entry) (sym : ResolvedSym) : Prop :=
  ∃ r, spanOf e.attrs = some r ∧ sym.addr = r.start ∧ sym.size = some (r.stop - r.start)

/-- What is reported about a function found by name or by listing all functions. -/
structure FunctionInfo (units : List Blazesym.Dwarf.Unit) (unit : Blazesym.Dwarf.DieUnit)
    (fileOffset : Nat → Nat → Except Err (Option Nat)) (wantsOffset : Bool) (x : Nat × Entry)
    (info : Elf.SymInfo) : Prop where
  name : HasName units unit x.2.attrs (some info.name)
  kind : info.symType = .function
  addr : info.addr = ((spanOf x.2.attrs).map (fun r => r.start)).getD 0
  size : info.size = some (((spanOf x.2.attrs).map (fun r => r.stop - r.start)).getD 0)
  offset : if wantsOffset then ∃ n, info.size = some n ∧ fileOffset info.addr n = .ok info.fileOffset
    else info.fileOffset = none

/-- All functions with code of a list of units, in order, each with the entries of its unit. -/
inductive AllFunctions : List Blazesym.Dwarf.Unit → List (DieUnit × (Nat × Entry)) → Prop
  | nil : AllFunctions [] []
  | cons {u us d stream xs} : EntriesOf u.header d stream → AllFunctions us xs →
      AllFunctions (u :: us) ((functionsIn stream).map (fun x => (d, x)) ++ xs)

/-- What is reported about the functions of a list that have a name. -/
inductive NamedInfos (units : List Blazesym.Dwarf.Unit) (fileOffset : Nat → Nat → Except Err (Option Nat))
    (wantsOffset : Bool) : List (DieUnit × (Nat × Entry)) → List Elf.SymInfo → Prop
  | nil : NamedInfos units fileOffset wantsOffset [] []
  | skip {d x xs infos} : HasName units d x.2.attrs none → NamedInfos units fileOffset wantsOffset xs infos →
      NamedInfos units fileOffset wantsOffset ((d, x) :: xs) infos
  | cons {d x xs info infos} : FunctionInfo units d fileOffset wantsOffset x info →
      NamedInfos units fileOffset wantsOffset xs infos →
      NamedInfos units fileOffset wantsOffset ((d, x) :: xs) (info :: infos)

end Blazesym.Spec.Dwarf
