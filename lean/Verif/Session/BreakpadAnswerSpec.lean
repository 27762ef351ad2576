import Verif.Session.AnswerSpec
import Verif.Breakpad.Spec

/-!
# Specification of what is reported for an offset from the text of a Breakpad symbol file
-/

set_option autoImplicit false

namespace Blazesym.Spec.Symbolize
open Blazesym.Symbolize Blazesym.Util Blazesym.Breakpad Blazesym.Spec.Breakpad

/-- The function that a lookup goes by: one that covers the address, and no other starts between its start and the
address. -/
def RecordFor (rs : List Record) (addr : Nat) (f : Function) : Prop :=
  f ∈ functions rs ∧ Covers f.addr f.size addr ∧ IsLastStart (fun f => f.addr) (functions rs) addr f.addr

/-- The source location `ci` is line `line` of the file with number `id`. -/
def SiteOf (rs : List Record) (id line : Nat) (ci : CodeInfo) : Prop :=
  ∃ path dir, latest (files rs) id = some path ∧ components path = components dir ++ [ci.file] ∧ dir <+: path ∧
    ci.dir = (if dir = [] then none else some dir) ∧ ci.line = some line ∧ ci.column = none

/-- Inlined calls of one depth do not overlap, are not empty and do not reach the end of the address space. -/
structure OrderlyCalls (f : Function) : Prop where
  disjoint : ∀ e ∈ f.inlinees, ∀ e' ∈ f.inlinees, e.depth = e'.depth → e ≠ e' →
    e.addr + e.size ≤ e'.addr ∨ e'.addr + e'.size ≤ e.addr
  nonempty : ∀ e ∈ f.inlinees, e.size ≠ 0
  fits : ∀ e ∈ f.inlinees, e.addr + e.size < 2 ^ 64

/-- The calls that are inlined at an address, outermost first: for every depth, from 0 on, the one that contains the
address, until there is none. -/
structure CallsAt (f : Function) (addr : Nat) (calls : List Inlinee) : Prop where
  each : ∀ (i : Nat) e, calls[i]? = some e → e ∈ f.inlinees ∧ e.depth = i ∧ Contains e addr ∧
    ∀ e' ∈ f.inlinees, e'.depth = i → e'.addr ≤ addr → e'.addr ≤ e.addr
  all : OrderlyCalls f → ¬ ∃ e ∈ f.inlinees, e.depth = calls.length ∧ Contains e addr

/-- The source location and the inlined functions reported for an address of a function.  The locations of the
calls and of the address itself move outwards: a function is reported with the place at which it calls the next. -/
inductive LocatedIn (shown : Bytes → Bytes) (rs : List Record) (f : Function) (addr : Nat) :
    FindSymOpts → Option CodeInfo → List InlinedFn → Prop
  | off : LocatedIn shown rs f addr .basic none []
  | none (opts : FindSymOpts) : opts ≠ .basic → (¬ ∃ l, LineFor f addr l) → LocatedIn shown rs f addr opts none []
  | line (l : SourceLine) (ci : CodeInfo) : LineFor f addr l → SiteOf rs l.file l.line ci →
      LocatedIn shown rs f addr .codeInfo (some ci) []
  | inlined (l : SourceLine) (here : CodeInfo) (calls : List Inlinee) (sites : List CodeInfo) (names : List Bytes)
      (ci : Option CodeInfo) (fns : List InlinedFn) :
      LineFor f addr l → SiteOf rs l.file l.line here → CallsAt f addr calls →
      List.Forall₂ (fun i ci => SiteOf rs i.callFile i.callLine ci) calls sites →
      List.Forall₂ (fun i n => latest (origins rs) i.originId = some n) calls names →
      fns.map InlinedFn.name = names.map shown →
      ci :: fns.map InlinedFn.codeInfo = (sites ++ [here]).map some →
      LocatedIn shown rs f addr .codeInfoAndInlined ci fns

/-- What is reported for an offset according to the records of a symbol file. -/
inductive InBreakpad (shown : Bytes → Bytes) (opts : FindSymOpts) (rs : List Record) (addr : Nat) : Symbolized → Prop
  | func (f : Function) (ci : Option CodeInfo) (fns : List InlinedFn) : RecordFor rs addr f →
      LocatedIn shown rs f addr opts ci fns →
      InBreakpad shown opts rs addr (.sym ⟨shown f.name, module? rs, f.addr, addr - f.addr, some f.size, ci, fns⟩)
  | unknown : (¬ ∃ f, RecordFor rs addr f) → functions rs ≠ [] → InBreakpad shown opts rs addr (.unknown .unknownAddr)
  | missing : functions rs = [] → InBreakpad shown opts rs addr (.unknown .missingSyms)

/-- No function and no line that starts at or below the address reaches the end of the address space, and no function
has more than 2^32 inlined calls. -/
structure FitsAt (rs : List Record) (addr : Nat) : Prop where
  functions : Breakpad.Fits (fun f : Function => f.addr) (fun f => f.size) (Breakpad.functions rs) addr
  lines : ∀ f ∈ Breakpad.functions rs, Breakpad.Fits (fun l : SourceLine => l.addr) (fun l => l.size) f.lines addr
  calls : ∀ f ∈ Breakpad.functions rs, f.inlinees.length < 2 ^ 32

/-- A number is that of a source file, and its path has a file name. -/
def NamedFile (rs : List Record) (id : Nat) : Prop := ∃ path, latest (files rs) id = some path ∧ components path ≠ []

/-- All files and inlined functions that are referred to have names. -/
structure AllNamed (rs : List Record) : Prop where
  lines : ∀ f ∈ functions rs, ∀ l ∈ f.lines, NamedFile rs l.file
  calls : ∀ f ∈ functions rs, ∀ i ∈ f.inlinees, NamedFile rs i.callFile ∧ (latest (origins rs) i.originId).isSome

end Blazesym.Spec.Symbolize
