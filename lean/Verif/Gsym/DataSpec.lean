import Verif.Gsym.CodeSpec

/-!
# Specification of what a GSYM file says about an address, whatever data its entries have
-/

set_option autoImplicit false

namespace Blazesym.Spec.Gsym
open Blazesym.Symbolize

/-- A line table for the code from `start` on: a header, and operators that stay in range. -/
structure IsLineTable (payload : Bytes) (start : Nat) (h : LineHdr) (ops : List LineOp) : Prop where
  header : h.InRange
  text : ∃ tail, EndsWith tail ∧ payload = h.bytes ++ encode ops ++ tail
  sane : Sane h (Gsym.start h start) ops

/-- The row of a line table for an address: the last one not above it.  (Beyond the last row, operators after it that
add no row change its file and line.) -/
inductive RowOf (h : LineHdr) (ops : List LineOp) (start addr : Nat) : Option Row → Prop
  | none : (∀ x ∈ rows h (Gsym.start h start) ops, addr < x.addr) → RowOf h ops start addr none
  | between (r : Row) (later : List Row) : IsLastNotAbove (rows h (Gsym.start h start) ops) addr r later → later ≠ [] →
      RowOf h ops start addr (some r)
  | last : rows h (Gsym.start h start) ops ≠ [] → (∀ x ∈ rows h (Gsym.start h start) ops, x.addr ≤ addr) →
      RowOf h ops start addr (some (final h (Gsym.start h start) ops))

/-- The row of the first line table of an entry that has one. -/
inductive FirstRow (start addr : Nat) : List Item → Option Row → Prop
  | nil : FirstRow start addr [] none
  | other (i : Item) (items : List Item) (row : Option Row) : i.typ ≠ 1 → FirstRow start addr items row →
      FirstRow start addr (i :: items) row
  | found (i : Item) (items : List Item) (h : LineHdr) (ops : List LineOp) (row : Row) : i.typ = 1 →
      IsLineTable i.payload start h ops → RowOf h ops start addr (some row) → FirstRow start addr (i :: items) (some row)
  | next (i : Item) (items : List Item) (h : LineHdr) (ops : List LineOp) (row : Option Row) : i.typ = 1 →
      IsLineTable i.payload start h ops → RowOf h ops start addr none → FirstRow start addr items row →
      FirstRow start addr (i :: items) row

/-- Inline information: a tree of functions, of which those that are looked at for an address are in range. -/
structure IsTree (payload : Bytes) (start addr : Nat) (root : Inlined) (children : Forest) : Prop where
  range : (Forest.cons root children .nil).InRange
  text : ∃ tail, payload = (Forest.cons root children .nil).bytes ++ tail
  valid : ∀ p ∈ (Forest.cons root children .nil).placed start [], p.Reached addr → p.Valid

/-- The named functions at an address, outermost first, of the first inline information of an entry that has any. -/
inductive FirstCalls (start addr : Nat) : List Item → List Placed → Prop
  | nil : FirstCalls start addr [] []
  | other (i : Item) (items : List Item) (calls : List Placed) : i.typ ≠ 2 → FirstCalls start addr items calls →
      FirstCalls start addr (i :: items) calls
  | found (i : Item) (items : List Item) (root : Inlined) (children : Forest) : i.typ = 2 →
      IsTree i.payload start addr root children → (Forest.cons root children .nil).named start addr ≠ [] →
      FirstCalls start addr (i :: items) ((Forest.cons root children .nil).named start addr)
  | next (i : Item) (items : List Item) (root : Inlined) (children : Forest) (calls : List Placed) : i.typ = 2 →
      IsTree i.payload start addr root children → (Forest.cons root children .nil).named start addr = [] →
      FirstCalls start addr items calls → FirstCalls start addr (i :: items) calls

/-- The line tables and the inline information of an entry are what they should be. -/
structure ItemsReadable (items : List Item) (start addr : Nat) : Prop where
  lines : ∀ i ∈ items, i.typ = 1 → ∃ h ops, IsLineTable i.payload start h ops
  trees : ∀ i ∈ items, i.typ = 2 → ∃ root children, IsTree i.payload start addr root children

/-- Entry `i` of the file starts at `start`, has the given size, name and data. -/
def EntryAt (d : Bytes) (f : GsymFile) (i start size : Nat) (name : Bytes) (items : List Item) : Prop :=
  ∃ o info nm tail, f.offsets[i]? = some o ∧ start = f.base + o ∧ f.infos[i]? = some info ∧
    InfoAt d info size nm ∧ NameAt f.strs nm name ∧ isUtf8 name = true ∧
    d.drop (info + 8) = items.flatMap Item.bytes ++ tail ∧ ItemsEnd tail ∧ ∀ i ∈ items, i.InRange

/-- The name, the source location and the inlined functions reported for an address of an entry with a name.  If
functions are inlined, the name is that of the outermost one of the inline information (the entry's own function); the
locations move outwards: a function is reported with the place at which it calls the next. -/
inductive LocatedIn (f : GsymFile) (start addr : Nat) (items : List Item) (name : Bytes) :
    FindSymOpts → Bytes → Option CodeInfo → List InlinedFn → Prop
  | off : LocatedIn f start addr items name .basic name none []
  | noRow (opts : FindSymOpts) : opts ≠ .basic → FirstRow start addr items none →
      LocatedIn f start addr items name opts name none []
  | line (row : Row) (here : CodeInfo) : FirstRow start addr items (some row) → SiteIs f row.file row.line.toNat here →
      LocatedIn f start addr items name .codeInfo name (some here) []
  | alone (row : Row) (here : CodeInfo) : FirstRow start addr items (some row) → FirstCalls start addr items [] →
      SiteIs f row.file row.line.toNat here →
      LocatedIn f start addr items name .codeInfoAndInlined name (some here) []
  | inlined (row : Row) (here : CodeInfo) (outer : Placed) (inner : List Placed) (outerName : Bytes) (sites : List CodeInfo)
      (ci : Option CodeInfo) (fns : List InlinedFn) :
      FirstRow start addr items (some row) → SiteIs f row.file row.line.toNat here →
      FirstCalls start addr items (outer :: inner) → NameAt f.strs outer.fn.name outerName →
      List.Forall₂ (fun p n => NameAt f.strs p.fn.name n) inner (fns.map InlinedFn.name) →
      List.Forall₂ (fun p ci => SiteIs f p.fn.callFile (min p.fn.callLine (2 ^ 32 - 1)) ci) inner sites →
      ci :: fns.map InlinedFn.codeInfo = (sites ++ [here]).map some →
      LocatedIn f start addr items name .codeInfoAndInlined outerName ci fns

/-- The files and the functions that the data of an entry refers to for an address are those of the file, and their names
are UTF-8. -/
structure AllKnown (f : GsymFile) (start addr : Nat) (items : List Item) : Prop where
  row : ∀ row, FirstRow start addr items (some row) → ∃ ci, SiteIs f row.file row.line.toNat ci
  calls : ∀ calls, FirstCalls start addr items calls → ∀ p ∈ calls,
    (∃ n, NameAt f.strs p.fn.name n ∧ isUtf8 n = true) ∧ ∃ ci, SiteIs f p.fn.callFile (min p.fn.callLine (2 ^ 32 - 1)) ci

end Blazesym.Spec.Gsym
