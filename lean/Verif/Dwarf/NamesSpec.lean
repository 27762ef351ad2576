import Verif.Dwarf.Function
import Verif.Dwarf.CodeSpec

/-! Specification of the names of functions. -/

set_option autoImplicit false

namespace Blazesym.Spec.Dwarf
open Blazesym.Dwarf (Attr AttrName AttrValue Entry DieUnit)

/-- An attribute with a linkage name. -/
def linkage? (a : Attr) : Option Bytes :=
  match a.name, a.value with
  | .linkageName, .string v => some v
  | .mipsLinkageName, .string v => some v
  | _, _ => none

/-- An attribute with a plain name. -/
def plain? (a : Attr) : Option Bytes :=
  match a.name, a.value with
  | .name, .string v => some v
  | _, _ => none

/-- An attribute referring to another entry that has further attributes. -/
def origin? (a : Attr) : Option AttrValue :=
  match a.name with
  | .abstractOrigin => some a.value
  | .specification => some a.value
  | _ => none

/-- The entry has the name itself.  A linkage name takes precedence. -/
def Named (e : Entry) (n : Bytes) : Prop :=
  (e.attrs.filterMap linkage?).head? = some n ∨
  ((e.attrs.filterMap linkage?) = [] ∧ e.fail = none ∧ lastOf plain? e.attrs = some n)

/-- The entry has no name itself. -/
def Unnamed (e : Entry) : Prop :=
  e.attrs.filterMap linkage? = [] ∧ e.attrs.filterMap plain? = [] ∧ e.fail = none

/-- The unit has the entry at the offset. -/
def EntryAt (unit : DieUnit) (offset : Nat) (e : Entry) : Prop :=
  ∃ o rest, unit.entries (some offset) = .ok ((o, .entry e) :: rest)

/-- The offset in `.debug_info` is that of an entry of a unit, at another offset relative to the unit:
the unit is the last one that does not begin after the offset, and there is no entry at its beginning. -/
def Located (units : List Blazesym.Dwarf.Unit) (offset : Nat) (unit : DieUnit) (rel : Nat) : Prop :=
  ∃ u ∈ units, u.header.offset < offset ∧
    (∀ v ∈ units, v.header.offset ≤ offset → v.header.offset ≤ u.header.offset) ∧
    rel = offset - u.header.offset ∧ u.header.valid rel = true ∧ u.unitRef = .ok unit

/-- The value of an attribute refers to an entry. -/
def Points (units : List Blazesym.Dwarf.Unit) (unit : DieUnit) (v : AttrValue) (unit' : DieUnit) (e : Entry) : Prop :=
  (∃ off, v = .unitRef off ∧ unit' = unit ∧ EntryAt unit off e) ∨
  (∃ off rel, v = .infoRef off ∧ Located units off unit' rel ∧ EntryAt unit' rel e)

/-- Following a number of references one arrives at an entry with a name; the entries on the way have
none. -/
inductive NameAfter (units : List Blazesym.Dwarf.Unit) : Nat → DieUnit → AttrValue → Bytes → Prop
  | here {unit v unit' e n} : Points units unit v unit' e → Named e n → NameAfter units 1 unit v n
  | step {k unit v unit' e w n} : Points units unit v unit' e → Unnamed e →
      lastOf origin? e.attrs = some w → NameAfter units k unit' w n → NameAfter units (k + 1) unit v n

/-- The attribute gives the name to an entry that has no linkage name: it is the plain name, or the
name found by following at most sixteen references. -/
def SoftName (units : List Blazesym.Dwarf.Unit) (unit : DieUnit) (a : Attr) (n : Bytes) : Prop :=
  plain? a = some n ∨ ∃ v k, origin? a = some v ∧ k ≤ 16 ∧ NameAfter units k unit v n

/-- The name of a function: the linkage name, or else what the first suitable attribute says. -/
def HasName (units : List Blazesym.Dwarf.Unit) (unit : DieUnit) (attrs : List Attr) (name : Option Bytes) : Prop :=
  match lastOf linkage? attrs, name with
  | some n, name => name = some n
  | none, some n => ∃ pre a post, attrs = pre ++ a :: post ∧ SoftName units unit a n ∧
      ∀ b ∈ pre, ∀ m, ¬ SoftName units unit b m
  | none, none => ∀ b ∈ attrs, ∀ m, ¬ SoftName units unit b m

/-- The units are in the order of their offsets (as their headers are). -/
def UnitsSorted (units : List Blazesym.Dwarf.Unit) : Prop :=
  units.Pairwise (fun a b => a.header.offset < b.header.offset)

/-- The value is not a reference. -/
def NoRef (v : AttrValue) : Prop := (∀ o, v ≠ .unitRef o) ∧ ∀ o, v ≠ .infoRef o

/-- All entries on the way can be decoded. -/
def RefsOk (units : List Blazesym.Dwarf.Unit) : Nat → DieUnit → AttrValue → Prop
  | 0, _, _ => True
  | k + 1, unit, v => NoRef v ∨ ∃ unit' e, Points units unit v unit' e ∧
      ((∃ n, Named e n) ∨
        (Unnamed e ∧ ∀ w, lastOf origin? e.attrs = some w → RefsOk units k unit' w))

end Blazesym.Spec.Dwarf
