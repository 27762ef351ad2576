import Verif.Dwarf.Data

/-! Specification of the attributes of debugging information entries: the code of an entry. -/

set_option autoImplicit false

namespace Blazesym.Spec.Dwarf
open Blazesym.Dwarf (Attr AttrName AttrValue Range RangeList)

/-- The last of the values attributes have. -/
def lastOf {α : Type} (f : Attr → Option α) (attrs : List Attr) : Option α := (attrs.filterMap f).getLast?

/-- An attribute giving the lowest address. -/
def lowPc? (a : Attr) : Option Nat :=
  match a.name, a.value with
  | .lowPc, .addr v => some v
  | .lowPc, .addrIndex (.ok v) => some v
  | _, _ => none

/-- An attribute giving the end address. -/
def highPc? (a : Attr) : Option Nat :=
  match a.name, a.value with
  | .highPc, .addr v => some v
  | .highPc, .addrIndex (.ok v) => some v
  | _, _ => none

/-- An attribute giving the length of the code. -/
def length? (a : Attr) : Option Nat :=
  match a.name, a.value with
  | .highPc, .udata v => some v
  | _, _ => none

/-- An attribute giving a list of ranges. -/
def rangeList? (a : Attr) : Option (Option RangeList) :=
  match a.name, a.value with
  | .ranges, .rangeList (.ok l) => some (some l)
  | .ranges, _ => some none
  | _, _ => none

/-- The list of ranges of an entry. -/
def rangesOf (attrs : List Attr) : Option RangeList := (lastOf rangeList? attrs).join

/-- The contiguous code of an entry: from its lowest address to its end address or for its length. -/
def spanOf (attrs : List Attr) : Option Range :=
  match lastOf lowPc? attrs with
  | none => none
  | some start =>
    match lastOf highPc? attrs with
    | some stop => some ⟨start, stop⟩
    | none => (lastOf length? attrs).map (fun n => ⟨start, start + n⟩)

/-- The code of an entry: its ranges that are not empty.  A list of ranges takes precedence. -/
def codeOf (attrs : List Attr) : List Range :=
  (match rangesOf attrs with
    | some l => l.items
    | none => (spanOf attrs).toList).filter (fun r => decide (r.start < r.stop))

/-- The attributes for the code of an entry can be decoded, and its code does not go beyond the end
of the address space. -/
structure CodeOk (attrs : List Attr) : Prop where
  address : ∀ a ∈ attrs, (a.name = .lowPc ∨ a.name = .highPc) → ∀ e, a.value ≠ .addrIndex (.error e)
  list : ∀ a ∈ attrs, a.name = .ranges → ∀ e, a.value ≠ .rangeList (.error e)
  items : ∀ l, rangesOf attrs = some l → l.fail = none
  bound : ∀ r, spanOf attrs = some r → lastOf highPc? attrs = none → r.stop < 2 ^ 64

end Blazesym.Spec.Dwarf
