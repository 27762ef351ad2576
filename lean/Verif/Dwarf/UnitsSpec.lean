import Verif.Dwarf.LinesSpec
import Verif.Dwarf.CodeSpec

/-! Specification of the address ranges units declare. -/

set_option autoImplicit false

namespace Blazesym.Spec.Dwarf
open Blazesym.Dwarf (Range Sections Header MainUnit Entry)

/-- `.debug_aranges` has the range for the unit at the offset. -/
def InAranges (s : Sections) (offset : Nat) (r : Range) : Prop :=
  ∃ set ∈ s.aranges, set.infoOffset = offset ∧ ∃ items, set.items = .ok items ∧ .ok r ∈ items ∧
    r.start < r.stop

/-- The root entry of a unit. -/
def RootEntry (main : MainUnit) (e : Entry) : Prop :=
  ∃ off rest, main.dies.entries none = .ok ((off, .entry e) :: rest)

/-- A sequence of the line program of the unit covers the range. -/
def LineRange (main : MainUnit) (r : Range) : Prop :=
  ∃ prog, main.line = some prog ∧ prog.fail = none ∧ FilesOk prog ∧
    ∃ pos seq, SequenceAt prog.rows pos seq r.stop ∧ StartsAt seq r.start

/-- A unit declares the range: in `.debug_aranges`, or else in its root entry, or else by its line
program. -/
def Declares (s : Sections) (h : Header) (r : Range) : Prop :=
  h.inInfo = true ∧ h.kind = .compile ∧
    (InAranges s h.offset r ∨
     ((∀ r', ¬ InAranges s h.offset r') ∧ ∃ main e, h.unit = .ok main ∧ RootEntry main e ∧
       (r ∈ codeOf e.attrs ∨ (codeOf e.attrs = [] ∧ LineRange main r))))

/-- The unit is kept: it is in `.debug_info`, not a type unit, and if it is not a partial unit and
has no ranges in `.debug_aranges`, it can be decoded and has a root entry. -/
def Kept (s : Sections) (h : Header) : Prop :=
  h.inInfo = true ∧ (h.kind = .partialUnit ∨
    (h.kind = .compile ∧ ((∃ r, InAranges s h.offset r) ∨ ∃ main e, h.unit = .ok main ∧ RootEntry main e)))

/-- The ranges of a unit can be decoded. -/
structure HeaderOk (s : Sections) (h : Header) : Prop where
  sets : ∀ set ∈ s.aranges, set.infoOffset = h.offset → ∃ items, set.items = .ok items
  entries : (∀ r, ¬ InAranges s h.offset r) → ∀ main, h.unit = .ok main →
    ∃ off raw rest, main.dies.entries none = .ok ((off, raw) :: rest) ∧
      (raw = .null ∨ ∃ e, raw = .entry e ∧ e.fail = none ∧ CodeOk e.attrs)

/-- All units can be decoded as far as needed to determine their ranges. -/
structure SectionsOk (s : Sections) : Prop where
  aranges : s.arangesFail = none
  headers : s.headersFail = none
  units : ∀ h ∈ s.headers, h.inInfo = true → h.kind = .compile → HeaderOk s h

end Blazesym.Spec.Dwarf
