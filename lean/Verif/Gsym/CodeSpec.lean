import Verif.Gsym.Spec
import Verif.Gsym.LineSpec
import Verif.Gsym.InlineSpec
import Verif.Symbolize.Types
import Verif.Util.Sort

/-! Specification of the data of a GSYM entry beyond its size and name. -/

set_option autoImplicit false

namespace Blazesym.Spec.Gsym
open Blazesym.Symbolize

/-- A piece of data of an entry: 1 is a line table, 2 is inline information. -/
structure Item where
  typ : Nat
  payload : Bytes
  deriving DecidableEq, Repr

/-- Type, length, payload. -/
def Item.bytes (i : Item) : Bytes := le4 i.typ ++ (le4 i.payload.length ++ i.payload)

/-- Type zero is the end marker. -/
def Item.InRange (i : Item) : Prop := i.typ ≠ 0 ∧ i.typ < 2 ^ 32 ∧ i.payload.length < 2 ^ 32

/-- The bytes after the last item: an end marker followed by anything, or an item that is
cut off. -/
def ItemsEnd (tail : Bytes) : Prop :=
  (∃ t, tail = le4 0 ++ t) ∨ tail.length < 4 ∨
    (∃ t l, tail = le4 t ++ l ∧ t < 2 ^ 32 ∧ l.length < 4) ∨
    ∃ t n p, tail = le4 t ++ (le4 n ++ p) ∧ t < 2 ^ 32 ∧ n < 2 ^ 32 ∧ p.length < n

/-- Line `line` of file number `idx`. -/
def SiteIs (f : GsymFile) (idx line : Nat) (ci : CodeInfo) : Prop :=
  ∃ p dir file, f.files[idx]? = some p ∧ NameAt f.strs p.1 dir ∧ NameAt f.strs p.2 file ∧
    ci = { dir := some dir, file, line := some line, column := none }

/-- The named functions inlined at an address, outermost first. -/
def Forest.named (f : Forest) (base addr : Nat) : List Placed :=
  (f.at base addr).filter fun p => decide (p.fn.name ≠ 0)

/-- The bytes `d` are a GSYM file in which `addr` belongs to exactly one entry, which has the
given start, size, name and data. -/
structure Entry (d : Bytes) (f : GsymFile) (addr start size : Nat) (name : Bytes)
    (items : List Item) : Prop where
  file : Describes d f
  width : f.width = 1 ∨ f.width = 2 ∨ f.width = 4 ∨ f.width = 8
  sorted : Ascending f
  range : addr < 2 ^ 64
  entry : ∃ (i o info nm : Nat) (tail : Bytes), f.offsets[i]? = some o ∧ start = f.base + o ∧
    f.infos[i]? = some info ∧ InfoAt d info size nm ∧ NameAt f.strs nm name ∧
    (∀ j, f.offsets[j]? = f.offsets[i]? → j = i) ∧
    d.drop (info + 8) = items.flatMap Item.bytes ++ tail ∧ ItemsEnd tail
  utf8 : isUtf8 name = true
  greatest : IsGreatestStart f addr start
  covers : size = 0 ∨ (addr < start + size ∧ start + size < 2 ^ 64)
  itemRange : ∀ i ∈ items, i.InRange

end Blazesym.Spec.Gsym
