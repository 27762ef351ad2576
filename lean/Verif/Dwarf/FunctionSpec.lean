import Verif.Dwarf.NamesSpec

/-! Specification of the functions of a unit. -/

set_option autoImplicit false

namespace Blazesym.Spec.Dwarf
open Blazesym.Dwarf (Entry DieUnit Range Stream Function Tag)

/-- The entries of functions. -/
def subprogram? : Nat × Blazesym.Dwarf.Raw → Option (Nat × Entry)
  | (off, .entry e) => if e.tag = .subprogram then some (off, e) else none
  | _ => none

/-- The functions that have code, with the offsets of their entries. -/
def functionsIn (stream : Stream) : List (Nat × Entry) :=
  (stream.filterMap subprogram?).filter (fun x => decide (codeOf x.2.attrs ≠ []))

/-- The address is in the code of the entry. -/
def Covers (e : Entry) (addr : Nat) : Prop := ∃ r ∈ codeOf e.attrs, r.start ≤ addr ∧ addr < r.stop

/-- What is reported about a function is what its entry says. -/
def Describes (units : List Blazesym.Dwarf.Unit) (unit : DieUnit) (x : Nat × Entry) (f : Function) : Prop :=
  f.offset = x.1 ∧ HasName units unit x.2.attrs f.name ∧ f.range = spanOf x.2.attrs

/-- Two ranges are the same or have no address in common. -/
def SameOrDisjoint (r r' : Range) : Prop := r = r' ∨ r.stop ≤ r'.start ∨ r'.stop ≤ r.start

/-- Of two ranges, the one that starts later does not end earlier, and if they start at the same address
they are the same.  They may overlap, but neither lies within the other (unless they end at the same
address). -/
def InOrder (r r' : Range) : Prop :=
  r = r' ∨ (r.start < r'.start ∧ r.stop ≤ r'.stop) ∨ (r'.start < r.start ∧ r'.stop ≤ r.stop)

/-- Functions are not nested: of two pieces of code, the one that starts later does not end earlier. -/
def FunctionsInOrder (stream : Stream) : Prop :=
  ∀ x ∈ functionsIn stream, ∀ y ∈ functionsIn stream, ∀ r ∈ codeOf x.2.attrs, ∀ r' ∈ codeOf y.2.attrs,
    InOrder r r'

/-- All entries of the stream, and the ranges and names of functions, can be decoded. -/
structure StreamOk (units : List Blazesym.Dwarf.Unit) (unit : DieUnit) (stream : Stream) : Prop where
  raw : ∀ x ∈ stream, ∀ e, x.2 ≠ .bad e
  entry : ∀ off e, (off, .entry e) ∈ stream → e.fail = none
  code : ∀ off e, (off, .entry e) ∈ stream → e.tag = .subprogram → CodeOk e.attrs
  name : ∀ off e, (off, .entry e) ∈ stream → e.tag = .subprogram →
    ∀ a ∈ e.attrs, ∀ v, origin? a = some v → RefsOk units 16 unit v

end Blazesym.Spec.Dwarf
