import Verif.Dwarf.ResolverSpec
import Verif.Dwarf.Resolver

/-! Specification of DWARF units that are in order. -/

set_option autoImplicit false

namespace Blazesym.Spec.Dwarf
open Blazesym.Dwarf (LineProgram MainUnit Entry Sections Header DieUnit Stream Row)

/-- The line program can be decoded, is orderly, and its rows refer to its files. -/
structure LinesOk (p : LineProgram) : Prop where
  fail : p.fail = none
  files : FilesOk p
  rows : ∀ r ∈ p.rows, r.endSequence = false → r.fileIndex ≤ p.files.length
  orderly : Orderly p.rows

/-- A function is in order: its name is text, its end is not before its beginning, and the functions
inlined into it can be decoded, are nested, and have text as names. -/
structure FunctionOk (units : List Blazesym.Dwarf.Unit) (d : DieUnit) (x : Nat × Entry) : Prop where
  name : ∀ n, HasName units d x.2.attrs (some n) → isUtf8 n = true
  span : ∀ r, spanOf x.2.attrs = some r → r.start ≤ r.stop
  inlined : ∃ children, FunctionAt d x.1 children ∧ children.Nested ∧ children.Ok units d ∧
    ∀ addr, ∀ e ∈ children.chain addr, ∀ n, HasName units d e.attrs (some n) → isUtf8 n = true

/-- A unit is in order. -/
structure UnitOk (units : List Blazesym.Dwarf.Unit) (h : Header) : Prop where
  main : ∃ main, h.unit = .ok main ∧ (∃ e, RootEntry main e ∧ e.fail = none) ∧ ∀ p, main.line = some p → LinesOk p
  entries : ∃ d stream, EntriesOf h d stream ∧ StreamOk units d stream ∧ FunctionsInOrder stream ∧
    ∀ x ∈ functionsIn stream, FunctionOk units d x

end Blazesym.Spec.Dwarf
