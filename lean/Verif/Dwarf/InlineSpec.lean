import Verif.Dwarf.FunctionSpec

/-! Specification of inlined functions: entries form a tree. -/

set_option autoImplicit false

namespace Blazesym.Spec.Dwarf
open Blazesym.Dwarf (Attr AttrValue Entry DieUnit Range Stream Raw Inlined)

/-- A list of sibling entries, each with its offset, the offset of the end of its children, and its
children. -/
inductive Dies where
  | nil
  | node (off stop : Nat) (e : Entry) (children siblings : Dies)

/-- The entries in the order in which they are stored: an entry that can have children is followed by
them and by an entry that ends them. -/
def Dies.flat : Dies → Stream
  | .nil => []
  | .node off stop e children siblings =>
    (off, .entry e) :: ((if e.hasChildren then children.flat ++ [(stop, .null)] else []) ++ siblings.flat)

/-- Entries that cannot have children have none. -/
def Dies.WellFormed : Dies → Prop
  | .nil => True
  | .node _ _ e children siblings =>
    (e.hasChildren = false → children = .nil) ∧ children.WellFormed ∧ siblings.WellFormed

/-- The inlined functions among entries, with their depth: functions inlined into the function itself
are at depth `depth`, functions inlined into those one deeper, and so on.  Other functions nested in the
function are not part of it; entries of other kinds (lexical blocks, ...) do not count. -/
def Dies.inlined (depth : Nat) : Dies → List (Nat × Entry)
  | .nil => []
  | .node _ _ e children siblings =>
    (match e.tag with
      | .subprogram => []
      | .inlinedSubroutine => (depth, e) :: children.inlined (depth + 1)
      | .other => children.inlined depth) ++ siblings.inlined depth

/-- All functions inlined directly or indirectly. -/
def Dies.allInlined (t : Dies) : List Entry := (t.inlined 0).map Prod.snd

/-- The inlined functions an address is in, outermost first. -/
def Dies.chain (addr : Nat) : Dies → List Entry
  | .nil => []
  | .node _ _ e children siblings =>
    match e.tag with
    | .subprogram => siblings.chain addr
    | .inlinedSubroutine =>
      if (codeOf e.attrs).any (fun r => decide (r.start ≤ addr ∧ addr < r.stop)) then e :: children.chain addr
      else siblings.chain addr
    | .other => if children.chain addr = [] then siblings.chain addr else children.chain addr

/-- Two entries have no address in common. -/
def DisjointCode (e e' : Entry) : Prop := ∀ addr, Covers e addr → ¬ Covers e' addr

/-- The code of functions inlined into a function is part of its code, and functions inlined into the
same function are at different places; the ranges of a function do not overlap partially. -/
def Dies.Nested : Dies → Prop
  | .nil => True
  | .node _ _ e children siblings =>
    siblings.Nested ∧
    (match e.tag with
      | .subprogram => True
      | .inlinedSubroutine => children.Nested ∧
          (∀ r ∈ codeOf e.attrs, ∀ r' ∈ codeOf e.attrs, SameOrDisjoint r r') ∧
          (∀ e' ∈ children.allInlined, ∀ addr, Covers e' addr → Covers e addr) ∧
          (∀ e' ∈ siblings.allInlined, DisjointCode e e')
      | .other => children.Nested ∧ ∀ e' ∈ children.allInlined, ∀ e'' ∈ siblings.allInlined, DisjointCode e' e'')

/-- Functions inlined at the same depth are not nested. -/
def Dies.InOrder (t : Dies) : Prop :=
  ∀ depth e e', (depth, e) ∈ t.inlined 0 → (depth, e') ∈ t.inlined 0 →
    ∀ r ∈ codeOf e.attrs, ∀ r' ∈ codeOf e'.attrs, Spec.Dwarf.InOrder r r'

/-- The file of the call. -/
def callFile? (version : Nat) (a : Attr) : Option Nat :=
  match a.name, a.value with
  | .callFile, .fileIndex i => if i = 0 ∧ version < 5 then none else some i
  | _, _ => none

/-- The number an attribute value stands for, if any. -/
def number : AttrValue → Nat
  | .udata v => v
  | _ => 0

def callLine? (a : Attr) : Option Nat := if a.name = .callLine then some (number a.value) else none

def callColumn? (a : Attr) : Option Nat := if a.name = .callColumn then some (number a.value) else none

/-- What is reported about an inlined function is what its entry says.  Numbers are cut to 32 bits. -/
structure InlinedIs (units : List Blazesym.Dwarf.Unit) (unit : DieUnit) (e : Entry) (fn : Inlined) : Prop where
  name : HasName units unit e.attrs fn.name
  file : fn.callFile = lastOf (callFile? unit.version) e.attrs
  line : fn.callLine = ((lastOf callLine? e.attrs).getD 0) % 2 ^ 32
  column : fn.callColumn = ((lastOf callColumn? e.attrs).getD 0) % 2 ^ 32

/-- The entries can be decoded. -/
def Dies.Ok (units : List Blazesym.Dwarf.Unit) (unit : DieUnit) : Dies → Prop
  | .nil => True
  | .node _ _ e children siblings =>
    e.fail = none ∧ children.Ok units unit ∧ siblings.Ok units unit ∧
    (e.tag = .inlinedSubroutine → CodeOk e.attrs ∧
      ∀ a ∈ e.attrs, ∀ v, origin? a = some v → RefsOk units 16 unit v)

/-- At the offset there is the entry of a function, with the given children. -/
def FunctionAt (unit : DieUnit) (offset : Nat) (children : Dies) : Prop :=
  ∃ off stop e rest, unit.entries (some offset) =
      .ok ((off, .entry e) :: ((if e.hasChildren then children.flat ++ [(stop, .null)] else []) ++ rest)) ∧
    e.tag = .subprogram ∧ e.fail = none ∧ children.WellFormed ∧ (e.hasChildren = false → children = .nil)

end Blazesym.Spec.Dwarf
