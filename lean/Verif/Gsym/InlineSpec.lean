import Verif.Util.ReaderSpec

/-! Specification of GSYM inline information: trees of inlined functions, their encoding and
the functions inlined at an address. -/

set_option autoImplicit false

namespace Blazesym.Spec.Gsym

/-- An inlined function: its code ranges (offset, size), relative to the start of the
enclosing function; a byte that is zero if nothing is inlined into it; the offset of its name
in the string table (zero if there is none); file and line it is called from. -/
structure Inlined where
  ranges : List (Nat × Nat)
  flag : UInt8
  name : Nat
  callFile : Nat
  callLine : Nat
  deriving DecidableEq, Repr

/-- Functions inlined into the same function: a first one, with the functions inlined into
it, and the rest. -/
inductive Forest where
  | nil
  | cons (fn : Inlined) (children rest : Forest)
  deriving Repr

/-- Four bytes, little endian. -/
def le4 (n : Nat) : Bytes :=
  [UInt8.ofNat (n % 256), UInt8.ofNat (n / 256 % 256), UInt8.ofNat (n / 65536 % 256),
    UInt8.ofNat (n / 16777216 % 256)]

/-- The encoding of an inlined function itself. -/
def Inlined.bytes (i : Inlined) : Bytes :=
  uleb i.ranges.length ++ i.ranges.flatMap (fun r => uleb r.1 ++ uleb r.2) ++ [i.flag] ++
    le4 i.name ++ uleb i.callFile ++ uleb i.callLine

/-- The encoding of functions inlined into the same function; the children of a function
follow it and end with a zero. -/
def Forest.bytes : Forest → Bytes
  | .nil => []
  | .cons i ch rest =>
    i.bytes ++ ((if i.flag ≠ 0 then ch.bytes ++ [0] else []) ++ rest.bytes)

/-- The members of a function are representable. -/
def Inlined.InRange (i : Inlined) : Prop :=
  i.ranges ≠ [] ∧ i.ranges.length < 2 ^ 64 ∧ (∀ r ∈ i.ranges, r.1 < 2 ^ 64 ∧ r.2 < 2 ^ 64) ∧
    i.name < 2 ^ 32 ∧ i.callFile < 2 ^ 64 ∧ i.callLine < 2 ^ 64

/-- All members are representable, and nothing is inlined into a function that says so. -/
def Forest.InRange : Forest → Prop
  | .nil => True
  | .cons i ch rest => i.InRange ∧ (i.flag = 0 → ch = .nil) ∧ ch.InRange ∧ rest.InRange

/-- The code ranges (first address, address after the last) of a function. -/
def Inlined.code (i : Inlined) (base : Nat) : List (Nat × Nat) :=
  i.ranges.map fun r => (base + r.1, base + r.1 + r.2)

/-- Where the ranges of the functions inlined into `i` are relative to. -/
def Inlined.base (i : Inlined) (base : Nat) : Nat := base + (i.ranges.head?.map Prod.fst).getD 0

/-- An inlined function in its place. -/
structure Placed where
  fn : Inlined
  /-- Its code ranges. -/
  code : List (Nat × Nat)
  /-- The code ranges of the inlined functions around it, innermost first. -/
  around : List (List (Nat × Nat))
  deriving DecidableEq, Repr

/-- All inlined functions, a function before the functions inlined into it. -/
def Forest.placed (base : Nat) (around : List (List (Nat × Nat))) : Forest → List Placed
  | .nil => []
  | .cons i ch rest =>
    ⟨i, i.code base, around⟩ ::
      (ch.placed (i.base base) (i.code base :: around) ++ rest.placed base around)

/-- An address lies in one of some code ranges. -/
def Covers (addr : Nat) (code : List (Nat × Nat)) : Prop := ∃ r ∈ code, r.1 ≤ addr ∧ addr < r.2

instance (addr : Nat) (code : List (Nat × Nat)) : Decidable (Covers addr code) := by
  unfold Covers; infer_instance

/-- All functions around a function contain the address. -/
def Placed.Reached (p : Placed) (addr : Nat) : Prop := ∀ c ∈ p.around, Covers addr c

/-- A function and all functions around it contain the address. -/
def Placed.Holds (p : Placed) (addr : Nat) : Prop := Covers addr p.code ∧ p.Reached addr

instance (p : Placed) (addr : Nat) : Decidable (p.Reached addr) := by
  unfold Placed.Reached; infer_instance

instance (p : Placed) (addr : Nat) : Decidable (p.Holds addr) := by
  unfold Placed.Holds; infer_instance

/-- The functions inlined at an address, outermost first. -/
def Forest.at (f : Forest) (base addr : Nat) : List Placed :=
  (f.placed base []).filter fun p => decide (p.Holds addr)

/-- The ranges end within the address space and the file index is a 32 bit number. -/
def Placed.Valid (p : Placed) : Prop := (∀ r ∈ p.code, r.2 < 2 ^ 64) ∧ p.fn.callFile < 2 ^ 32

/-- Functions inlined into the same function do not share the address. -/
def Forest.Disjoint (addr base : Nat) : Forest → Prop
  | .nil => True
  | .cons i ch rest =>
    (Covers addr (i.code base) → ∀ p ∈ rest.placed base [], p.around = [] → ¬ Covers addr p.code) ∧
      ch.Disjoint addr (i.base base) ∧ rest.Disjoint addr base

end Blazesym.Spec.Gsym
