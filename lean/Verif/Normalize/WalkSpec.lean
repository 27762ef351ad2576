import Verif.Maps.Maps

/-!
Specification of the walk: every address on its own is looked up in the whole list of
mappings.
-/

set_option autoImplicit false

namespace Blazesym.Spec.Normalize
open Blazesym.Maps

/-- Mappings as the kernel lists them: not empty, ascending, disjoint. -/
def Listing (es : List Entry) : Prop :=
  es.Pairwise (fun a b => a.stop ≤ b.start) ∧ ∀ e ∈ es, e.start < e.stop

/-- The mapping an address lies in. -/
def mappingOf (es : List Entry) (addr : Nat) : Option Entry :=
  es.find? (fun e => decide (e.start ≤ addr) && decide (addr < e.stop))

/-- Treating one address after the other, each on its own: `inMapping` if it lies in a mapping,
`unknown` otherwise; the first failure ends it. -/
def each {S : Type} (unknown : Nat → S → S) (inMapping : Nat → Entry → S → Except Err S)
    (es : List Entry) : List Nat → S → Except Err S
  | [], s => .ok s
  | addr :: rest, s =>
    match mappingOf es addr with
    | none => each unknown inMapping es rest (unknown addr s)
    | some e =>
      match inMapping addr e s with
      | .error err => .error err
      | .ok s => each unknown inMapping es rest s

/-- What the kernel's PROCMAP_QUERY ioctl with the flag "covering or next" answers: the
mapping covering the address or else the next one. -/
def coveringOrNext (es : List Entry) (addr : Nat) : Option Entry :=
  es.find? (fun e => decide (addr < e.stop))

end Blazesym.Spec.Normalize
