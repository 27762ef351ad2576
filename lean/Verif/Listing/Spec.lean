import Verif.Elf.NameSpec
import Verif.CApi.Inspect

/-! Listings of symbols, for comparison with what is found by name. -/

set_option autoImplicit false

namespace Blazesym.Spec.Listing

/-- A callback that remembers what it was given, and never asks to stop. -/
def collect {X : Type} (l : List X) (i : X) : List X × Bool := (l ++ [i], false)

/-- The entries of a listing that have a name. -/
def named (name : Bytes) (all : List Elf.SymInfo) : List Elf.SymInfo := all.filter (fun i => decide (i.name = name))

/-- The entries that have a name, as an inspector reports them, apart from the module. -/
def namedIn (name : Bytes) (all : List CApi.SymInfo) : List CApi.SymInfo :=
  (all.filter (fun i => decide (i.name = name))).map (fun i => { i with module := none })

/-- A symbol table has a symbol of this name: one of a supported type that is defined in the file. -/
def Has (t : Elf.SymTab) (name : Bytes) : Prop :=
  ∃ s ∈ t.syms, Spec.Elf.Supported s ∧ Spec.Elf.Defined s ∧ NameAt t.strs s.name name

end Blazesym.Spec.Listing
