import Verif.Elf.NameSpec
import Verif.Symbolize.Convert

/-! What it means that answers about names and about addresses belong together. -/

set_option autoImplicit false

namespace Blazesym.Spec.TwoWay
open Blazesym.Elf

/-- The start, in the answer to an address query, is the one that was reported for a name, and
what was found there is not smaller. -/
def StartsThere (info : SymInfo) (r : ResolvedSym) : Prop :=
  r.addr = info.addr ∧ info.size.getD 0 ≤ r.size.getD 0

/-- The answers for a name contain the symbol that was reported for an address: its name, its
start and its size (where zero stands for an unknown one). -/
def Lists (res : List SymInfo) (name : Bytes) (start size : Nat) : Prop :=
  ∃ info ∈ res, info.name = name ∧ info.addr = start ∧ info.size.getD 0 = size

/-- An address is reported as the start of a symbol. -/
def IsStart (addr : Nat) (out : Symbolize.Symbolized) : Prop := ∃ y, out = .sym y ∧ y.addr = addr ∧ y.offset = 0

end Blazesym.Spec.TwoWay
