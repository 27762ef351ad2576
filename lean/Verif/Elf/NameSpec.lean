import Verif.Elf.SymtabSpec

/-! Specification vocabulary for name lookup and iteration of ELF symbols. -/

set_option autoImplicit false

namespace Blazesym.Spec.Elf
open Blazesym.Elf

/-- `res` has exactly one entry for each symbol of the table that satisfies `P`, and that
entry describes the symbol.  (Symbols are told apart by their position in the table.) -/
def ReportsExactly (t : SymTab) (P : Sym → Prop) (describes : Sym → SymInfo → Prop)
    (res : List SymInfo) : Prop :=
  ∃ is : List Nat, is.Nodup ∧ (∀ i, i ∈ is ↔ ∃ s, t.syms[i]? = some s ∧ P s) ∧
    List.Forall₂ (fun i r => ∃ s, t.syms[i]? = some s ∧ describes s r) is res

/-- The reported kind: functions (including indirect ones) and variables by their ELF type,
untyped symbols as undefined. -/
def KindOf (s : Sym) (ty : SymType) : Prop :=
  (ty = .function ∧ (s.info % 16 = 2 ∨ s.info % 16 = 10)) ∨
  (ty = .variable ∧ s.info % 16 = 1) ∨ (ty = .undefined ∧ s.info % 16 = 0)

/-- `r` describes the symbol `s` of a table with string table `strs`. -/
def Describes (opts : FindAddrOpts) (shdrs : List Shdr) (strs : Bytes) (s : Sym) (r : SymInfo) :
    Prop :=
  NameAt strs s.name r.name ∧ r.addr = s.value ∧ r.size = some s.size ∧ KindOf s r.symType ∧
    (opts.fileOffset = true → fileOffset shdrs s = .ok r.fileOffset) ∧
    (opts.fileOffset = false → r.fileOffset = none)

/-- Feeding a sequence to a callback until it asks to stop; the flag tells whether it did. -/
def feed {S X : Type} (f : S → X → S × Bool) : S → List X → S × Bool
  | s, [] => (s, false)
  | s, x :: xs =>
    match f s x with
    | (s', true) => (s', true)
    | (s', false) => feed f s' xs

/-- Every symbol of a supported type has a name that is valid text. -/
def GoodNames (t : SymTab) : Prop :=
  ∀ s ∈ t.syms, Supported s → ∃ n, NameAt t.strs s.name n ∧ isUtf8 n = true

end Blazesym.Spec.Elf
