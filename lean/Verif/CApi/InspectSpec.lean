import Verif.CApi.ConvertSpec
import Verif.CApi.Inspect

/-! # What a C program sees of looked up symbols -/

set_option autoImplicit false

namespace Blazesym.CApi

/-- The documented codes of symbol types. -/
def TypeCode (t : Elf.SymType) (n : Nat) : Prop :=
  (t, n) ∈ [(Elf.SymType.undefined, 0), (.function, 1), (.variable, 2)]

/-- `struct blaze_sym_info` of a symbol, whose strings take up the memory from `c` to `c'`. -/
def SymInfoAt (m : Mem) (a : Nat) (info : SymInfo) (c c' : Nat) : Prop :=
  ∃ (c₁ size code : Nat), PtrTo m a info.name c c₁ ∧ NumAt m (a + 8) 8 info.addr
    ∧ NumAt m (a + 16) 8 size ∧ IsSize size info.size
    ∧ NumAt m (a + 24) 8 (info.fileOffset.getD 0) ∧ OptPtrTo m (a + 32) info.module c₁ c'
    ∧ NumAt m (a + 40) 1 code ∧ TypeCode info.symType code
    ∧ Holds m (a + 41) (List.replicate 23 0)

/-- An array of `struct blaze_sym_info` ending with a structure of zeros, which takes up the memory from
`a` to `a'`. -/
def SymInfoArray (m : Mem) (a a' c c' : Nat) : List SymInfo → Prop
  | [] => Holds m a (List.replicate 64 0) ∧ a' = a + 64 ∧ c' = c
  | info :: infos => ∃ (c₁ : Nat), SymInfoAt m a info c c₁ ∧ SymInfoArray m (a + 64) a' c₁ c' infos

/-- An array of pointers at `p` to such arrays, which take up the memory from `a` to `a'`, one after the
other. -/
def ListArray (m : Mem) (p a a' c c' : Nat) : List (List SymInfo) → Prop
  | [] => a' = a ∧ c' = c
  | infos :: rest => ∃ (a₁ c₁ : Nat), NumAt m p 8 a ∧ SymInfoArray m a a₁ c c₁ infos
      ∧ ListArray m (p + 8) a₁ a' c₁ c' rest

/-- The numbers are in range of their Rust types. -/
def SymInfo.Fits (info : SymInfo) : Prop :=
  info.addr < 2 ^ 64 ∧ ∀ (off : Nat), info.fileOffset = some off → off < 2 ^ 64

end Blazesym.CApi
