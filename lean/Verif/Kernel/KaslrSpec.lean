import Verif.Elf.NotesSpec
import Verif.Util.TextSpec
import Verif.Util.BytesSpec

/-! Specification of the information the kernel core file has about the KASLR offset. -/

set_option autoImplicit false

namespace Blazesym.Spec.Kernel
open Blazesym.Spec Blazesym.Spec.Elf

/-- `value` is what the text has in its first line that starts with `key` and `=`. -/
def FirstEntry (desc key value : Bytes) : Prop :=
  ∃ before after : List Bytes, fields (fun b => b == 10) desc = before ++ (key ++ 61 :: value) :: after ∧
    ∀ l ∈ before, ∀ v, l ≠ key ++ 61 :: v

/-- A note with kernel core information: its name, and a descriptor that is not empty. -/
def IsVmcoreinfo (n : Nat × Bytes × Bytes) : Prop := n.2.1 = ascii "VMCOREINFO" ++ [0] ∧ n.2.2 ≠ []

/-- The first kernel core information among the notes that start at `off` is `desc`: the notes
before it are `ns`, and it starts at `pos`. -/
def VmcoreAt (data : Bytes) (off : Nat) (ns : List (Nat × Bytes × Bytes)) (pos : Nat) (desc : Bytes) : Prop :=
  ∃ (rest : Bytes) (type : Nat) (tail : Bytes),
    off ≤ data.length ∧ Notes (data.drop off) ns rest ∧ (∀ n ∈ ns, ¬ IsVmcoreinfo n) ∧
    NoteHead rest type (ascii "VMCOREINFO" ++ [0]) desc tail ∧ desc ≠ [] ∧ pos + rest.length = data.length

/-- The note is small enough for its padded size to fit 32 bits. -/
def SmallNote (n : Nat × Bytes × Bytes) : Prop := n.2.1.length + 3 < 2 ^ 32 ∧ n.2.2.length + 3 < 2 ^ 32

end Blazesym.Spec.Kernel
