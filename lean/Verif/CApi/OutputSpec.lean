import Verif.CApi.ConvertSpec
import Verif.CApi.CodesSpec
import Verif.CApi.Output

/-!
# What a C program sees of normalization results

The C structures of `capi/include/blazesym.h`, read back from memory, and the blocks of memory they own.
-/

set_option autoImplicit false

namespace Blazesym.CApi

open Blazesym.Symbolize

/-- The bytes from `a` on, if there are any, are a block of their own. -/
def owned (a size align : Nat) : List Block := if size = 0 then [] else [⟨a, size, align⟩]

/-- The pointer at `a` leads to the C string `str`, which owns its memory. -/
def OwnPathAt (m : Mem) (a : Nat) (str : Bytes) (bs : List Block) : Prop :=
  ∃ (p : Nat), NumAt m a 8 p ∧ 0 < p ∧ p + str.length + 1 ≤ 2 ^ 64 ∧ CString m p str
    ∧ bs = [⟨p, str.length + 1, 1⟩]

/-- Length and pointer at `a`: those of the build ID, or 0 and `NULL`. -/
def BuildIdAt (m : Mem) (a : Nat) : Option Bytes → List Block → Prop
  | none, bs => NumAt m a 8 0 ∧ NumAt m (a + 8) 8 0 ∧ bs = []
  | some id, bs => ∃ (p : Nat), NumAt m a 8 id.length ∧ NumAt m (a + 8) 8 p ∧ 0 < p ∧ Holds m p id
      ∧ bs = owned p id.length 1

/-- `struct blaze_user_meta`. -/
def MetaAt (m : Mem) (a : Nat) : OutMeta → List Block → Prop
  | .apk path, bs => NumAt m a 1 1 ∧ OwnPathAt m (a + 8) path bs ∧ Holds m (a + 16) (List.replicate 16 0)
  | .elf path id, bs => ∃ (bs₁ bs₂ : List Block), NumAt m a 1 2 ∧ OwnPathAt m (a + 8) path bs₁
      ∧ BuildIdAt m (a + 16) id bs₂ ∧ Holds m (a + 32) (List.replicate 16 0) ∧ bs = bs₁ ++ bs₂
  | .sym sym, bs => ∃ (p size i c : Nat), NumAt m a 1 3 ∧ NumAt m (a + 8) 8 (p + 8) ∧ NumAt m p 8 size
      ∧ 0 < size ∧ SymAt m (p + 8) sym i c (p + size) ∧ i = p + 8 + 104 ∧ c = i + 48 * sym.inlined.length
      ∧ Holds m (a + 16) (List.replicate 16 0) ∧ bs = [⟨p, size, 8⟩]
  | .unknown reason, bs => ∃ (code : Nat), NumAt m a 1 0 ∧ NumAt m (a + 8) 1 code
      ∧ (reason, code) ∈ headerNormalizeReason ∧ Holds m (a + 9) (List.replicate 15 0) ∧ bs = []

/-- An array of `struct blaze_user_meta`. The bytes reserved for later are zero. -/
def MetaArray (m : Mem) (a : Nat) : List OutMeta → List Block → Prop
  | [], bs => bs = []
  | x :: xs, bs => ∃ (bs₁ bs₂ : List Block), MetaAt m a x bs₁ ∧ Holds m (a + 1) (List.replicate 7 0)
      ∧ Holds m (a + 48) (List.replicate 16 0) ∧ MetaArray m (a + 64) xs bs₂ ∧ bs = bs₁ ++ bs₂

/-- An array of `struct blaze_normalized_output`. -/
def OutputArray (m : Mem) (a : Nat) : List (Nat × Nat) → Prop
  | [] => True
  | (output, idx) :: rest => NumAt m a 8 output ∧ NumAt m (a + 8) 8 idx ∧ Holds m (a + 16) (List.replicate 16 0)
      ∧ OutputArray m (a + 32) rest

/-- `struct blaze_normalized_user_output`. -/
def UserOutputAt (m : Mem) (p : Nat) (out : UserOutput) (bs : List Block) : Prop :=
  ∃ (metas outputs : Nat) (bs₁ : List Block), 0 < p
    ∧ NumAt m p 8 out.metas.length ∧ NumAt m (p + 8) 8 metas ∧ MetaArray m metas out.metas bs₁
    ∧ NumAt m (p + 16) 8 out.outputs.length ∧ NumAt m (p + 24) 8 outputs ∧ OutputArray m outputs out.outputs
    ∧ Holds m (p + 32) (List.replicate 16 0)
    ∧ bs = bs₁ ++ owned metas (64 * out.metas.length) 8 ++ owned outputs (32 * out.outputs.length) 8
        ++ [⟨p, 48, 8⟩]

/-- Two blocks have no byte in common. -/
def Block.Apart (b c : Block) : Prop := b.addr + b.size ≤ c.addr ∨ c.addr + c.size ≤ b.addr

/-- Blocks are not empty, within the address space, and apart from each other. -/
def Store.Valid (s : Store) : Prop :=
  (∀ (b : Block), b ∈ s.blocks → 0 < b.size ∧ 0 < b.addr ∧ b.addr + b.size ≤ 2 ^ 64)
    ∧ s.blocks.Pairwise Block.Apart

/-- The allocator returns memory that is aligned, within the address space and not in use. -/
def GoodAllocator (alloc : Allocator) : Prop :=
  ∀ (s : Store) (size align a : Nat), alloc s size align = some a →
    a % align = 0 ∧ 0 < a ∧ a + size ≤ 2 ^ 64 ∧ ∀ (b : Block), b ∈ s.blocks → Block.Apart ⟨a, size, align⟩ b

/-- The paths of metadata. -/
def OutMeta.path? : OutMeta → Option Bytes
  | .apk path => some path
  | .elf path _ => some path
  | _ => none

/-- Numbers are in range of their Rust types, and sizes in range of what can be allocated. -/
def OutMeta.Fits : OutMeta → Prop
  | .sym y => Sym.Fits y ∧ metaSymSize y ≤ 2 ^ 63 - 8
  | .elf _ (some id) => id.length < 2 ^ 64
  | _ => True

/-- The same of everything. -/
def UserOutput.Fits (out : UserOutput) : Prop :=
  out.metas.length < 2 ^ 64 ∧ out.outputs.length < 2 ^ 64
    ∧ (∀ (x : OutMeta), x ∈ out.metas → x.Fits) ∧ ∀ (o : Nat × Nat), o ∈ out.outputs → o.1 < 2 ^ 64 ∧ o.2 < 2 ^ 64

/-- The memory of the blocks is the same. -/
def Unchanged (m m' : Mem) (bs : List Block) : Prop :=
  ∀ (b : Block), b ∈ bs → ∀ (x : Nat), b.addr ≤ x → x < b.addr + b.size → m' x = m x

end Blazesym.CApi
