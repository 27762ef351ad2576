import Verif.CApi.Convert

/-!
# What a C program sees

The C structures of `capi/include/blazesym.h`, read back from memory.  The predicates take the address a
structure is at and, where strings are involved, the part of memory the strings take up, one after the
other.
-/

set_option autoImplicit false

namespace Blazesym.CApi

open Blazesym.Symbolize

/-- The bytes `bs` are at address `a`. -/
def Holds (m : Mem) (a : Nat) (bs : Bytes) : Prop := ∀ (i : Nat), i < bs.length → m (a + i) = bs[i]?

/-- The number `n` is in the `k` bytes at address `a`. -/
def NumAt (m : Mem) (a k n : Nat) : Prop := m.num a k = some n

/-- The NUL-terminated string `s` takes up exactly the memory from `c` to `c'`. -/
def StrAt (m : Mem) (s : Bytes) (c c' : Nat) : Prop := Holds m c (s ++ [0]) ∧ c' = c + s.length + 1

/-- The pointer at address `a` leads to the string `s`, which takes up the memory from `c` to `c'`. -/
def PtrTo (m : Mem) (a : Nat) (s : Bytes) (c c' : Nat) : Prop := NumAt m a 8 c ∧ StrAt m s c c'

/-- The pointer at address `a` leads to the string, or is `NULL` if there is none. -/
def OptPtrTo (m : Mem) (a : Nat) (s : Option Bytes) (c c' : Nat) : Prop :=
  match s with
  | none => NumAt m a 8 0 ∧ c' = c
  | some s => PtrTo m a s c c'

/-- `struct blaze_symbolize_code_info`: absent information is `NULL` pointers and zeros. -/
def CodeInfoAt (m : Mem) (a : Nat) (info : Option CodeInfo) (c c' : Nat) : Prop :=
  ∃ (c₁ : Nat), OptPtrTo m a (info.bind CodeInfo.dir) c c₁
    ∧ OptPtrTo m (a + 8) (info.map CodeInfo.file) c₁ c'
    ∧ NumAt m (a + 16) 4 ((info.bind CodeInfo.line).getD 0)
    ∧ NumAt m (a + 20) 2 ((info.bind CodeInfo.column).getD 0)

/-- `struct blaze_symbolize_inlined_fn`. -/
def InlinedAt (m : Mem) (a : Nat) (fn : InlinedFn) (c c' : Nat) : Prop :=
  ∃ (c₁ : Nat), PtrTo m a fn.name c c₁ ∧ CodeInfoAt m (a + 8) fn.codeInfo c₁ c'

/-- An array of `struct blaze_symbolize_inlined_fn`. -/
def InlinedArray (m : Mem) (a : Nat) (c c' : Nat) : List InlinedFn → Prop
  | [] => c' = c
  | fn :: fns => ∃ (c₁ : Nat), InlinedAt m a fn c c₁ ∧ InlinedArray m (a + 48) c₁ c' fns

/-- An `isize`: the size of the symbol, or -1; sizes beyond `isize::MAX` are reported as that. -/
def IsSize (n : Nat) : Option Nat → Prop
  | none => n = 2 ^ 64 - 1
  | some size => n = min size (2 ^ 63 - 1)

/-- `struct blaze_sym` of a symbol.  The array of inlined functions starts at `i`. -/
def SymAt (m : Mem) (a : Nat) (sym : Sym) (i c c' : Nat) : Prop :=
  ∃ (c₁ c₂ c₃ n : Nat), PtrTo m a sym.name c c₁ ∧ OptPtrTo m (a + 8) sym.module c₁ c₂
    ∧ NumAt m (a + 16) 8 sym.addr ∧ NumAt m (a + 24) 8 sym.offset
    ∧ NumAt m (a + 32) 8 n ∧ IsSize n sym.size
    ∧ CodeInfoAt m (a + 40) sym.codeInfo c₂ c₃
    ∧ NumAt m (a + 72) 8 sym.inlined.length ∧ NumAt m (a + 80) 8 i ∧ NumAt m (a + 88) 1 0
    ∧ InlinedArray m i c₃ c' sym.inlined

/-- The documented codes of reasons. -/
def ReasonCode (r : Reason) (n : Nat) : Prop :=
  (r, n) ∈ [(Reason.unmapped, 1), (.invalidFileOffset, 2), (.missingComponent, 3), (.missingSyms, 4),
    (.unknownAddr, 5), (.unsupported, 6), (.ignoredError, 7)]

/-- `struct blaze_sym` of an address that could not be symbolized: all zeros except for the reason. -/
def UnknownAt (m : Mem) (a : Nat) (reason : Reason) : Prop :=
  (∀ (x : Nat), x < 104 → x ≠ 88 → m (a + x) = some 0) ∧ ∃ (n : Nat), NumAt m (a + 88) 1 n ∧ ReasonCode reason n

/-- The array of `struct blaze_sym`: `i` to `i'` are the arrays of inlined functions, one after the
other, and `c` to `c'` the strings. -/
def SymArray (m : Mem) (a i i' c c' : Nat) : List Symbolized → Prop
  | [] => i' = i ∧ c' = c
  | .sym sym :: rest =>
    ∃ (c₁ : Nat), SymAt m a sym i c c₁ ∧ SymArray m (a + 104) (i + 48 * sym.inlined.length) i' c₁ c' rest
  | .unknown reason :: rest => UnknownAt m a reason ∧ SymArray m (a + 104) i i' c c' rest

/-- What a C program takes the string at address `p` to be: everything up to the first NUL. -/
def CString (m : Mem) (p : Nat) (s : Bytes) : Prop := Holds m p (s ++ [0]) ∧ 0 ∉ s

/-- The numbers of the source information are in range of their Rust types. -/
def CodeInfo.Fits (info : CodeInfo) : Prop :=
  (∀ (n : Nat), info.line = some n → n < 2 ^ 32) ∧ ∀ (n : Nat), info.column = some n → n < 2 ^ 16

/-- The numbers of the symbol are in range of their Rust types. -/
def Sym.Fits (sym : Sym) : Prop :=
  sym.addr < 2 ^ 64 ∧ sym.offset < 2 ^ 64 ∧ (∀ (info : CodeInfo), sym.codeInfo = some info → CodeInfo.Fits info)
    ∧ ∀ (fn : InlinedFn), fn ∈ sym.inlined → ∀ (info : CodeInfo), fn.codeInfo = some info → CodeInfo.Fits info

/-- The allocator returned `size` bytes at `base`: aligned and within the address space. -/
def GoodAlloc (alloc : Nat → Option Nat) : Prop :=
  ∀ (size base : Nat), alloc size = some base → base % 8 = 0 ∧ 0 < base ∧ base + size ≤ 2 ^ 64

end Blazesym.CApi
