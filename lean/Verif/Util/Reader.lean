import Verif.Basic

/-!
# Model of the byte cursor `ReadRaw for &[u8]` of `src/util.rs`

A cursor is the remaining slice together with the address of its first byte (the address
matters for alignment only).  An operation returns its outcome and the new cursor:
`&mut self` is updated even by some failing operations.  `Fail.none` is Rust's `None`.
Targets are little endian.
-/

set_option autoImplicit false

namespace Blazesym.Util

universe u v

/-- How a read can fail: Rust's `None`, or a panic. -/
inductive Fail where
  | none
  | panic
  deriving DecidableEq, Repr

/-- A `&[u8]` used as a cursor. -/
structure Cursor where
  addr : Nat
  data : Bytes
  deriving DecidableEq, Repr

/-- An operation on a cursor. -/
def Rd (α : Type u) : Type u := Cursor → Except Fail α × Cursor

/-- Sequencing with Rust's `?`: on failure the later operation is not performed. -/
def Rd.bind {α : Type u} {β : Type v} (m : Rd α) (f : α → Rd β) : Rd β := fun c =>
  match m c with
  | (.ok a, c') => f a c'
  | (.error e, c') => (.error e, c')

def Rd.pure {α : Type u} (a : α) : Rd α := fun c => (.ok a, c)

instance : Monad Rd where
  pure := Rd.pure
  bind := Rd.bind

/-- A Rust `Option` used with `?`. -/
def Rd.ofOption {α : Type u} (o : Option α) : Rd α := fun c =>
  match o with
  | some a => (.ok a, c)
  | .none => (.error .none, c)

/-- `src/util.rs:586-591` (`ensure`). -/
def ensure (len : Nat) : Rd Unit := fun c =>
  if len > c.data.length then (.error .none, c) else (.ok (), c)

/-- `src/util.rs:607-613` (`read_slice`). -/
def readSlice (len : Nat) : Rd Bytes := fun c =>
  match ensure len c with
  | (.ok (), _) => (.ok (c.data.take len), ⟨c.addr + len, c.data.drop len⟩)
  | (.error e, _) => (.error e, c)

/-- `src/util.rs:594-597` (`advance`). -/
def advance (cnt : Nat) : Rd Unit := fun c =>
  match readSlice cnt c with
  | (.ok _, c') => (.ok (), c')
  | (.error e, c') => (.error e, c')

/-- `<*const u8>::align_offset`: bytes to the next multiple of `align`. -/
def alignOffset (addr align : Nat) : Nat := (align - addr % align) % align

/-- `src/util.rs:600-604` (`align`). -/
def align (alignTo : Nat) : Rd Unit := fun c => advance (alignOffset c.addr alignTo) c

/-- `src/util.rs:615-621` (`peek_array`). -/
def peekArray (n : Nat) : Rd Bytes := fun c =>
  match ensure n c with
  | (.ok (), _) => (.ok (c.data.take n), c)
  | (.error e, _) => (.error e, c)

/-- `src/util.rs:624-628` (`read_array`). -/
def readArray (n : Nat) : Rd Bytes := fun c =>
  match peekArray n c with
  | (.ok a, _) => (.ok a, ⟨c.addr + n, c.data.drop n⟩)
  | (.error e, _) => (.error e, c)

/-- Index of the first element satisfying `p` (`Iterator::position`). -/
def position {α : Type u} (p : α → Bool) : List α → Option Nat
  | [] => .none
  | a :: t => if p a then some 0 else (position p t).map (· + 1)

/-- `src/util.rs:631-634` (`read_cstr`); the result is the string without its NUL.
`CStr::from_bytes_with_nul` succeeds because the NUL found is the first one. -/
def readCstr : Rd Bytes := fun c =>
  match position (fun b => b == 0) c.data with
  | .none => (.error .none, c)
  | some idx =>
    match readSlice (idx + 1) c with
    | (.ok s, c') => (.ok (s.take idx), c')
    | (.error e, c') => (.error e, c')

/-- Little endian value of a byte string. -/
def leValue : Bytes → Nat
  | [] => 0
  | b :: t => b.toNat + 256 * leValue t

/-- `src/util.rs:454-464` (`read_pod`) for an integer type of `size` bytes. -/
def readUint (size : Nat) : Rd Nat := fun c =>
  match readSlice size c with
  | (.ok s, c') => (.ok (leValue s), c')
  | (.error e, c') => (.error e, c')

/-- `src/util.rs:468-484` (`read_pod_ref`): the bytes of the referenced object.  Note that
a misaligned read consumes the bytes before failing. -/
def readPodRef (size alignment : Nat) : Rd Bytes := fun c =>
  match readSlice size c with
  | (.ok s, c') =>
    if alignOffset c.addr alignment = 0 then (.ok s, c') else (.error .none, c')
  | (.error e, c') => (.error e, c')

/-- `src/util.rs:488-504` (`read_pod_slice_ref`): the bytes of the referenced slice. -/
def readPodSliceRef (size alignment count : Nat) : Rd Bytes := fun c =>
  if size * count < u64Size then readPodRef (size * count) alignment c
  else (.error .none, c)

def readU8 : Rd Nat := readUint 1
def readU16 : Rd Nat := readUint 2
def readU32 : Rd Nat := readUint 4
def readU64 : Rd Nat := readUint 8

/-- `x << shift` on 64 bit integers in a build with overflow checks: panics for shifts of
64 and more, drops bits shifted out. -/
def shl64 (x shift : Nat) : Except Fail Nat :=
  if shift < 64 then .ok (x * 2 ^ shift % u64Size) else .error .panic

/-- The `loop` of `src/util.rs:546-555`. -/
def lebULoop : Bytes → Nat → Nat → Nat → Except Fail Nat × Cursor
  | [], addr, _, _ => (.error .none, ⟨addr, []⟩)
  | byte :: t, addr, result, shift =>
    if byte.toNat &&& 0x80 = 0 then
      match shl64 byte.toNat shift with
      | .ok x => (.ok (result ||| x), ⟨addr + 1, t⟩)
      | .error e => (.error e, ⟨addr + 1, t⟩)
    else
      match shl64 (byte.toNat &&& 0x7F) shift with
      | .ok x => lebULoop t (addr + 1) (result ||| x) (shift + 7)
      | .error e => (.error e, ⟨addr + 1, t⟩)

/-- `src/util.rs:535-556` (`read_u64_leb128`). -/
def readU64Leb128 : Rd Nat := fun c =>
  match c.data with
  | [] => (.error .none, c)
  | byte :: t =>
    if byte.toNat &&& 0x80 = 0 then (.ok byte.toNat, ⟨c.addr + 1, t⟩)
    else lebULoop t (c.addr + 1) (byte.toNat &&& 0x7F) 7

/-- The `loop` of `src/util.rs:565-573`, followed by the sign extension of lines 575-580.
The `i64` accumulator is represented by its bit pattern. -/
def lebSLoop : Bytes → Nat → Nat → Nat → Except Fail Nat × Cursor
  | [], addr, _, _ => (.error .none, ⟨addr, []⟩)
  | byte :: t, addr, result, shift =>
    match shl64 (byte.toNat &&& 0x7F) shift with
    | .error e => (.error e, ⟨addr + 1, t⟩)
    | .ok x =>
      let result := result ||| x
      let shift := shift + 7
      if byte.toNat &&& 0x80 = 0 then
        if shift < 64 ∧ byte.toNat &&& 0x40 ≠ 0 then
          match shl64 (u64Size - 1) shift with
          | .ok m => (.ok (result ||| m), ⟨addr + 1, t⟩)
          | .error e => (.error e, ⟨addr + 1, t⟩)
        else (.ok result, ⟨addr + 1, t⟩)
      else lebSLoop t (addr + 1) result shift

/-- The `i64` with a given 64 bit pattern. -/
def toI64 (n : Nat) : Int := if n < u64Size / 2 then n else (n : Int) - u64Size

/-- `src/util.rs:560-581` (`read_i64_leb128`). -/
def readI64Leb128 : Rd Int := fun c =>
  match lebSLoop c.data c.addr 0 0 with
  | (.ok n, c') => (.ok (toI64 n), c')
  | (.error e, c') => (.error e, c')

end Blazesym.Util
