import Verif.Util.ReaderSpec

/-! Specification of GSYM line tables: what a line program is, how it is encoded and which
rows it denotes. -/

set_option autoImplicit false

namespace Blazesym.Spec.Gsym

/-- The header of a line table: the smallest and greatest line delta of special operators
and the line of the first row. -/
structure LineHdr where
  min : Int
  max : Int
  first : Nat
  deriving DecidableEq, Repr

/-- The operators of a line program.  `special k` has the operator code `k + 4`. -/
inductive LineOp where
  | setFile (file : Nat)
  | advancePc (delta : Nat)
  | advanceLine (delta : Int)
  | special (k : Nat)
  deriving DecidableEq, Repr

/-- A row of the line table: the code from `addr` on belongs to that line of that file. -/
structure Row where
  addr : Nat
  file : Nat
  line : Int
  deriving DecidableEq, Repr

/-- The encoding of a header. -/
def LineHdr.bytes (h : LineHdr) : Bytes := sleb h.min ++ sleb h.max ++ uleb h.first

/-- The encoding of an operator. -/
def LineOp.bytes : LineOp → Bytes
  | .setFile f => 1 :: uleb f
  | .advancePc d => 2 :: uleb d
  | .advanceLine z => 3 :: sleb z
  | .special k => [UInt8.ofNat (k + 4)]

/-- The encoding of a program, without an end marker. -/
def encode (ops : List LineOp) : Bytes := ops.flatMap LineOp.bytes

/-- Number of different line deltas of special operators. -/
def LineHdr.range (h : LineHdr) : Int := h.max - h.min + 1

/-- The state of the line machine before the program. -/
def start (h : LineHdr) (symAddr : Nat) : Row := ⟨symAddr, 1, h.first⟩

/-- The effect of an operator on the state. -/
def step (h : LineHdr) (r : Row) : LineOp → Row
  | .setFile f => { r with file := f }
  | .advancePc d => { r with addr := r.addr + d }
  | .advanceLine z => { r with line := r.line + z }
  | .special k => { r with addr := r.addr + ((k : Int) / h.range).toNat
                           line := r.line + (h.min + (k : Int) % h.range) }

/-- Whether an operator adds the state as a row to the table. -/
def LineOp.emits : LineOp → Bool
  | .advancePc _ | .special _ => true
  | .setFile _ | .advanceLine _ => false

/-- The rows of the line table. -/
def rows (h : LineHdr) : Row → List LineOp → List Row
  | _, [] => []
  | r, op :: ops =>
    if op.emits then step h r op :: rows h (step h r op) ops else rows h (step h r op) ops

/-- The state after the program. -/
def final (h : LineHdr) (r : Row) (ops : List LineOp) : Row := ops.foldl (step h) r

/-- The operands of an operator are representable. -/
def LineOp.InRange : LineOp → Prop
  | .setFile f => f < 2 ^ 32
  | .advancePc d => d < 2 ^ 64
  | .advanceLine z => -9223372036854775808 ≤ z ∧ z < 9223372036854775808
  | .special k => k < 252

/-- The members of a header are representable and there is a line delta. -/
def LineHdr.InRange (h : LineHdr) : Prop :=
  -2147483648 ≤ h.min ∧ h.min ≤ h.max ∧ h.max < 2147483648 ∧ h.first < 2147483648

/-- Neither addresses nor line numbers leave their ranges while the program runs. -/
def Sane (h : LineHdr) : Row → List LineOp → Prop
  | r, [] => r.addr < 2 ^ 64 ∧ 0 ≤ r.line ∧ r.line < 2147483648
  | r, op :: ops => r.addr < 2 ^ 64 ∧ 0 ≤ r.line ∧ r.line < 2147483648 ∧ op.InRange ∧
      Sane h (step h r op) ops

/-- `r` is the last row that is not above `addr`. -/
def IsLastNotAbove (l : List Row) (addr : Nat) (r : Row) (later : List Row) : Prop :=
  ∃ pre, l = pre ++ r :: later ∧ r.addr ≤ addr ∧ ∀ x ∈ later, addr < x.addr

/-- The bytes after a program: nothing, an end marker followed by anything, or an operator
whose operand is cut off. -/
def EndsWith (tail : Bytes) : Prop :=
  tail = [] ∨ (∃ t, tail = 0 :: t) ∨
    ∃ (b : UInt8) (t : Bytes), tail = b :: t ∧ (b = 1 ∨ b = 2 ∨ b = 3) ∧ t.length ≤ 9 ∧
      ∀ x ∈ t, 128 ≤ x.toNat

end Blazesym.Spec.Gsym
