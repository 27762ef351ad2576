import Mathlib.Order.Defs.LinearOrder
import Mathlib.Data.Nat.Basic
import Mathlib.Tactic.Common

/-!
# Shared vocabulary of the model

Machine integers are `Nat`; a failing operation is `Except.error` with an `Err`.
-/

set_option autoImplicit false

namespace Blazesym

universe u v w

/-- `src/error.rs:296-329` (`ErrorKind`), plus the outcome `panic` standing for a Rust
panic (failed `unwrap`, slice index out of range, overflow in a build with overflow
checks). -/
inductive Err where
  | notFound
  | permissionDenied
  | alreadyExists
  | wouldBlock
  | invalidInput
  | invalidData
  | invalidDwarf
  | timedOut
  | writeZero
  | unsupported
  | unexpectedEof
  | outOfMemory
  | other
  | panic
  deriving DecidableEq, Repr

/-- A byte string. -/
abbrev Bytes := List UInt8

/-- The bytes of an ASCII string literal. -/
def ascii (s : String) : Bytes := s.toList.map (fun c => UInt8.ofNat c.toNat)

/-- Number of values of a `u64` (and, on the modelled 64 bit targets, of a `usize`). -/
def u64Size : Nat := 18446744073709551616

/-- Number of values of a `u32`. -/
def u32Size : Nat := 4294967296

/-- `a + b` on `u64`/`usize` in a build with overflow checks. -/
def addU64 (a b : Nat) : Except Err Nat :=
  if a + b < u64Size then .ok (a + b) else .error .panic

/-- `a - b` on unsigned integers in a build with overflow checks. -/
def subU (a b : Nat) : Except Err Nat :=
  if b ≤ a then .ok (a - b) else .error .panic

/-- `u64::wrapping_add`. -/
def wrappingAdd (a b : Nat) : Nat := (a + b) % u64Size

/-- `u64::wrapping_sub` (arguments are `< u64Size`). -/
def wrappingSub (a b : Nat) : Nat := (a + (u64Size - b)) % u64Size

theorem bind_ok_iff {α β : Type} (x : Except Err α) (f : α → Except Err β) (y : β) :
    (x >>= f) = .ok y ↔ ∃ a, x = .ok a ∧ f a = .ok y := by
  cases x with
  | error e => simp [bind, Except.bind]
  | ok a => simp [bind, Except.bind]

theorem bind_err {α β : Type} {x : Except Err α} {f : α → Except Err β} {e : Err}
    (h : (x >>= f) = .error e) : x = .error e ∨ ∃ a, x = .ok a ∧ f a = .error e := by
  cases x with
  | error e' => left; simpa [bind, Except.bind] using h
  | ok a => right; exact ⟨a, rfl, h⟩

theorem bind_ok {α β : Type} {x : Except Err α} {f : α → Except Err β} {y : β}
    (h : (x >>= f) = .ok y) : ∃ a, x = .ok a ∧ f a = .ok y := (bind_ok_iff x f y).mp h

end Blazesym
