import Verif.Util.Format

/-!
# Text functions of the standard library

What the line oriented parsers use, on the bytes of strings.
-/

set_option autoImplicit false

namespace Blazesym.Util

/-- `char::to_digit` for an ASCII character. -/
def toDigit (base : Nat) (c : UInt8) : Option Nat :=
  let v :=
    if 48 ≤ c.toNat ∧ c.toNat ≤ 57 then some (c.toNat - 48)
    else if 97 ≤ c.toNat ∧ c.toNat ≤ 122 then some (c.toNat - 97 + 10)
    else if 65 ≤ c.toNat ∧ c.toNat ≤ 90 then some (c.toNat - 65 + 10)
    else none
  match v with
  | some d => if d < base then some d else none
  | none => none

/-- The loop of `from_str_radix` for an unsigned type with `size` values: checked
multiplications and additions. -/
def fromStrRadixLoop (size base : Nat) : Bytes → Nat → Option Nat
  | [], acc => some acc
  | c :: t, acc =>
    match toDigit base c with
    | none => none
    | some d => if acc * base + d < size then fromStrRadixLoop size base t (acc * base + d) else none

/-- `from_str_radix` of an unsigned type with `size` values (`core::num`): a sign `+` is allowed,
if a digit follows. -/
def fromStrRadix (size base : Nat) (s : Bytes) : Option Nat :=
  match s with
  | [] => none
  | [c] => if c = 43 ∨ c = 45 then none else fromStrRadixLoop size base [c] 0
  | c :: t => if c = 43 then fromStrRadixLoop size base t 0 else fromStrRadixLoop size base (c :: t) 0

/-- `<[u8]>::split`: what is between the bytes that satisfy the predicate. -/
def sliceSplit (p : UInt8 → Bool) : Nat → Bytes → List Bytes
  | 0, l => [l]
  | fuel + 1, l =>
    match position p l with
    | none => [l]
    | some i => l.take i :: sliceSplit p fuel (l.drop (i + 1))

/-- `<[u8]>::split`; each step takes a byte off, so there is fuel enough. -/
def split (p : UInt8 → Bool) (l : Bytes) : List Bytes := sliceSplit p l.length l

/-- `str::split_ascii_whitespace`: the parts that are not empty. -/
def splitAsciiWhitespace (l : Bytes) : List Bytes := (split isAsciiWs l).filter (fun s => !s.isEmpty)

/-- `str::trim_start_matches` with a string pattern: take the pattern off as often as possible. -/
def trimStartMatches (pat : Bytes) : Nat → Bytes → Bytes
  | 0, l => l
  | fuel + 1, l =>
    match stripPrefix l pat with
    | none => l
    | some r => trimStartMatches pat fuel r

end Blazesym.Util
