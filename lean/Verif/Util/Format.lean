import Verif.Util.Bytes

/-!
# Formatting of integers

What Rust's `{}` and `{:x}` print for an unsigned integer of at most 64 bits (standard
library, `core::fmt::num`).
-/

set_option autoImplicit false

namespace Blazesym.Util

/-- The character of a digit below 16, lower case. -/
def digitChar (d : Nat) : UInt8 := if d < 10 then UInt8.ofNat (48 + d) else UInt8.ofNat (87 + d)

/-- Digits of `n`, most significant first, at most `fuel` of them. -/
def fmtLoop (base : Nat) : Nat → Nat → Bytes
  | 0, _ => []
  | fuel + 1, n =>
    if n < base then [digitChar n] else fmtLoop base fuel (n / base) ++ [digitChar (n % base)]

/-- `format!("{n:x}")`. -/
def fmtHex (n : Nat) : Bytes := fmtLoop 16 16 n

/-- `format!("{n}")`. -/
def fmtDec (n : Nat) : Bytes := fmtLoop 10 20 n

/-- `u8::is_ascii_whitespace` (standard library): space, tab, line feed, form feed, carriage
return. -/
def isAsciiWs (b : UInt8) : Bool := b == 32 || b == 9 || b == 10 || b == 12 || b == 13

/-- `<[u8]>::trim_ascii_start` (standard library). -/
def trimAsciiStart (l : Bytes) : Bytes := l.dropWhile isAsciiWs

/-- `<[u8]>::trim_ascii_end` (standard library). -/
def trimAsciiEnd (l : Bytes) : Bytes := (l.reverse.dropWhile isAsciiWs).reverse

/-- `<[u8]>::trim_ascii` (standard library). -/
def trimAscii (l : Bytes) : Bytes := trimAsciiEnd (trimAsciiStart l)

/-- `<[u8]>::strip_suffix` (standard library). -/
def stripSuffix (l suffix : Bytes) : Option Bytes :=
  if suffix.length ≤ l.length ∧ l.drop (l.length - suffix.length) = suffix then
    some (l.take (l.length - suffix.length))
  else none

/-- `<[u8]>::strip_prefix` (standard library). -/
def stripPrefix (l pre : Bytes) : Option Bytes :=
  if l.take pre.length = pre then some (l.drop pre.length) else none

/-- Splitting into lines as `BufRead::read_until(b'\n', ..)` does when called repeatedly:
every line keeps its newline, the last one may have none. -/
def splitLines : Bytes → List Bytes
  | [] => []
  | b :: t =>
    if b = 10 then [b] :: splitLines t
    else
      match splitLines t with
      | [] => [[b]]
      | l :: ls => (b :: l) :: ls

end Blazesym.Util
