import Verif.Breakpad.ErrorText
import Verif.Breakpad.Spec

/-! # Specification for C80: where a place in a text is, and which files have no overlong line -/

set_option autoImplicit false

namespace Blazesym.Spec.Breakpad
open Blazesym.Breakpad

/-- The line, its text and the column are those at which `rest`, the end of the text, begins: the lines above
are counted by their newlines, and the columns by the bytes before it on the line. -/
def PointsAt (text rest : Bytes) (p : Place) : Prop :=
  ∃ above before after : Bytes,
    text = above ++ before ++ rest ∧ (above = [] ∨ above.getLast? = some 10) ∧ 10 ∉ before ∧
    p.line = above.count 10 + 1 ∧ p.column = before.length + 1 ∧
    before ++ rest = p.text ++ after ∧ 10 ∉ p.text ∧ (after = [] ∨ after.head? = some 10)

/-- No line has 65535 bytes or more. -/
def ShortLines (t : Bytes) : Prop :=
  ∀ a l b : Bytes, t = a ++ l ++ b → 10 ∉ l → l.length < 65535

/-- A record begins the text. -/
def StartsRecord (t : Bytes) : Prop :=
  ∃ (r : Record) (x y : Bytes), t = x ++ y ∧ r.text x

end Blazesym.Spec.Breakpad
