import Verif.Maps.MapsSpec

/-! Specification vocabulary for text (independent of the model). -/

set_option autoImplicit false

namespace Blazesym.Spec
open Blazesym.Spec.Maps (Blank)

/-- `s` is the number `v` in base `base`: at least one digit, perhaps after a `+`. -/
def NumText (base : Nat) (s : Bytes) (v : Nat) : Prop :=
  ∃ ds, (s = ds ∨ s = 43 :: ds) ∧ ds ≠ [] ∧ (∀ c ∈ ds, IsDigit base c) ∧ numVal base ds = v

/-- The parts of a text between its separators. -/
def fields (sep : UInt8 → Bool) : Bytes → List Bytes
  | [] => [[]]
  | b :: t =>
    if sep b then [] :: fields sep t
    else
      match fields sep t with
      | [] => [[b]]
      | f :: fs => (b :: f) :: fs

/-- `ws` are the words of the text: what is between blanks. -/
inductive Words : Bytes → List Bytes → Prop
  | done (s : Bytes) (h : ∀ b ∈ s, Blank b) : Words s []
  | word (sep w rest : Bytes) (ws : List Bytes) (hsep : ∀ b ∈ sep, Blank b) (hne : w ≠ [])
      (hw : ∀ b ∈ w, ¬ Blank b) (hrest : ∀ b, rest.head? = some b → Blank b) (h : Words rest ws) :
      Words (sep ++ w ++ rest) (w :: ws)

/-- The lines of a text; they end with a newline, the last one may not. -/
inductive Lines : Bytes → List Bytes → Prop
  | nil : Lines [] []
  | last (s : Bytes) (hne : s ≠ []) (h : ∀ b ∈ s, b ≠ 10) : Lines s [s]
  | line (s rest : Bytes) (ls : List Bytes) (h : ∀ b ∈ s, b ≠ 10) (hr : Lines rest ls) :
      Lines (s ++ [10] ++ rest) ((s ++ [10]) :: ls)

end Blazesym.Spec
