import Verif.Session.NormalizerSpec
import Verif.Session.AnswerSpec

/-!
# Specification: normalizing now and symbolizing later

`symbolizedLater` is what a program does with the output of normalization, as documented: it symbolizes the
offset it got in the file it was told.
-/

set_option autoImplicit false

namespace Blazesym.Spec.RoundTrip
open Blazesym.Symbolize Blazesym.Maps Blazesym.Util
open Blazesym.Normalize (UserMeta)
open Blazesym.Spec.Symbolize (ERel)

/-- A symbol with its names as they are shown. -/
def shownSym (shown : Bytes → Bytes) (s : Sym) : Sym :=
  { s with name := shown s.name, inlined := s.inlined.map fun f => { f with name := shown f.name } }

/-- What is reported later for an output of normalization, `symbolize` being what a symbolizer does with one
address. -/
def symbolizedLater (symbolize : Source → Input Nat → Except Err Symbolized) (shown : Bytes → Bytes)
    (debugSyms : Bool) : Nat × UserMeta → Except Err Symbolized
  | (off, .elf path _) => symbolize (.elf path debugSyms) (.fileOffset off)
  | (off, .apk path) => symbolize (.apk path debugSyms) (.fileOffset off)
  | (_, .sym s) => .ok (.sym (shownSym shown s))
  | (_, .unknown reason) => .ok (.unknown reason)

/-- Two answers agree: both are the same symbol, or there is no symbol in either (for whatever reason). -/
inductive Agree : Symbolized → Symbolized → Prop
  | sym (s : Sym) : Agree (.sym s) (.sym s)
  | unknown (a b : Reason) : Agree (.unknown a) (.unknown b)

/-- The same, but the modules may have different names. -/
inductive AgreeButModule : Symbolized → Symbolized → Prop
  | sym (s : Sym) (module : Option Bytes) : AgreeButModule (.sym s) (.sym { s with module })
  | unknown (a b : Reason) : AgreeButModule (.unknown a) (.unknown b)

end Blazesym.Spec.RoundTrip
