import Verif.Session.State
import Verif.Dwarf.ResolverSpec

/-! What it means that a symbol contains the address it is reported for. -/

set_option autoImplicit false

namespace Blazesym.Spec.Extent
open Blazesym.Symbolize

/-- What is reported is a symbol that ends behind the address, or has no known size. (A size of zero says nothing.) -/
def Inside : Symbolized → Prop
  | .sym s => ∀ n, s.size = some n → n ≠ 0 → s.offset < n
  | .unknown _ => True

/-- What is reported is a symbol that starts as far before the address `x` as its offset says. -/
def Placed (x : Nat) : Symbolized → Prop
  | .sym s => s.addr + s.offset = x
  | .unknown _ => True

/-- A resolver that only finds symbols that end behind the address asked for, as far as their size is known. -/
def Honest (find : SymFn) : Prop :=
  ∀ addr opts r, find addr opts = .ok (.ok r) → ∀ n, r.size = some n → n ≠ 0 → addr < r.addr + n

/-- Debug information is asked for. -/
def Debug : Source → Prop
  | .apk _ debugSyms => debugSyms = true
  | .elf _ debugSyms => debugSyms = true
  | .process src => src.debugSyms = true
  | _ => False

/-- No function of debug information has both a list of ranges and a lowest address with an end, as the DWARF standard
demands. -/
def EitherExtent (s : Dwarf.Sections) : Prop :=
  ∀ addr h d x, Spec.Dwarf.UnitFor s addr h → Spec.Dwarf.FunctionFor h addr d x →
    Spec.Dwarf.rangesOf x.2.attrs = none ∨ Spec.Dwarf.spanOf x.2.attrs = none

/-- Debug information that is read is what such sections contain; units come in order. -/
def DebugFits (t : Dwarf.Tools) : Prop :=
  ∀ image package units, t.load image package = .ok units →
    ∃ s, Dwarf.parseUnits t.σ s = .ok units ∧ Spec.Dwarf.HeadersSorted s ∧ EitherExtent s

/-- The resolvers that the user's dispatchers supply are honest. -/
def HonestDispatch {M K : Type} (cfg : Settings M K) : Prop :=
  (∀ d, cfg.apkDispatch = some d → ∀ path place member data r, d path place member data = .ok (some r) → Honest r.find) ∧
  ∀ d, cfg.processDispatch = some d → ∀ start stop name r, d start stop name = .ok (some r) → Honest r.find

end Blazesym.Spec.Extent
