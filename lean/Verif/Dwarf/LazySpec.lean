import Verif.Dwarf.Lazy

/-!
# What debug information with any history has to answer

The answers are those of the resolver without anything kept (`Verif.Dwarf.Resolver`), about which C36 to C39, C62 and C63
say what they are.
-/

set_option autoImplicit false

namespace Blazesym.Dwarf.Lazy
open Blazesym.Util Blazesym.Symbolize Blazesym.Cache

/-- The answer from the contents of the file alone. -/
def Query.now (σ : Sorter) (r : Resolver) : Query → Except Err Answer
  | .findSym addr opts => (r.findSym σ addr opts).map .sym
  | .findAddr name opts => (r.findAddr σ name opts).map .infos

/-- What has been kept in any history: nothing but what opening keeps, and then what questions and visits leave, whether
they succeed or not, also those by callbacks of visits. -/
inductive Asked (σ : Sorter) (refs : Refs) (r : Resolver) : Cells → Prop where
  | start : Asked σ refs r (start σ r.units.units)
  | query (cells : Cells) (q : Query) : Asked σ refs r cells → Asked σ refs r (q.run σ refs r cells).2
  | forEach (cells : Cells) (S : Type) (opts : Elf.FindAddrOpts) (f : S → Elf.SymInfo → S × Bool)
      (asks : S → Function → List Query) (s : S) :
      Asked σ refs r cells → Asked σ refs r (forEach σ refs r opts f asks s cells).2

end Blazesym.Dwarf.Lazy
