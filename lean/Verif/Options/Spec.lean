import Verif.Session.State

/-! Answers that agree but for what a setting is about. -/

set_option autoImplicit false

namespace Blazesym.Spec.Options
open Blazesym.Symbolize

/-- The same symbol and the same source locations; names may be shown differently. -/
def NamesAside (a b : Sym) : Prop :=
  a.module = b.module ∧ a.addr = b.addr ∧ a.offset = b.offset ∧ a.size = b.size ∧ a.codeInfo = b.codeInfo ∧
    a.inlined.map (fun f => f.codeInfo) = b.inlined.map (fun f => f.codeInfo)

/-- The same symbol; source locations and inlined functions may differ.  The names are the same if `named`. -/
def SourceAside (named : Prop) (a b : Sym) : Prop :=
  a.module = b.module ∧ a.addr = b.addr ∧ a.offset = b.offset ∧ a.size = b.size ∧ (named → a.name = b.name)

/-- Two symbols that agree, or no symbol for the same reason.  If `lenient`, also anything and an ignored error. -/
inductive Both (Q : Sym → Sym → Prop) (lenient : Prop) : Symbolized → Symbolized → Prop
  | sym (a b : Sym) : Q a b → Both Q lenient (.sym a) (.sym b)
  | unknown (r : Reason) : Both Q lenient (.unknown r) (.unknown r)
  | left (o : Symbolized) : lenient → Both Q lenient (.unknown .ignoredError) o
  | right (o : Symbolized) : lenient → Both Q lenient o (.unknown .ignoredError)

/-- Both source locations and inlined functions are asked for. -/
def AsksInlined {M K : Type} (cfg : Settings M K) : Prop := cfg.codeInfo = true ∧ cfg.inlinedFns = true

/-- GSYM data. -/
def IsGsym : Source → Prop
  | .gsymData _ => True
  | .gsymFile _ => True
  | _ => False

/-- What a resolver finds does not depend on what is asked about the source, as far as it does not fail.  The name
does not among the ways to ask that are `named`. -/
def Steady (named : FindSymOpts → Prop) (find : SymFn) : Prop :=
  ∀ addr opts opts' found found', find addr opts = .ok found → find addr opts' = .ok found' →
    (∃ reason, found = .error reason ∧ found' = .error reason) ∨
    ∃ r r', found = .ok r ∧ found' = .ok r' ∧ r.module = r'.module ∧ r.addr = r'.addr ∧ r.size = r'.size ∧
      (named opts → named opts' → r.name = r'.name ∧ r.lang = r'.lang)

/-- The resolvers that the user's dispatchers supply are like this. -/
def SteadyDispatch {M K : Type} (cfg : Settings M K) : Prop :=
  (∀ d, cfg.apkDispatch = some d → ∀ path place member data r, d path place member data = .ok (some r) →
    Steady (fun _ => True) r.find) ∧
  ∀ d, cfg.processDispatch = some d → ∀ start stop name r, d start stop name = .ok (some r) → Steady (fun _ => True) r.find

end Blazesym.Spec.Options
