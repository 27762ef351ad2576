import Verif.Symbolize.Symbolizer
import Verif.Normalize.WalkSpec

/-!
Specification of symbolization requests: which inputs a source takes, and what is reported for a
place in a file.
-/

set_option autoImplicit false

namespace Blazesym.Spec.Symbolize
open Blazesym.Symbolize

/-- What an address stands for. -/
inductive Kind where
  | absAddr
  | virtOffset
  | fileOffset
  deriving DecidableEq, Repr

/-- Input of a kind. -/
def Kind.of {α : Type} : Kind → α → Input α
  | .absAddr, x => .absAddr x
  | .virtOffset, x => .virtOffset x
  | .fileOffset, x => .fileOffset x

/-- The documented matrix. -/
def accepts : Source → Kind → Bool
  | .apk _ _, .fileOffset => true
  | .breakpad _, .fileOffset => true
  | .elf _ _, .virtOffset => true
  | .elf _ _, .fileOffset => true
  | .kernel _, .absAddr => true
  | .process _, .absAddr => true
  | .gsymData _, .virtOffset => true
  | .gsymFile _, .virtOffset => true
  | _, _ => false

/-- How a name is shown: as it is in the file if demangling is disabled or the name is not recognised, and
otherwise as the scheme of the language the symbol is known to be written in makes of it; if the language is
not known, the scheme of Rust is tried before that of C++. -/
inductive Shown (d : Demangler) : Bool → SrcLang → Bytes → Bytes → Prop
  | asIs (l : SrcLang) (name : Bytes) : Shown d false l name name
  | rust (l : SrcLang) (name name' : Bytes) : l ≠ .cpp → d.rust name = some name' → Shown d true l name name'
  | cpp (name name' : Bytes) : d.cpp name = some name' → Shown d true .cpp name name'
  | otherwise (name name' : Bytes) : d.rust name = none → d.cpp name = some name' →
    Shown d true .unknown name name'
  | unrecognised (l : SrcLang) (name : Bytes) : (l ≠ .cpp → d.rust name = none) → (l ≠ .rust → d.cpp name = none) →
    Shown d true l name name

/-- The way a name is shown, as a table. -/
def shownName (d : Demangler) (demangle : Bool) (l : SrcLang) (name : Bytes) : Bytes :=
  match demangle, l with
  | false, _ => name
  | true, .rust => (d.rust name).getD name
  | true, .cpp => (d.cpp name).getD name
  | true, .unknown => ((d.rust name).or (d.cpp name)).getD name

/-- The documented outcome for one address: the symbol the resolver has there (names demangled if
so configured, with the offset of the address in it), its reason for not having one, or its
error. -/
inductive Looked (env : Env) (find : SymFn) (addr : Nat) : Except Err Symbolized → Prop
  | sym (s : ResolvedSym) (name : Bytes) (names : List Bytes) :
    find addr env.opts = .ok (.ok s) → s.addr ≤ addr →
    name = shownName env.demangler env.demangle s.lang s.name →
    names = (s.inlined.map fun f => shownName env.demangler env.demangle s.lang f.name) →
    Looked env find addr (.ok (.sym ⟨name, s.module, s.addr, addr - s.addr, s.size, s.codeInfo,
      List.zipWith (fun (n : Bytes) (f : InlinedFn) => ⟨n, f.codeInfo⟩) names s.inlined⟩))
  | reason (r : Reason) : find addr env.opts = .ok (.error r) → Looked env find addr (.ok (.unknown r))
  | error (e : Err) : find addr env.opts = .error e → Looked env find addr (.error e)
  /-- a resolver must not answer with a symbol behind the address -/
  | behind (s : ResolvedSym) : find addr env.opts = .ok (.ok s) → addr < s.addr →
    Looked env find addr (.error .panic)

/-- The documented outcome for an offset in a file. -/
inductive LookedAt (env : Env) (r : Resolver) (off : Nat) : Except Err Symbolized → Prop
  | found (addr : Nat) (out : Except Err Symbolized) : r.toVirt off = .ok (some addr) →
    Looked env r.find addr out → LookedAt env r off out
  | nowhere : r.toVirt off = .ok none → LookedAt env r off (.ok (.unknown .invalidFileOffset))
  | error (e : Err) : r.toVirt off = .error e → LookedAt env r off (.error e)

/-- An address lies in a mapping. -/
def Has (e : Blazesym.Maps.Entry) (addr : Nat) : Prop := e.start ≤ addr ∧ addr < e.stop

/-- A dispatcher that goes by the name alone, and has answered that way before. -/
def ByName (env : Env) : Prop :=
  ∀ d, env.dispatch = some d →
    (∀ start stop start' stop' name, d start stop name = d start' stop' name) ∧
    ∀ name r, env.dispatched.lookup name = some r → d 0 0 name = .ok r

/-- The dispatcher, if there is one, has nothing for a name. -/
def NotDispatched (env : Env) (e : Blazesym.Maps.Entry) : Prop :=
  ∀ name, e.pathName = some name → ∀ d, env.dispatch = some d →
    env.dispatched.lookup name = some none ∨
      (env.dispatched.lookup name = none ∧ d e.start e.stop name = .ok none)

end Blazesym.Spec.Symbolize
