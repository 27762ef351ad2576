import Verif.Session.Resolve

/-!
# Vocabulary for the history of a symbolizer or an inspector

A *version* of a file is what has one identity.  Nothing is said about which file is at which path
when; only that the contents of a version stay the same.
-/

set_option autoImplicit false

namespace Blazesym.Spec

open Blazesym.Cache

variable {P M F T Pr D : Type} [DecidableEq P] [DecidableEq M]

/-- The version of the file a cache uses for a path: the present one, unless the cache knows the path
already and keeps its version, because the path is pinned or the cache does not reload files. -/
def effective (s : FileCache P M F T) (stat : P → Except Err M) (p : P) : Except Err M :=
  match s.cache.get p with
  | some pe =>
    match pe.current with
    | some (pinned, m) => if s.autoReload = false ∨ pinned = true then .ok m else stat p
    | none => stat p
  | none => stat p

/-- What a version of a file makes without any cache. -/
def ofVersion {F T : Type} (contents : M → Except Err F) (create : M → F → Except Err T)
    (version : Except Err M) : Except Err T :=
  match version with
  | .error e => .error e
  | .ok m =>
    match contents m with
    | .error e => .error e
    | .ok f => create m f

/-- What the versions of ELF files are: their contents, the name each is used under, what parsing
yields, and the debug information each has. -/
structure Universe (P M F Pr D : Type) where
  contents : M → Except Err F
  name : M → P
  parse : P → F → Except Err Pr
  debug : M → Except Err D

/-- The parser of the file at a path, without any cache. `version` says which version is where. -/
def Universe.lookup (u : Universe P M F Pr D) (version : P → Except Err M) (p : P) : Except Err Pr :=
  ofVersion u.contents (fun m f => u.parse (u.name m) f) (version p)

/-- The debug information of a version is what is found at present (by `build`): the files it takes
it from are the ones that belong to it, they are used under the paths they are found at, and none of
them is the file itself. -/
def Universe.Settled (u : Universe P M F Pr D) (build : Pr → Prog P Pr D)
    (version : P → Except Err M) (m : M) : Prop :=
  ∀ f pr, u.contents m = .ok f → u.parse (u.name m) f = .ok pr →
    (build pr).eval (u.lookup version) = u.debug m ∧
    ∀ q ∈ (build pr).asked (u.lookup version), ∀ m', version q = .ok m' → m' ≠ m ∧ u.name m' = q

/-- A version with its debug information, without any cache. -/
def Universe.withDebug (u : Universe P M F Pr D) (m : M) (f : F) : Except Err (Pr × D) :=
  match u.parse (u.name m) f with
  | .error e => .error e
  | .ok pr =>
    match u.debug m with
    | .error e => .error e
    | .ok d => .ok (pr, d)

end Blazesym.Spec
