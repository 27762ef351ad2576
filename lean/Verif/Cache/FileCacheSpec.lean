import Verif.Cache.FileCache

/-! # Vocabulary for the file cache properties -/

set_option autoImplicit false

namespace Blazesym.Spec

open Blazesym.Cache

universe u v w x

variable {P : Type u} {M : Type v} {F : Type w} {T : Type x} [DecidableEq P] [DecidableEq M]

/-- The cache is reachable: it is the state after some history of calls on a new cache. -/
def Reachable (ar : Bool) (ops : List (FileCache.Op P M F T)) (s : FileCache P M F T) : Prop :=
  s = (FileCache.new ar).run ops

/-- Path `p` refers to the file identity `m`: it is the path's current or a previous one. -/
def Refers (s : FileCache P M F T) (p : P) (m : M) : Prop :=
  ∃ pe, s.cache.get p = some pe ∧ ((∃ b, pe.current = some (b, m)) ∨ m ∈ pe.previous)

/-- The path's current identity is `m`, and the path is pinned or not. -/
def Current (s : FileCache P M F T) (p : P) (pinned : Bool) (m : M) : Prop :=
  ∃ pe, s.cache.get p = some pe ∧ pe.current = some (pinned, m)

/-- Some call in the history saw identity `m` and opened the file `f` at that moment. -/
def OpenedAs (ops : List (FileCache.Op P M F T)) (m : M) (f : F) : Prop :=
  ∃ p, FileCache.Op.entry p (.ok m) (.ok f) ∈ ops

/-- The call is an eviction, or changes the pinning, of `p`. -/
def TouchesPin (p : P) : FileCache.Op P M F T → Prop
  | .evict q => q = p
  | .unpin q => q = p
  | _ => False

/-- The call is an eviction of `p`. -/
def Evicts (p : P) : FileCache.Op P M F T → Prop
  | .evict q => q = p
  | _ => False

end Blazesym.Spec
