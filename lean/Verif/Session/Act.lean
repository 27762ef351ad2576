import Verif.Basic

/-!
# Computations with a state

What a symbolizer does changes its caches, also when it fails: a computation maps a state to a result
and a new state.
-/

set_option autoImplicit false

namespace Blazesym.Cache

variable {S α β γ : Type}

/-- A computation that may fail and changes a state in any case. -/
def Act (S α : Type) : Type := S → Except Err α × S

namespace Act

/-- A result without any effect. -/
def lift (r : Except Err α) : Act S α := fun s => (r, s)

/-- The `?` operator: one computation after the other. -/
def bind (a : Act S α) (f : α → Act S β) : Act S β := fun s =>
  match a s with
  | (.error e, s) => (.error e, s)
  | (.ok x, s) => f x s

/-- Change the result. -/
def mapResult (a : Act S α) (f : Except Err α → Except Err β) : Act S β := fun s =>
  match a s with
  | (r, s) => (f r, s)

/-- `collect::<Result<Vec<_>>>()` of an iterator: it stops at the first error. -/
def traverse (f : α → Act S β) : List α → Act S (List β)
  | [] => lift (.ok [])
  | x :: xs => bind (f x) fun y => bind (traverse f xs) fun ys => lift (.ok (y :: ys))

/-- A computation on a part of the state. -/
def zoom {T : Type} (get : S → T) (set : S → T → S) (a : Act T α) : Act S α := fun s =>
  match a (get s) with
  | (r, t) => (r, set s t)

end Act
end Blazesym.Cache
