import Verif.Basic

/-!
# Model of `src/insert_map.rs`

The hash map is an association list with at most one pair per key; interior mutability
becomes state passing.  Re-entrant use of `init` (documented to panic) is not modelled.
-/

set_option autoImplicit false

namespace Blazesym.Cache

universe u v w

variable {K : Type u} {V : Type v} {E : Type w} [DecidableEq K]

/-- `src/insert_map.rs:16-22` (`InsertMap`). -/
structure InsertMap (K : Type u) (V : Type v) where
  pairs : List (K × V)

namespace InsertMap

/-- `src/insert_map.rs:26-30` (`new`). -/
def empty : InsertMap K V := ⟨[]⟩

/-- Lookup in the association list. -/
def find (l : List (K × V)) (key : K) : Option V :=
  match l with
  | [] => none
  | (k, v) :: t => if k = key then some v else find t key

/-- `src/insert_map.rs:33-43` (`get`). -/
def get (m : InsertMap K V) (key : K) : Option V := find m.pairs key

/-- `src/insert_map.rs:52-66` (`get_or_insert`): value and new map. -/
def getOrInsert (m : InsertMap K V) (key : K) (init : V) : V × InsertMap K V :=
  match find m.pairs key with
  | some v => (v, m)
  | none => (init, ⟨(key, init) :: m.pairs⟩)

/-- `src/insert_map.rs:75-95` (`get_or_try_insert`).  `init` is evaluated only for a
vacant key. -/
def getOrTryInsert (m : InsertMap K V) (key : K) (init : Unit → Except E V) :
    Except E V × InsertMap K V :=
  match find m.pairs key with
  | some v => (.ok v, m)
  | none =>
    match init () with
    | .ok v => (.ok v, ⟨(key, v) :: m.pairs⟩)
    | .error e => (.error e, m)

/-- Removal of a key from the association list. -/
def eraseKey (l : List (K × V)) (key : K) : List (K × V) := l.filter (fun p => decide (p.1 ≠ key))

/-- `src/insert_map.rs:102-108` (`remove`). -/
def remove (m : InsertMap K V) (key : K) : Option V × InsertMap K V :=
  (find m.pairs key, ⟨eraseKey m.pairs key⟩)

/-- `src/insert_map.rs:115-120` (`retain`). -/
def retain (m : InsertMap K V) (f : K → V → Bool) : InsertMap K V :=
  ⟨m.pairs.filter (fun p => f p.1 p.2)⟩

/-- Overwriting the value of a present key (a `Cell` inside the value is set). -/
def update (m : InsertMap K V) (key : K) (g : V → V) : InsertMap K V :=
  ⟨m.pairs.map (fun p => if p.1 = key then (p.1, g p.2) else p)⟩

end InsertMap
end Blazesym.Cache
