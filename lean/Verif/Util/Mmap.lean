import Verif.Basic

/-! # Model of memory mappings and views on them (`src/mmap.rs`) -/

set_option autoImplicit false

namespace Blazesym.Util

/-- `src/mmap.rs:83-89` (`Mmap`): the mapped bytes, if any, and the view `start..stop` on them.
The contents are assumed not to change while mapped. -/
structure Mmap where
  mapping : Option Bytes
  start : Nat
  stop : Nat
  deriving DecidableEq, Repr

/-- `src/mmap.rs:47-78` (`Builder::map`), for a file with the given contents; failures of the
system calls are not modelled. -/
def Mmap.map (contents : Bytes) : Mmap :=
  if contents.length = 0 then ⟨none, 0, 1⟩ else ⟨some contents, 0, contents.length⟩

/-- `src/mmap.rs:116-125` (`constrain`); the additions panic on overflow. -/
def Mmap.constrain (m : Mmap) (rstart rend : Nat) : Except Err (Option Mmap) := do
  let stop ← addU64 m.start rend
  if stop > m.stop then .ok none
  else do
    let start ← addU64 m.start rstart
    .ok (some ⟨m.mapping, start, stop⟩)

/-- `[T]::get` with a range (standard library). -/
def getRange {α : Type} (l : List α) (start stop : Nat) : Option (List α) :=
  if start ≤ stop ∧ stop ≤ l.length then some ((l.drop start).take (stop - start)) else none

/-- `src/mmap.rs:128-140` (`Deref`). -/
def Mmap.deref (m : Mmap) : Bytes :=
  match m.mapping with
  | some b => (getRange b m.start m.stop).getD []
  | none => []

end Blazesym.Util
