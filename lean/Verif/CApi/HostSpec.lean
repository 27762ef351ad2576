import Verif.CApi.Host
import Verif.CApi.ProgramSpec

/-!
# What C programs with normalizers or inspectors can rely on: what is common

A program makes calls in any order, by any threads and in any worlds, and does what it wants with memory that is
its own.  `HostRuns` also keeps account of the results that were handed out and not freed yet, and of the memory
that is the program's own.
-/

set_option autoImplicit false

namespace Blazesym.CApi

/-- A result that was handed out: where, what it is, and the memory it takes up. -/
structure Given (R : Type) where
  ptr : Nat
  result : R
  blocks : List Block

variable {O S R W C : Type}

/-- The memory an object takes up. -/
def Tool.block (size : Nat) (o : Tool O S) : Block := ⟨o.addr, size, 8⟩

/-- All memory that belongs to the library. -/
def Host.library (size : Nat) (host : Host O S) (gs : List (Given R)) : List Block :=
  host.tools.map (Tool.block size) ++ gs.flatMap Given.blocks

/-- The programs there are, with the account of results and the memory of their own.  `step` is what calls do,
`abides` are the rules for calls, and `accounts` says how a call changes the account.  Programs may also call
functions of the library that have nothing to do with these objects: those set the last error of a thread, and
the memory they allocate counts as memory of the program. -/
inductive HostRuns (size : Nat) (step : W → Nat → Host O S → C → Except Fault (Nat × Host O S))
    (abides : Host O S → List (Given R) → W → C → Prop)
    (accounts : Host O S → Host O S → W → C → Nat → List (Given R) → List (Given R) → Prop) :
    Host O S → List (Given R) → List Block → Prop where
  | start (s : Store) : s.Valid → HostRuns size step abides accounts ⟨s, LastErr.init, []⟩ [] s.blocks
  | own (host : Host O S) (gs : List (Given R)) (os os' : List Block) (s' : Store) :
      HostRuns size step abides accounts host gs os → OwnWork (host.library size gs) os' host.store s' →
      HostRuns size step abides accounts { host with store := s' } gs os'
  | error (host : Host O S) (gs : List (Given R)) (os : List Block) (thread : Nat) (err : Int) :
      HostRuns size step abides accounts host gs os →
      HostRuns size step abides accounts { host with errs := host.errs.set thread err } gs os
  | call (host host' : Host O S) (gs gs' : List (Given R)) (os : List Block) (w : W) (thread ret : Nat) (c : C) :
      HostRuns size step abides accounts host gs os → abides host gs w c → step w thread host c = .ok (ret, host') →
      accounts host host' w c ret gs gs' → HostRuns size step abides accounts host' gs' os

/-- The account after a result was handed out, or nothing: the memory of the result is what is new. -/
def HandedOver (host host' : Host O S) (ret : Nat) (result : R) (gs gs' : List (Given R)) : Prop :=
  (ret = 0 ∧ gs' = gs) ∨ ∃ (bs : List Block), ret ≠ 0 ∧ host'.store.blocks.Perm (bs ++ host.store.blocks)
    ∧ gs' = ⟨ret, result, bs⟩ :: gs

/-- Only what was handed out is freed. -/
def MayFree (gs : List (Given R)) (ptr : Nat) : Prop := ptr = 0 ∨ ∃ (g : Given R), g ∈ gs ∧ g.ptr = ptr

/-- The account after something was freed. -/
def Released (ptr : Nat) (gs gs' : List (Given R)) : Prop := gs' = gs.filter fun g => g.ptr != ptr

/-- The last error of a thread is set, and no other one. -/
def HostError (host host' : Host O S) (thread : Nat) (err : Int) : Prop :=
  ∀ (t : Nat), host'.errs t = if t = thread then err else host.errs t

/-- An object takes on another state, no other one does, and the last error of the thread is set. -/
structure HostChanged (host host' : Host O S) (o : Tool O S) (state : S) (thread : Nat) (err : Int) : Prop where
  tools : ∀ (x : Tool O S), x ∈ host'.tools ↔ (x ∈ host.tools ∧ x.addr ≠ o.addr) ∨ x = { o with state }
  errs : HostError host host' thread err

/-- Nothing happens but that the last error of the thread is set. -/
structure HostRefused (host host' : Host O S) (thread : Nat) (err : Int) : Prop where
  store : host'.store = host.store
  tools : host'.tools = host.tools
  errs : HostError host host' thread err

/-- A new object, in memory that was not in use. -/
structure HostCreated (size : Nat) (host host' : Host O S) (addr : Nat) (opts : O) (state : S) (thread : Nat) : Prop where
  notNull : addr ≠ 0
  tools : host'.tools = ⟨addr, opts, state⟩ :: host.tools
  errs : HostError host host' thread 0
  blocks : host'.store.blocks = ⟨addr, size, 8⟩ :: host.store.blocks
  kept : Unchanged host.store.mem host'.store.mem host.store.blocks

/-- The object is gone, with its memory, and nothing else is changed, not even the last error. -/
structure HostDestroyed (size : Nat) (host host' : Host O S) (addr : Nat) : Prop where
  tools : ∀ (x : Tool O S), x ∈ host'.tools ↔ x ∈ host.tools ∧ x.addr ≠ addr
  errs : host'.errs = host.errs
  blocks : host.store.blocks.Perm (⟨addr, size, 8⟩ :: host'.store.blocks)
  kept : Unchanged host.store.mem host'.store.mem host'.store.blocks

/-- A result is gone, with its memory, and nothing else is changed, not even the last error. -/
structure HostReleased (host host' : Host O S) (g : Given R) : Prop where
  tools : host'.tools = host.tools
  errs : host'.errs = host.errs
  blocks : host.store.blocks.Perm (g.blocks ++ host'.store.blocks)
  kept : Unchanged host.store.mem host'.store.mem host'.store.blocks

end Blazesym.CApi
