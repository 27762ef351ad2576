import Verif.CApi.Program

/-!
# Model of C programs with normalizers or inspectors

Like symbolizers in `Verif.CApi.Program`, normalizers and inspectors are objects on the heap, with the caches they
have filled; the bytes of the objects themselves are opaque.  What is common to both is here: it is modelled for
objects with any options (`O`) and any state (`S`).
-/

set_option autoImplicit false

namespace Blazesym.CApi

open Blazesym.Error

/-- An object, the options it was built with, and its address. -/
structure Tool (O S : Type) where
  addr : Nat
  opts : O
  state : S

/-- A program: its memory, the last error of every thread, and the objects it has. -/
structure Host (O S : Type) where
  store : Store
  errs : LastErr
  tools : List (Tool O S)

variable {O S : Type}

/-- `&*normalizer` (`capi/src/normalize.rs:740`), `&*inspector` (`capi/src/inspect.rs:297`): undefined behaviour
unless there is such an object. -/
def Host.tool (host : Host O S) (addr : Nat) : Except Fault (Tool O S) :=
  match host.tools.find? fun o => o.addr == addr with
  | some o => .ok o
  | none => .error .outOfBounds

/-- The object is changed (it has interior mutability). -/
def Host.update (host : Host O S) (addr : Nat) (state : S) : Host O S :=
  { host with tools := host.tools.map fun o => if o.addr = addr then { o with state } else o }

/-- `capi/src/error.rs:85-87` (`set_last_err`). -/
def Host.report (host : Host O S) (thread : Nat) (err : Int) : Host O S :=
  { host with errs := host.errs.set thread err }

/-- `Box::into_raw(Box::new(..))`, with `set_last_err(blaze_err::OK)` (`capi/src/normalize.rs:190-192`, `233-235`,
`capi/src/inspect.rs:362-364`).  `size` is that of the object. -/
def Host.create (size : Nat) (alloc : Allocator) (host : Host O S) (thread : Nat) (opts : O) (state : S) :
    Except Fault (Nat × Host O S) := do
  let (addr, store) ← host.store.box alloc 8 (List.replicate size none)
  return (addr, { store, errs := host.errs.set thread ok, tools := ⟨addr, opts, state⟩ :: host.tools })

/-- `capi/src/normalize.rs:248-254` (`blaze_normalizer_free`), `capi/src/inspect.rs:377-383`
(`blaze_inspector_free`). -/
def Host.destroy (size : Nat) (host : Host O S) (addr : Nat) : Except Fault (Nat × Host O S) :=
  if addr = 0 then .ok (0, host)
  else do
    let _ ← host.tool addr
    let store ← host.store.free ⟨addr, size, 8⟩
    return (0, { host with store, tools := host.tools.filter fun o => o.addr != addr })

end Blazesym.CApi
