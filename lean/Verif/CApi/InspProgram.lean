import Verif.CApi.Host
import Verif.Session.Inspector

/-!
# Model of programs that use inspectors through the C interface (`capi/src/inspect.rs`)

Here the inspector is that of `Verif.Session.Inspector`, with its caches.  A call takes place in a world that does
not change meanwhile, and calls do not overlap (`blaze_inspector` must not be used by several threads at once).
-/

set_option autoImplicit false

namespace Blazesym.CApi

open Blazesym.Error Blazesym.Inspect

variable {M : Type} [DecidableEq M]

/-- The functions for inspection; pointers are addresses. -/
inductive InspCall where
  | new
  | free (insp : Nat)
  | inspect (insp src names cnt : Nat)
  | symsFree (syms : Nat)
  deriving DecidableEq, Repr

/-- A program with inspectors; they have no options. -/
abbrev InspHost (M : Type) := Host Unit (Inspector M)

/-- `capi/src/inspect.rs:284-326` (`blaze_inspect_syms_elf`). -/
def inspectIn (tools : Dwarf.Tools) (alloc : Allocator) (w : World M) (host : InspHost M) (thread insp src names cnt : Nat) :
    Except Fault (Nat × InspHost M) := do
  match ← inputAs host.store.mem src .inspectElf (inspectElf host.store.mem) with
  | .error e => return (0, host.report thread (errCode e))
  | .ok (path, debugSyms) =>
    let o ← host.tool insp
    let ptrs ← userArray host.store.mem names 8 cnt
    let strs ← cstrings host.store.mem ptrs
    let strs ← utf8Strings strs
    let (r, state) := o.state.lookup tools w (.elf path debugSyms) strs
    match ← outcome r with
    | .ok lists =>
      let buf ← convertSymLists (fun size => alloc host.store size 8) lists
      let (ret, err) := reportBuffer buf
      let (ptr, store) := host.store.take ret
      return (ptr, { (host.update insp state).report thread err with store })
    | .error e => return (0, (host.update insp state).report thread (errCode e))

/-- A call by a thread: what it returns (0 for functions that return nothing) and what becomes of the program.
`size` is that of an inspector. -/
def inspStep (tools : Dwarf.Tools) (size : Nat) (alloc : Allocator) (w : World M) (thread : Nat) (host : InspHost M) :
    InspCall → Except Fault (Nat × InspHost M)
  -- `capi/src/inspect.rs:360-365`
  | .new => host.create size alloc thread () Inspector.new
  | .free insp => host.destroy size insp
  | .inspect insp src names cnt => inspectIn tools alloc w host thread insp src names cnt
  -- `capi/src/inspect.rs:335-343`; the same as `blaze_syms_free`
  | .symsFree syms => do
    let store ← host.store.freeSyms syms
    return (0, { host with store })

end Blazesym.CApi
