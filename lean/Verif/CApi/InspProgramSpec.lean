import Verif.CApi.HostSpec
import Verif.CApi.InspProgram
import Verif.CApi.InspectSpec
import Verif.CApi.InputSpec
import Verif.Session.InspectorSpec

/-! # What C programs with inspectors can rely on -/

set_option autoImplicit false

namespace Blazesym.CApi

open Blazesym.Inspect

variable {M : Type} [DecidableEq M]

/-- The arguments of a request, as they are in memory: a path, whether to use debug information, and names. -/
structure InspectArgs (m : Mem) (src names cnt : Nat) (path : Bytes) (debugSyms : Bool) (strs : List Bytes) : Prop where
  src : inputAs m src .inspectElf (inspectElf m) = .ok (.ok (path, debugSyms))
  names : ∃ (ptrs : List Nat), userArray m names 8 cnt = .ok ptrs ∧ List.Forall₂ (CStrAt m) ptrs strs

/-- The result of a lookup as a C program sees it: for each name, a pointer to an array of its symbols that ends
with zeros. -/
def ListsAt (m : Mem) (p : Nat) (lists : List (List SymInfo)) : Prop :=
  ∃ (a a' c c' : Nat), ListArray m p a a' c c' lists

/-- The numbers of symbols are in range of their Rust types. -/
def FitLists (r : Except Err (List (List SymInfo))) : Prop :=
  ∀ (lists : List (List SymInfo)), r = .ok lists → ∀ (infos : List SymInfo), infos ∈ lists →
    ∀ (info : SymInfo), info ∈ infos → SymInfo.Fits info

/-- The rules for calls: only what was handed out is freed.  `ok` is a further condition on the requests that
reach an inspector. -/
def InspAbides (tools : Dwarf.Tools) (ok : World M → Inspect.Source → Prop)
    (host : InspHost M) (gs : List (Given (List (List SymInfo)))) (w : World M) (c : InspCall) : Prop :=
  (∀ (syms : Nat), c = .symsFree syms → MayFree gs syms) ∧
  ∀ (o : Tool Unit (Inspector M)) (src names cnt : Nat) (path : Bytes) (debugSyms : Bool) (strs : List Bytes),
    o ∈ host.tools → c = .inspect o.addr src names cnt → InspectArgs host.store.mem src names cnt path debugSyms strs →
    ok w (.elf path debugSyms) ∧ FitLists (o.state.lookup tools w (.elf path debugSyms) strs).1

/-- How calls change the account of results. -/
def InspAccounts (tools : Dwarf.Tools) (host host' : InspHost M) (w : World M) (c : InspCall) (ret : Nat)
    (gs gs' : List (Given (List (List SymInfo)))) : Prop :=
  match c with
  | .inspect insp src names cnt => ∃ (lists : List (List SymInfo)),
      (∀ (o : Tool Unit (Inspector M)) (path : Bytes) (debugSyms : Bool) (strs : List Bytes) (lists' : List (List SymInfo)),
        o ∈ host.tools → o.addr = insp → InspectArgs host.store.mem src names cnt path debugSyms strs →
        (o.state.lookup tools w (.elf path debugSyms) strs).1 = .ok lists' → lists = lists') ∧
      HandedOver host host' ret lists gs gs'
  | .symsFree syms => Released syms gs gs'
  | _ => gs' = gs

/-- The programs there are. -/
abbrev InspRuns (tools : Dwarf.Tools) (size : Nat) (alloc : Allocator) (ok : World M → Inspect.Source → Prop) :
    InspHost M → List (Given (List (List SymInfo))) → List Block → Prop :=
  HostRuns size (inspStep tools size alloc) (InspAbides tools ok) (InspAccounts tools)

/-- A result is handed out, in one piece of memory that was not in use. -/
structure InspHandsOut (host host' : InspHost M) (ptr : Nat) (lists : List (List SymInfo)) : Prop where
  notNull : ptr ≠ 0
  there : ListsAt host'.store.mem ptr lists
  blocks : ∃ (b : Block), host'.store.blocks = b :: host.store.blocks
  kept : Unchanged host.store.mem host'.store.mem host.store.blocks

end Blazesym.CApi
