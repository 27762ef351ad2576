import Verif.Session.Inspector
import Verif.Session.Spec

/-!
# Specification of the inspector: answers without any cache

What is looked up is in the file that is at the path when the call is made.
-/

set_option autoImplicit false

namespace Blazesym.Spec.Inspect
open Blazesym.Cache Blazesym.Dwarf Blazesym.Inspect

variable {M : Type}

/-- The symbol file at a path. -/
def breakpadNow (w : World M) (path : Bytes) : Except Err Breakpad.SymbolFile :=
  match w.disk.opened path with
  | .error e => .error e
  | .ok (.error e) => .error e
  | .ok (.ok data) => Breakpad.fromBytes data

/-- The ELF file at a path, with or without its debug information. -/
def elfNow (t : Tools) (w : World M) (path : Bytes) (debugSyms : Bool) : Except Err ElfResolver :=
  if debugSyms then openWithDebugDirs t w.files w.disk [ascii "/usr/lib/debug", ascii "/lib/debug/"] path
  else
    match openParser w.disk path with
    | .error e => .error e
    | .ok p => .ok (.elf p)

/-- Look up names. -/
def lookupNow (t : Tools) (w : World M) (src : Source) (names : List Bytes) :
    Except Err (List (List CApi.SymInfo)) :=
  match src with
  | .breakpad path =>
    match breakpadNow w path with
    | .error e => .error e
    | .ok file => lookupNames (fun name => breakpadFindAddr file name ⟨true, .undefined⟩) names
  | .elf path debugSyms =>
    match elfNow t w path debugSyms with
    | .error e => .error e
    | .ok r => lookupNames (fun name => r.findAddr t name ⟨true, .undefined⟩) names

/-- Visit all symbols. -/
def forEachNow {S : Type} (t : Tools) (w : World M) (src : Source) (f : S → CApi.SymInfo → S × Bool)
    (a : S) : Except Err _root_.Unit × S :=
  match src with
  | .breakpad path =>
    match breakpadNow w path with
    | .error e => (.error e, a)
    | .ok file => file.forEach .undefined (fun a i => f a (withModule none i)) a
  | .elf path debugSyms =>
    match elfNow t w path debugSyms with
    | .error e => (.error e, a)
    | .ok r => r.forEach t ⟨true, .undefined⟩ f a

/-- The inspectors a program can have: a new one, and what it becomes by calls that satisfy a
condition. Every call is made in a world of its own. -/
inductive Reachable [DecidableEq M] (t : Tools) (ok : World M → Source → Prop) : Inspector M → Prop where
  | new : Reachable t ok Inspector.new
  | lookup (s : Inspector M) (w : World M) (src : Source) (names : List Bytes) :
      Reachable t ok s → ok w src → Reachable t ok (s.lookup t w src names).2
  | forEach (s : Inspector M) (w : World M) (src : Source) (S : Type)
      (f : S → CApi.SymInfo → S × Bool) (a : S) :
      Reachable t ok s → ok w src → Reachable t ok (s.forEach t w src f a).2

/-- Files do not change their contents: an identity stands for the same contents in all worlds.
(Another file at the same path, or one that was written to, has another identity.) -/
def SameContents (contents : M → Except Err (Except Err Bytes)) (w : World M) (_ : Source) : Prop :=
  w.disk.contents = contents

/-- A file is always used under one name, and the debug information found for it is always the same
and in other files. (`C66` says where it is searched.) -/
def Orderly (t : Tools) (u : Universe Bytes M (Except Err Bytes) ElfParser DebugData) (w : World M)
    (src : Source) : Prop :=
  w.disk.contents = u.contents ∧
  match src with
  | .breakpad _ => True
  | .elf path debugSyms => ∀ m, w.disk.stat path = .ok m → u.name m = path ∧
      (debugSyms = true → u.Settled
        (fromParser t w.files [ascii "/usr/lib/debug", ascii "/lib/debug/"]) w.disk.stat m)

/-- Everything about a symbol except for the module. -/
def Alike (a b : CApi.SymInfo) : Prop := { a with module := none } = { b with module := none }

end Blazesym.Spec.Inspect
