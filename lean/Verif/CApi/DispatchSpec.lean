import Verif.CApi.Dispatch
import Verif.CApi.OutputSpec
import Verif.CApi.InputSpec
import Verif.Session.AnswerSpec

/-! Specification of dispatchers of the C interface (C88). -/

set_option autoImplicit false

namespace Blazesym.CApi

open Blazesym.Symbolize

/-- What a C function may do that is asked for a file: memory stays in order, the strings it was called with are
not freed, and what it returns is `NULL` or a string it has got from `malloc`, for as many bytes as it needs or
more. -/
structure AnswersWell (strings : List Block) (result : Nat) (after : Store) : Prop where
  valid : after.Valid
  kept : ∀ (b : Block), b ∈ strings → b ∈ after.blocks
  string : result ≠ 0 → ∃ (path : Bytes) (size : Nat), CStrAt after.mem result path ∧ path.length < size
    ∧ ⟨result, size, 16⟩ ∈ after.blocks

/-- The blocks are freed: nothing else is, and memory outside of them is the same. -/
structure OnlyFreed (before after : Store) (bs : List Block) : Prop where
  blocks : before.blocks.Perm (bs ++ after.blocks)
  same : ∀ (x : Nat), (∀ (b : Block), b ∈ bs → ¬ (b.addr ≤ x ∧ x < b.addr + b.size)) → after.mem x = before.mem x

/-- A file that a C function may name for a mapping, by the kernel's link to the file and its name. -/
abbrev Alternative := Bytes → Bytes → Option Bytes

/-- What a symbolizer is to do about a mapping: `none` is what it would do without a dispatcher. -/
inductive Dispatched (alternative : Alternative) (opened : Bytes → Except Err Resolver) :
    Maps.PathName → Except Err (Option Resolver) → Prop
  | component (c : Bytes) : Dispatched alternative opened (.component c) (.ok none)
  | nul (p : Maps.EntryPath) : 0 ∈ p.mapsFile ∨ 0 ∈ p.symbolicPath →
      Dispatched alternative opened (.path p) (.error .invalidData)
  | usual (p : Maps.EntryPath) : 0 ∉ p.mapsFile → 0 ∉ p.symbolicPath →
      alternative p.mapsFile p.symbolicPath = none → Dispatched alternative opened (.path p) (.ok none)
  | file (p : Maps.EntryPath) (path : Bytes) (r : Resolver) : 0 ∉ p.mapsFile → 0 ∉ p.symbolicPath →
      alternative p.mapsFile p.symbolicPath = some path → opened path = .ok r →
      Dispatched alternative opened (.path p) (.ok (some r))
  | failed (p : Maps.EntryPath) (path : Bytes) (e : Err) : 0 ∉ p.mapsFile → 0 ∉ p.symbolicPath →
      alternative p.mapsFile p.symbolicPath = some path → opened path = .error e →
      Dispatched alternative opened (.path p) (.error e)

/-- The memory of a program when the function is called: the two strings were added to it. -/
structure Called (s : Store) (p : Maps.EntryPath) (during : Store) (maps sym : Nat) : Prop where
  valid : during.Valid
  blocks : during.blocks.Perm (⟨sym, p.symbolicPath.length + 1, 1⟩ :: ⟨maps, p.mapsFile.length + 1, 1⟩ :: s.blocks)
  same : Unchanged s.mem during.mem s.blocks
  maps : CStrAt during.mem maps p.mapsFile
  sym : CStrAt during.mem sym p.symbolicPath

/-- What a returned address means: `NULL` is no answer, and otherwise there is a string, in memory that the
caller is to free. -/
def Answer (result : Nat) (after : Store) : Option Bytes → List Block → Prop
  | none, bs => result = 0 ∧ bs = []
  | some path, bs => result ≠ 0 ∧ CStrAt after.mem result path ∧
      ∃ (size : Nat), bs = [⟨result, size, 16⟩] ∧ ⟨result, size, 16⟩ ∈ after.blocks

/-- The dispatcher of a symbolizer does what a C function says, in a world. -/
def DispatchesBy {M K : Type} (cfg : Settings M K) (w : World M) (alternative : Alternative) : Prop :=
  ∃ (f : Nat → Nat → Maps.PathName → Except Err (Option Resolver)), cfg.processDispatch = some f ∧
    ∀ (start stop : Nat) (name : Maps.PathName),
      Dispatched alternative (openDispatched cfg.tools w (some cfg.debugDirs)) name (f start stop name)

end Blazesym.CApi
