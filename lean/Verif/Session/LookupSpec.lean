import Verif.Symbolize.Symbolizer

/-!
# What a request needs, and when answers are the same

Which resolvers a request asks for depends on the source and, for a process, on its mappings only.
-/

set_option autoImplicit false

namespace Blazesym.Spec.Symbolize
open Blazesym.Symbolize Blazesym.Util Blazesym.Maps

/-- Something a symbolizer looks up. A file has the path where it is and the one that is reported. -/
inductive Lookup where
  | apk (actual represented : Bytes) (debugSyms : Bool)
  | breakpad (path : Bytes)
  | elf (actual represented : Bytes) (debugSyms : Bool)
  | kernel (src : KernelSource)
  | gsym (path : Bytes)
  | perfMap (pid : Nat)
  | vdso (pid start stop : Nat)
  | dispatch (start stop : Nat) (name : PathName)

/-- What may be looked up for an address in a mapping of a process. -/
inductive UsesEntry (src : ProcessSource) (e : Entry) : Lookup → Prop where
  | dispatch (name : PathName) : e.pathName = some name → UsesEntry src e (.dispatch e.start e.stop name)
  | apk (p : EntryPath) : e.pathName = some (.path p) →
      (extension p.symbolicPath = some (ascii "apk") ∨ extension p.symbolicPath = some (ascii "zip")) →
      UsesEntry src e (.apk (if src.mapFiles then p.mapsFile else p.symbolicPath) p.symbolicPath src.debugSyms)
  | elf (p : EntryPath) : e.pathName = some (.path p) →
      UsesEntry src e (.elf (if src.mapFiles then p.mapsFile else p.symbolicPath) p.symbolicPath src.debugSyms)
  | vdso : e.pathName = some (.component (ascii "[vdso]")) → src.vdso = true →
      UsesEntry src e (.vdso src.pid e.start e.stop)
  | perfMap : e.pathName = none → src.perfMap = true → UsesEntry src e (.perfMap src.pid)

/-- What may be looked up for a request, `maps` being the mappings of processes. -/
inductive Uses (maps : Nat → Except Err (List (Except Err Entry))) : Source → Lookup → Prop where
  | apk (path : Bytes) (debugSyms : Bool) : Uses maps (.apk path debugSyms) (.apk path path debugSyms)
  | breakpad (path : Bytes) : Uses maps (.breakpad path) (.breakpad path)
  | elf (path : Bytes) (debugSyms : Bool) : Uses maps (.elf path debugSyms) (.elf path path debugSyms)
  | kernel (src : KernelSource) : Uses maps (.kernel src) (.kernel src)
  | gsym (path : Bytes) : Uses maps (.gsymFile path) (.gsym path)
  | process (src : ProcessSource) (items : List (Except Err Entry)) (e : Entry) (l : Lookup) :
      maps src.pid = .ok items → .ok e ∈ items → UsesEntry src e l → Uses maps (.process src) l

/-- Both fail with the same error, or both succeed and the results are related. -/
inductive ERel {ε α β : Type} (R : α → β → Prop) : Except ε α → Except ε β → Prop where
  | error (e : ε) : ERel R (.error e) (.error e)
  | ok (a : α) (b : β) : R a b → ERel R (.ok a) (.ok b)

/-- The same symbol, with modules that are related. -/
def SymRel (Q : Option Bytes → Option Bytes → Prop) (a b : Sym) : Prop :=
  { a with module := none } = { b with module := none } ∧ Q a.module b.module

/-- The same answer, with modules that are related. -/
inductive OutRel (Q : Option Bytes → Option Bytes → Prop) : Symbolized → Symbolized → Prop where
  | sym (a b : Sym) : SymRel Q a b → OutRel Q (.sym a) (.sym b)
  | unknown (reason : Reason) : OutRel Q (.unknown reason) (.unknown reason)

end Blazesym.Spec.Symbolize
