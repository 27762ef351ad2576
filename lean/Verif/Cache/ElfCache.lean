import Verif.Cache.FileCache

/-!
# Model of the ELF resolver cache and of `Symbolizer::cache`/`evict`

`src/elf/resolver.rs:40-151` on top of the file cache, and `src/symbolize/symbolizer.rs:1069-1144`.
An `ElfParser` is an element of `Pr`, the DWARF part of a resolver an element of `D`.
Parsing (`ElfParser::from_file`) and building the DWARF part are arguments; the nested
lookups that building the DWARF part performs on the same cache (debug link destination
and `.dwp` file, `src/dwarf/resolver.rs:139-229`) are passed as the list `nested` of the
lookups that are actually made.
-/

set_option autoImplicit false

namespace Blazesym.Cache

universe u v w x y

/-- `src/elf/resolver.rs:42-63` (`ElfResolverData`): `elf` is the plain resolver, `dwarf`
the one with debug information; each refers to a parser. -/
structure ElfData (Pr : Type u) (D : Type v) where
  elf : Option Pr
  dwarf : Option (Pr × D)
  deriving DecidableEq, Repr

variable {P : Type u} {M : Type v} {F : Type w} {Pr : Type x} {D : Type y}
  [DecidableEq P] [DecidableEq M]

/-- The cache used by the symbolizer. -/
abbrev ElfCache (P : Type u) (M : Type v) (F : Type w) (Pr : Type x) (D : Type y) :=
  FileCache P M F (ElfData Pr D)

namespace ElfCache

/-- Change the content of the once-cell of the entry at `m`. -/
def setValue (s : ElfCache P M F Pr D) (m : M) (v : ElfData Pr D) : ElfCache P M F Pr D :=
  { s with entries := s.entries.update m (fun e => { e with value := some v }) }

/-- `src/elf/resolver.rs:72-127` (`elf_resolver`) with `debug_dirs` being `None`. -/
def plain (s : ElfCache P M F Pr D) (path : P) (st : Except Err M) (o : Except Err F)
    (parse : F → Except Err Pr) : Except Err Pr × ElfCache P M F Pr D :=
  match s.entry path st o with
  | (.error e, s) => (.error e, s)
  | (.ok (m, e), s) =>
    match e.value with
    | some data =>
      match data.elf with
      | some p => (.ok p, s)
      | none =>
        match data.dwarf with
        | none => (.error .panic, s)
        | some (p, _) => (.ok p, setValue s m { data with elf := some p })
    | none =>
      match parse e.file with
      | .error err => (.error err, s)
      | .ok p => (.ok p, setValue s m ⟨some p, none⟩)

/-- A lookup of another file made while the DWARF part of a resolver is built. -/
structure Nested (P : Type u) (M : Type v) (F : Type w) where
  path : P
  stat : Except Err M
  opened : Except Err F

/-- The nested lookups, in order, with their results. -/
def runNested (parse : F → Except Err Pr) : List (Nested P M F) → ElfCache P M F Pr D →
    List (Except Err Pr) × ElfCache P M F Pr D
  | [], s => ([], s)
  | n :: ns, s =>
    let (r, s) := plain s n.path n.stat n.opened parse
    let (rs, s) := runNested parse ns s
    (r :: rs, s)

/-- `src/elf/resolver.rs:72-127` (`elf_resolver`) with `debug_dirs` being `Some`.  `build`
is `DwarfResolver::from_parser` applied to the results of its nested lookups. -/
def dwarf (s : ElfCache P M F Pr D) (path : P) (st : Except Err M) (o : Except Err F)
    (parse : F → Except Err Pr) (nested : List (Nested P M F))
    (build : Pr → List (Except Err Pr) → Except Err D) :
    Except Err (Pr × D) × ElfCache P M F Pr D :=
  match s.entry path st o with
  | (.error e, s) => (.error e, s)
  | (.ok (m, e), s) =>
    match e.value with
    | some data =>
      match data.dwarf with
      | some r => (.ok r, s)
      | none =>
        match data.elf with
        | none => (.error .panic, s)
        | some p =>
          let (rs, s) := runNested parse nested s
          match build p rs with
          | .error err => (.error err, s)
          | .ok d =>
            -- `get_or_init` on the `dwarf` cell, which a nested lookup never sets
            match s.entries.get m with
            | none => (.error .panic, s)
            | some e' =>
              match e'.value with
              | none => (.error .panic, s)
              | some data' =>
                match data'.dwarf with
                | some r => (.ok r, s)
                | none => (.ok (p, d), setValue s m { data' with dwarf := some (p, d) })
    | none =>
      match parse e.file with
      | .error err => (.error err, s)
      | .ok p =>
        let (rs, s) := runNested parse nested s
        match build p rs with
        | .error err => (.error err, s)
        | .ok d =>
          -- `cell.get_or_init`, then `data.dwarf.get().unwrap()`
          match s.entries.get m with
          | none => (.error .panic, s)
          | some e' =>
            match e'.value with
            | none => (.ok (p, d), setValue s m ⟨none, some (p, d)⟩)
            | some data' =>
              match data'.dwarf with
              | some r => (.ok r, s)
              | none => (.error .panic, s)

/-- `src/symbolize/symbolizer.rs:1069-1088` (`Symbolizer::cache` for `Cache::Elf`), with the
plain resolver (`maybe_debug_dirs(false)` is `None`).  `fill` is `ElfResolver::cache`, which
fills caches inside the parser. -/
def cacheElf (s : ElfCache P M F Pr D) (path : P) (st : Except Err M) (o : Except Err F)
    (parse : F → Except Err Pr) (fill : Pr → Except Err Unit) :
    Except Err Unit × ElfCache P M F Pr D :=
  let s := (s.setPinState path false).2
  let (result, s) := plain s path st o parse
  let s := (s.setPinState path true).2
  match result with
  | .error e => (.error e, s)
  | .ok r => (fill r, s)

end ElfCache

/-- `src/symbolize/symbolizer.rs:1089-1098` (`Symbolizer::cache` for `Cache::Process`): the
VMA cache after the request, `parsed` being the result of reading the maps file.  A hash map
from process to entries is a function. -/
def cacheProcess {Pid : Type u} {E : Type v} [DecidableEq Pid] (vmas : Pid → Option (List E))
    (pid : Pid) (cacheVmas : Bool) (parsed : Except Err (List E)) :
    Except Err Unit × (Pid → Option (List E)) :=
  if cacheVmas then
    match parsed with
    | .error e => (.error e, vmas)
    | .ok l => (.ok (), fun q => if q = pid then some l else vmas q)
  else (.ok (), vmas)

/-- `src/symbolize/symbolizer.rs:1135-1139` (`Symbolizer::evict` for `Evict::Process`), the
VMA part. -/
def evictProcess {Pid : Type u} {E : Type v} [DecidableEq Pid] (vmas : Pid → Option (List E))
    (pid : Pid) : Pid → Option (List E) :=
  fun q => if q = pid then none else vmas q

end Blazesym.Cache
