import Verif.Cache.ElfCache

/-!
# Lookups that fill the caches

The requests of a symbolizer and of an inspector open the files they need through file caches
(`Verif.Cache.FileCache`).  Here are the functions that look up a file and create what is cached for
it, and the creation of a resolver with debug information, which looks up further files.
-/

set_option autoImplicit false

namespace Blazesym.Cache

variable {P M F T Pr D : Type} [DecidableEq P] [DecidableEq M]

/-- The file system at the moment of a call: the identity of the file at a path, and what opening a
file of that identity yields. -/
structure Disk (P M F : Type) where
  stat : P → Except Err M
  contents : M → Except Err F

/-- What `File::open` returns for a path. -/
def Disk.opened (d : Disk P M F) (path : P) : Except Err F :=
  match d.stat path with
  | .error e => .error e
  | .ok m => d.contents m

/-- `src/symbolize/symbolizer.rs:818-823` (`gsym_resolver`), `:912-916` (`breakpad_resolver`),
`src/inspect/inspector.rs:66-70` (`breakpad_resolver`), `src/kernel/cache.rs:83-87`
(`ksym_resolver`): the lookup of an entry and `get_or_try_init_` on its cell. -/
def FileCache.resolve (s : FileCache P M F T) (disk : Disk P M F) (path : P)
    (create : F → Except Err T) : Except Err T × FileCache P M F T :=
  match s.entry path (disk.stat path) (disk.opened path) with
  | (.error e, s) => (.error e, s)
  | (.ok (m, e), s) =>
    match e.value with
    | some t => (.ok t, s)
    | none =>
      match create e.file with
      | .error err => (.error err, s)
      | .ok t => (.ok t, s.initValue m t)

/-- `src/symbolize/symbolizer.rs:923-940` (`perf_map_resolver`): a file that does not exist is not an
error. -/
def FileCache.resolveOptional (s : FileCache P M F T) (disk : Disk P M F) (path : P)
    (create : F → Except Err T) : Except Err (Option T) × FileCache P M F T :=
  match s.entry path (disk.stat path) (disk.opened path) with
  | (.error .notFound, s) => (.ok none, s)
  | (.error e, s) => (.error e, s)
  | (.ok (m, e), s) =>
    match e.value with
    | some t => (.ok (some t), s)
    | none =>
      match create e.file with
      | .error err => (.error err, s)
      | .ok t => (.ok (some t), s.initValue m t)

/-- A computation that looks up other files: it is done, or it asks for the parser of the file at a
path and goes on with the answer. -/
inductive Prog (P Pr D : Type) where
  | done (result : Except Err D)
  | ask (path : P) (next : Except Err Pr → Prog P Pr D)

/-- A computation whose lookups are answered by a function. -/
def Prog.eval (lookup : P → Except Err Pr) : Prog P Pr D → Except Err D
  | .done r => r
  | .ask p k => (k (lookup p)).eval lookup

/-- The paths a computation asks for when its lookups are answered by a function. -/
def Prog.asked (lookup : P → Except Err Pr) : Prog P Pr D → List P
  | .done _ => []
  | .ask p k => p :: (k (lookup p)).asked lookup

namespace ElfCache

/-- `src/elf/resolver.rs:72-131` (`elf_resolver`) with `debug_dirs` being `None`, on a disk. -/
def plainOn (s : ElfCache P M F Pr D) (disk : Disk P M F) (parse : P → F → Except Err Pr)
    (path represented : P) : Except Err Pr × ElfCache P M F Pr D :=
  plain s path (disk.stat path) (disk.opened path) (parse represented)

/-- A computation whose lookups go through the cache (`elf_cache.elf_resolver(&path, None)` in
`src/dwarf/resolver.rs:139-221`). -/
def runProg (disk : Disk P M F) (parse : P → F → Except Err Pr) :
    Prog P Pr D → ElfCache P M F Pr D → Except Err D × ElfCache P M F Pr D
  | .done r, s => (r, s)
  | .ask p k, s =>
    match plainOn s disk parse p p with
    | (r, s) => runProg disk parse (k r) s

/-- `src/elf/resolver.rs:72-131` (`elf_resolver`) with `debug_dirs` being `Some`, on a disk. `build`
is `DwarfResolver::from_parser`. -/
def dwarfOn (s : ElfCache P M F Pr D) (disk : Disk P M F) (parse : P → F → Except Err Pr)
    (build : Pr → Prog P Pr D) (path represented : P) :
    Except Err (Pr × D) × ElfCache P M F Pr D :=
  match s.entry path (disk.stat path) (disk.opened path) with
  | (.error e, s) => (.error e, s)
  | (.ok (m, e), s) =>
    match e.value with
    | some data =>
      match data.dwarf with
      | some r => (.ok r, s)
      | none =>
        match data.elf with
        | none => (.error .panic, s)
        | some p =>
          match runProg disk parse (build p) s with
          | (.error err, s) => (.error err, s)
          | (.ok d, s) =>
            match s.entries.get m with
            | none => (.error .panic, s)
            | some e' =>
              match e'.value with
              | none => (.error .panic, s)
              | some data' =>
                match data'.dwarf with
                | some r => (.ok r, s)
                | none => (.ok (p, d), setValue s m { data' with dwarf := some (p, d) })
    | none =>
      match parse represented e.file with
      | .error err => (.error err, s)
      | .ok p =>
        match runProg disk parse (build p) s with
        | (.error err, s) => (.error err, s)
        | (.ok d, s) =>
          -- `cell.get_or_init`, then `data.dwarf.get().unwrap()`
          match s.entries.get m with
          | none => (.error .panic, s)
          | some e' =>
            match e'.value with
            | none => (.ok (p, d), setValue s m ⟨none, some (p, d)⟩)
            | some data' =>
              match data'.dwarf with
              | some r => (.ok r, s)
              | none => (.error .panic, s)

end ElfCache
end Blazesym.Cache
