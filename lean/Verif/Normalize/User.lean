import Verif.Symbolize.Convert
import Verif.Normalize.Walk
import Verif.Util.Reorder
import Verif.Util.Extension

/-!
# Model of user address normalization (`src/normalize/user.rs`, `src/normalize/normalizer.rs`)

What is read from other files (build IDs, APKs, the vDSO) is a parameter (`Env`); it is assumed
not to change during the call, so that the caches in front of it make no difference.
-/

set_option autoImplicit false

namespace Blazesym.Normalize
open Blazesym.Util Blazesym.Maps Blazesym.Symbolize

/-- `src/normalize/meta.rs:110-127` (`UserMeta`). -/
inductive UserMeta where
  | apk (path : Bytes)
  | elf (path : Bytes) (buildId : Option Bytes)
  | sym (sym : Sym)
  | unknown (reason : Reason)
  deriving DecidableEq, Repr

/-- The ELF parser of the vDSO as used by `src/normalize/user.rs:165-198`:
`file_offset_to_virt_offset` and `symbolize_with_resolver`. -/
structure Vdso where
  fileOffsetToVirtOffset : Nat → Except Err (Option Nat)
  symbolize : Nat → Except Err Symbolized

/-- Options (`NormalizeOpts`, `src/normalize/mod.rs`) and the outside world: reading a build
ID (`src/normalize/normalizer.rs:352-374`), translating an offset in an APK (`:379-430`), the
vDSO by its range (`:432-442`, created once). -/
structure Env where
  mapFiles : Bool
  apkToElf : Bool
  readBuildId : Bytes → Except Err (Option Bytes)
  translateApk : Nat → Bytes → Except Err (Option (Nat × Bytes × Option Bytes))
  vdso : Nat → Nat → Except Err Vdso

/-- The state of `src/normalize/user.rs:127-142` (`NormalizationHandler`).  The two hash maps
are association lists. -/
structure NState where
  outputs : List (Nat × Nat)
  metas : List UserMeta
  metaLookup : List (Bytes × Nat)
  unknownCache : List (Reason × Nat)
  deriving DecidableEq, Repr

/-- `src/normalize/user.rs:144-163` (`NormalizationHandler::new`). -/
def NState.init : NState := ⟨[], [], [], []⟩

/-- `src/normalize/user.rs:67-89` (`add_unknown_addr`). -/
def addUnknownAddr (addr : Nat) (reason : Reason) (s : NState) : NState :=
  match s.unknownCache.lookup reason with
  | some idx => { s with outputs := s.outputs ++ [(addr, idx)] }
  | none =>
    { s with
      outputs := s.outputs ++ [(addr, s.metas.length)]
      metas := s.metas ++ [.unknown reason]
      unknownCache := (reason, s.metas.length) :: s.unknownCache }

/-- `src/normalize/user.rs:92-114` (`add_normalized_offset`).  `create` is the closure
`create_meta`; it can only fail by panicking. -/
def addNormalizedOffset (off : Nat) (key : Bytes) (create : Unit → Except Err UserMeta) (s : NState) :
    Except Err NState :=
  match s.metaLookup.lookup key with
  | some idx => .ok { s with outputs := s.outputs ++ [(off, idx)] }
  | none =>
    match create () with
    | .error e => .error e
    | .ok m =>
      .ok { s with
        outputs := s.outputs ++ [(off, s.metas.length)]
        metas := s.metas ++ [m]
        metaLookup := (key, s.metas.length) :: s.metaLookup }

/-- `src/normalize/user.rs:221-224`: the extension of a path, empty if there is none. -/
def extension (path : Bytes) : Bytes := (Util.extension path).getD []

/-- `src/normalize/user.rs:165-198` (`handle_vdso_addr`). -/
def handleVdsoAddr (env : Env) (addr fileOff start stop : Nat) (s : NState) : Except Err NState :=
  match env.vdso start stop with
  | .error e => .error e
  | .ok parser =>
    match parser.fileOffsetToVirtOffset fileOff with
    | .error e => .error e
    | .ok (some addr) =>
      match parser.symbolize addr with
      | .error e => .error e
      | .ok (.sym sym) =>
        .ok { s with outputs := s.outputs ++ [(fileOff, s.metas.length)], metas := s.metas ++ [.sym sym] }
      | .ok (.unknown reason) => .ok (addUnknownAddr addr reason s)
    | .ok none => .ok (addUnknownAddr addr .unmapped s)

/-- `src/normalize/user.rs:272-277`: the build ID of the entry, or else that of the file; a
failure to read it is ignored, a panic is not. -/
def elfMeta (env : Env) (entry : Entry) (path : Bytes) : Except Err UserMeta :=
  match entry.buildId with
  | some b => .ok (.elf path (some b))
  | none =>
    match env.readBuildId path with
    | .error .panic => .error .panic
    | .error _ => .ok (.elf path none)
    | .ok b => .ok (.elf path b)

/-- `src/normalize/user.rs:209-300` (`handle_entry_addr`), feature `apk` enabled.
`addr - entry.range.start` cannot underflow where it is called. -/
def handleEntryAddr (env : Env) (addr : Nat) (entry : Entry) (s : NState) : Except Err NState :=
  match addU64 (addr - entry.start) entry.offset with
  | .error e => .error e
  | .ok fileOff =>
    match entry.pathName with
    | some (.path ep) =>
      let path := if env.mapFiles then ep.mapsFile else ep.symbolicPath
      let ext := extension ep.symbolicPath
      if ext = ascii "apk" ∨ ext = ascii "zip" then
        if env.apkToElf then
          match env.translateApk fileOff path with
          | .error e => .error e
          | .ok (some (elfOff, elfPath, bid)) =>
            addNormalizedOffset elfOff elfPath (fun _ =>
              -- `debug_assert_eq!(entry.build_id, None)`
              if entry.buildId = none then .ok (.elf elfPath bid) else .error .panic) s
          | .ok none => .ok (addUnknownAddr addr .unmapped s)
        else addNormalizedOffset fileOff path (fun _ => .ok (.apk path)) s
      else addNormalizedOffset fileOff path (fun _ => elfMeta env entry path) s
    | some (.component c) =>
      if c = ascii "[vdso]" then handleVdsoAddr env addr fileOff entry.start entry.stop s
      else .ok (addUnknownAddr addr .unsupported s)
    | none => .ok (addUnknownAddr addr .missingComponent s)

/-- The handler of `src/normalize/user.rs:201-301`. -/
def normHandler (env : Env) : Handler NState :=
  ⟨fun addr s => addUnknownAddr addr .unmapped s, handleEntryAddr env⟩

/-- `src/normalize/normalizer.rs:231-248` (`normalize_user_addrs_impl`): metadata and outputs.
The `debug_assert_eq!` on their number is a panic. -/
def normalizeSorted (env : Env) (src : Source) (addrs : List Nat) :
    Except Err (List UserMeta × List (Nat × Nat)) :=
  match walk (normHandler env) addrs src NState.init with
  | .error e => .error e
  | .ok s => if s.outputs.length = addrs.length then .ok (s.metas, s.outputs) else .error .panic

/-- Result of a normalization call. -/
inductive NResult where
  | ok (metas : List UserMeta) (outputs : List (Nat × Nat))
  | err (e : Err)
  deriving DecidableEq, Repr

/-- `src/normalize/normalizer.rs:325-340` (`normalize_user_addrs_opts`), given the source of
entries. -/
def normalizeUserAddrs (env : Env) (sortedAddrs : Bool) (src : Source) (addrs : List Nat) : NResult :=
  if sortedAddrs then
    match normalizeSorted env src addrs with
    | .error e => .err e
    | .ok (m, o) => .ok m o
  else
    match withOrderedElems addrs (normalizeSorted env src) with
    | .err e => .err e
    | .ok m o => .ok m o
    | .panicked => .err .panic
    | .diverged => .err .panic

/-- The part of `src/normalize/ioctl.rs:34-118` (`procmap_query`) that the kernel fills in:
range, flags, offset, the name without its terminating zero and the build ID (empty if there
is none). -/
structure RawVma where
  start : Nat
  stop : Nat
  flags : Nat
  offset : Nat
  name : Bytes
  buildId : Bytes
  deriving DecidableEq, Repr

/-- `src/normalize/ioctl.rs:121-135` (`vma_flags_to_perm`).  Only the low bits matter, so the
cast to `i32` does not. -/
def vmaFlagsToPerm (flags : Nat) : Nat :=
  let perm := 0
  let perm := if flags &&& 1 ≠ 0 then perm ||| permR else perm
  let perm := if flags &&& 2 ≠ 0 then perm ||| permW else perm
  let perm := if flags &&& 4 ≠ 0 then perm ||| permX else perm
  perm

/-- `src/normalize/ioctl.rs:142-224` (`query_procmap`).  `kernel` is the ioctl with the flags
"covering or next" and "readable"; that no mapping is left (`ENOENT`) is `none`.  The buffer
for the build ID is passed only if `buildIds`. -/
def queryProcmap (kernel : Nat → Except Err (Option RawVma)) (pid : Nat) (buildIds : Bool) (addr : Nat) :
    Except Err (Option Entry) :=
  match kernel addr with
  | .error e => .error e
  | .ok none => .ok none
  | .ok (some r) =>
    .ok (some ⟨r.start, r.stop, vmaFlagsToPerm r.flags, r.offset,
      parsePathName r.name pid r.start r.stop,
      if buildIds ∧ r.buildId.length > 0 then some r.buildId else none⟩)

/-- `src/normalize/normalizer.rs:268-279`: reading all mappings by repeated queries.  Every
query advances the address; the budget is the number of mappings plus one. -/
def enumerate (q : Nat → Except Err (Option Entry)) : Nat → Nat → Except Err (List Entry)
  | 0, _ => .error .panic
  | fuel + 1, addr =>
    match q addr with
    | .error e => .error e
    | .ok none => .ok []
    | .ok (some e) =>
      match enumerate q fuel e.stop with
      | .error err => .error err
      | .ok l => .ok (if filterRelevant e then e :: l else l)

/-- Settings of a `Normalizer` (`src/normalize/normalizer.rs:20-100`) and what the kernel has
to say about the process: the contents of its `maps` file, or the error of opening it, and
the ioctl. -/
structure Setup where
  useProcmapQuery : Bool
  cacheVmas : Bool
  buildIds : Bool
  pid : Nat
  maps : Except Err Bytes
  kernel : Nat → Except Err (Option RawVma)

/-- `src/normalize/normalizer.rs:250-304` (`normalize_user_addrs_iter`): the source of entries
and the contents of the entry cache for this process afterwards.  `budget` bounds
`enumerate`. -/
def entriesFor (su : Setup) (budget : Nat) (cached : Option (List Entry)) :
    Except Err (Source × Option (List Entry)) :=
  if su.useProcmapQuery then
    match su.maps with
    | .error e => .error e
    | .ok _ =>
      if ¬ su.cacheVmas then .ok (.query (queryProcmap su.kernel su.pid su.buildIds), cached)
      else
        match cached with
        | some l => .ok (.list (l.map .ok), some l)
        | none =>
          match enumerate (queryProcmap su.kernel su.pid su.buildIds) budget 0 with
          | .error e => .error e
          | .ok l => .ok (.list (l.map .ok), some l)
  else
    if ¬ su.cacheVmas then
      match su.maps with
      | .error e => .error e
      | .ok text => .ok (.list (parseFiltered text su.pid), cached)
    else
      match cached with
      | some l => .ok (.list (l.map .ok), some l)
      | none =>
        match su.maps with
        | .error e => .error e
        | .ok text =>
          match collect (parseFiltered text su.pid) with
          | .error e => .error e
          | .ok l => .ok (.list (l.map .ok), some l)

end Blazesym.Normalize
