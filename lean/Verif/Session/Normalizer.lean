import Verif.Session.State
import Verif.Normalize.User

/-!
# Model of the normalizer with its caches (`src/normalize/normalizer.rs`)

With all features enabled, on Linux.  A call takes place in a world that does not change meanwhile.
A process is a number, 0 being the program itself (`Pid::Slf`).
-/

set_option autoImplicit false

namespace Blazesym.Normalize
open Blazesym.Util Blazesym.Maps Blazesym.Cache
open Blazesym.Symbolize hiding World Settings Source
open Blazesym.Dwarf (Tools ElfParser elfParse openParser)

/-- The world at the moment of a call. -/
structure World (M : Type) extends toSession : Symbolize.World M where
  /-- The `PROCMAP_QUERY` ioctl, by process and address. -/
  procmap : Nat → Nat → Except Err (Option RawVma)
  /-- More than the number of mappings of a process. -/
  budget : Nat → Nat

/-- `src/normalize/normalizer.rs:63-78` (`Builder`). -/
structure Builder where
  useProcmapQuery : Bool
  cacheVmas : Bool
  buildIds : Bool
  cacheBuildIds : Bool

/-- `src/normalize/normalizer.rs:160-169` (`Builder::default`). -/
def Builder.default : Builder := ⟨false, false, true, false⟩

/-- The settings of a normalizer (`src/normalize/normalizer.rs:187-196`), and what other libraries do. -/
structure Settings extends Builder where
  tools : Tools

/-- `src/normalize/normalizer.rs:136-157` (`Builder::build`), without the caches. -/
def Builder.build (b : Builder) (tools : Tools) : Settings :=
  ⟨{ b with cacheBuildIds := b.buildIds && b.cacheBuildIds }, tools⟩

/-- `src/normalize/mod.rs:76-103` (`NormalizeOpts`). -/
structure Opts where
  sortedAddrs : Bool
  mapFiles : Bool
  apkToElf : Bool

/-- The build IDs of an archive's members, by the bounds of their data. -/
abbrev MemberIds := Zip.MemberCache (Option Bytes)

/-- `src/normalize/normalizer.rs:186-211` (`Normalizer`): its caches. -/
structure Normalizer (M : Type) where
  apk : FileCache Bytes M (Except Err Bytes) (Bytes × MemberIds)
  vdso : Option ElfParser
  vmas : Nat → Option (List Entry)
  ids : FileCache Bytes M (Except Err Bytes) (Option Bytes)

variable {M : Type} [DecidableEq M]

/-- `src/normalize/normalizer.rs:145-156`: the caches of a new normalizer. -/
def Normalizer.new : Normalizer M := ⟨FileCache.new true, none, fun _ => none, FileCache.new true⟩

/-! ### Build IDs -/

/-- `src/normalize/normalizer.rs:357-361`: the build ID of an opened file. -/
def fileBuildId (t : Tools) (path : Bytes) (file : Except Err Bytes) : Except Err (Option Bytes) :=
  match elfParse path file with
  | .error e => .error e
  | .ok p => Elf.readBuildId t.codec p.image

/-- `src/normalize/normalizer.rs:352-374` (`read_build_id`). -/
def readBuildIdOn (cfg : Settings) (w : World M) (path : Bytes)
    (s : FileCache Bytes M (Except Err Bytes) (Option Bytes)) :
    Except Err (Option Bytes) × FileCache Bytes M (Except Err Bytes) (Option Bytes) :=
  if cfg.buildIds then
    if cfg.cacheBuildIds then s.resolve w.disk path (fileBuildId cfg.tools path)
    else
      match openParser w.disk path with
      | .error e => (.error e, s)
      | .ok p => (Elf.readBuildId cfg.tools.codec p.image, s)
  else if cfg.cacheBuildIds then (.error .panic, s)
  else (.ok none, s)

/-! ### Archives -/

/-- `src/normalize/normalizer.rs:386-394`: the archive, without build IDs of its members. -/
def apkOpen (file : Except Err Bytes) : Except Err (Bytes × MemberIds) :=
  match file with
  | .error e => .error e
  | .ok data =>
    match Zip.findCd (Mmap.map data).deref with
    | .error e => .error e
    | .ok _ => .ok (data, InsertMap.empty)

/-- `src/normalize/buildid.rs:111-115` (`read_elf_build_id_from_mmap`): the build ID of the data of a member.
The mapping of the archive starts at a page boundary. -/
def mmapBuildId (t : Tools) (place : Nat) (data : Bytes) : Except Err (Option Bytes) :=
  Elf.readBuildId t.codec (.mem (4096 + place) data)

/-- `src/normalize/normalizer.rs:403-424`: the build ID of a member. -/
def memberBuildId (cfg : Settings) (mmap : Mmap) (entry : Zip.Entry) (ids : MemberIds) :
    Except Err (Option Bytes) × MemberIds :=
  if cfg.buildIds then
    match Zip.memberData mmap entry with
    | .error e => (.error e, ids)
    | .ok data =>
      if cfg.cacheBuildIds then
        ids.getOrTryInsert (entry.dataOffset, entry.dataOffset + entry.data.length)
          (fun _ => mmapBuildId cfg.tools entry.dataOffset data)
      else (mmapBuildId cfg.tools entry.dataOffset data, ids)
  else (.ok none, ids)

/-- `src/normalize/normalizer.rs:396-430`: the member at an offset of an archive with these contents. -/
def translateIn (cfg : Settings) (contents path : Bytes) (off : Nat) (ids : MemberIds) :
    Except Err (Option (Nat × Bytes × Option Bytes)) × MemberIds :=
  let mmap := Mmap.map contents
  match Zip.entries mmap.deref with
  | .error e => (.error e, ids)
  | .ok items =>
    match Zip.findMember off items with
    | .error e => (.error e, ids)
    | .ok none => (.ok none, ids)
    | .ok (some entry) =>
      match memberBuildId cfg mmap entry ids with
      | (.error e, ids) => (.error e, ids)
      | (.ok id, ids) =>
        (.ok (some (off - entry.dataOffset, Zip.createApkElfPath path entry.path, id)), ids)

/-- `src/normalize/normalizer.rs:379-430` (`translate_apk_to_elf`). -/
def translateOn (cfg : Settings) (w : World M) (off : Nat) (path : Bytes)
    (s : FileCache Bytes M (Except Err Bytes) (Bytes × MemberIds)) :
    Except Err (Option (Nat × Bytes × Option Bytes)) × FileCache Bytes M (Except Err Bytes) (Bytes × MemberIds) :=
  match s.entry path (w.disk.stat path) (w.disk.opened path) with
  | (.error e, s) => (.error e, s)
  | (.ok (m, e), s) =>
    match cellOr e.value (apkOpen e.file) with
    | .error err => (.error err, s)
    | .ok (data, ids) =>
      match translateIn cfg data path off ids with
      | (r, ids) => (r, setCell s m (data, ids))

/-! ### The vDSO -/

/-- The parser of the vDSO as it is used in `src/normalize/user.rs:171-180`. -/
def asVdso (t : Tools) (p : ElfParser) : Vdso where
  fileOffsetToVirtOffset := (p.file t).fileOffsetToVirtOffset
  symbolize := fun addr => symbolizeWithResolver t.demangler false .basic addr (p.findSym t)

/-- `src/normalize/normalizer.rs:432-442` (`vdso_parser`). -/
def vdsoParserOn (w : World M) (pid start stop : Nat) (cell : Option ElfParser) :
    Except Err ElfParser × Option ElfParser :=
  match cell with
  | some parser => (.ok parser, cell)
  | none =>
    match createVdsoParser w.toSession pid start stop with
    | .error e => (.error e, none)
    | .ok parser => (.ok parser, some parser)

/-! ### Addresses -/

/-- `src/normalize/user.rs:92-114` (`add_normalized_offset`). `create` is the closure `create_meta`. -/
def addNormalizedOn {C : Type} (off : Nat) (key : Bytes) (create : Act C UserMeta) (s : NState) : Act C NState :=
  match s.metaLookup.lookup key with
  | some idx => .lift (.ok { s with outputs := s.outputs ++ [(off, idx)] })
  | none => create.bind fun m =>
      .lift (.ok { s with
        outputs := s.outputs ++ [(off, s.metas.length)]
        metas := s.metas ++ [m]
        metaLookup := (key, s.metas.length) :: s.metaLookup })

/-- `src/normalize/user.rs:272-277`: a failure to read the build ID is ignored, a panic is not. -/
def elfMetaOf (path : Bytes) (id : Except Err (Option Bytes)) : Except Err UserMeta :=
  match id with
  | .error .panic => .error .panic
  | .error _ => .ok (.elf path none)
  | .ok id => .ok (.elf path id)

/-- `src/normalize/user.rs:265-279`: the record for a file. -/
def elfMetaOn (cfg : Settings) (w : World M) (entry : Entry) (path : Bytes) : Act (Normalizer M) UserMeta :=
  match entry.buildId with
  | some b => .lift (.ok (.elf path (some b)))
  | none =>
    (on Normalizer.ids (fun s ids => { s with ids }) (readBuildIdOn cfg w path)).mapResult (elfMetaOf path)

/-- `src/normalize/user.rs:165-198` (`handle_vdso_addr`) with the parser. -/
def vdsoAddr (t : Tools) (addr fileOff : Nat) (s : NState) (parser : ElfParser) : Except Err NState :=
  handleVdsoAddr ⟨false, false, fun _ => .ok none, fun _ _ => .ok none, fun _ _ => .ok (asVdso t parser)⟩
    addr fileOff 0 0 s

/-- `src/normalize/user.rs:229-250`: an address in an archive. -/
def apkAddr (addr : Nat) (entry : Entry) (s : NState) (found : Option (Nat × Bytes × Option Bytes)) :
    Except Err NState :=
  match found with
  | some (elfOff, elfPath, bid) =>
    addNormalizedOffset elfOff elfPath (fun _ =>
      -- `debug_assert_eq!(entry.build_id, None)`
      if entry.buildId = none then .ok (.elf elfPath bid) else .error .panic) s
  | none => .ok (addUnknownAddr addr .unmapped s)

/-- `src/normalize/user.rs:209-300` (`handle_entry_addr`). -/
def handleEntryAddrOn (cfg : Settings) (w : World M) (opts : Opts) (pid addr : Nat) (entry : Entry) (s : NState) :
    Act (Normalizer M) NState :=
  match addU64 (addr - entry.start) entry.offset with
  | .error e => .lift (.error e)
  | .ok fileOff =>
    match entry.pathName with
    | some (.path ep) =>
      let path := if opts.mapFiles then ep.mapsFile else ep.symbolicPath
      let ext := extension ep.symbolicPath
      if ext = ascii "apk" ∨ ext = ascii "zip" then
        if opts.apkToElf then
          (on Normalizer.apk (fun s apk => { s with apk }) (translateOn cfg w fileOff path)).bind fun found =>
            .lift (apkAddr addr entry s found)
        else .lift (addNormalizedOffset fileOff path (fun _ => .ok (.apk path)) s)
      else addNormalizedOn fileOff path (elfMetaOn cfg w entry path) s
    | some (.component c) =>
      if c = ascii "[vdso]" then
        (on Normalizer.vdso (fun s vdso => { s with vdso }) (vdsoParserOn w pid entry.start entry.stop)).bind
          fun parser => .lift (vdsoAddr cfg.tools addr fileOff s parser)
      else .lift (.ok (addUnknownAddr addr .unsupported s))
    | none => .lift (.ok (addUnknownAddr addr .missingComponent s))

/-! ### The walk over addresses and mappings -/

/-- A handler (`src/normalize/user.rs:118-124`) that uses caches. -/
structure HandlerOn (C S : Type) where
  unknown : Nat → S → S
  entryAddr : Nat → Entry → S → Act C S

/-- The loop over the addresses, `src/normalize/user.rs:326-358`. -/
def walkLoopOn {C S : Type} (h : HandlerOn C S) : List Nat → Nat → Entry → Source → S → Act C S
  | [], _, _, _, s => .lift (.ok s)
  | addr :: rest, prev, entry, src, s =>
    if addr < prev then .lift (.error .invalidInput)
    else
      match skip addr src.fuel entry src with
      | .diverged => .lift (.error .panic)
      | .failed e => .lift (.error e)
      | .exhausted entry src => walkLoopOn h rest addr entry src (h.unknown addr s)
      | .entry entry src =>
        if addr < entry.start then walkLoopOn h rest addr entry src (h.unknown addr s)
        else (h.entryAddr addr entry s).bind fun s => walkLoopOn h rest addr entry src s

/-- `src/normalize/user.rs:304-361` (`normalize_sorted_user_addrs_with_entries`). -/
def walkOn {C S : Type} (h : HandlerOn C S) (addrs : List Nat) (src : Source) (s : S) : Act C S :=
  let prev := addrs.head?.getD 0
  match src.next prev with
  | (none, _) => .lift (.error .unexpectedEof)
  | (some (.error e), _) => .lift (.error e)
  | (some (.ok entry), src) => walkLoopOn h addrs prev entry src s

/-- The handler of `src/normalize/user.rs:201-301`. -/
def handlerOn (cfg : Settings) (w : World M) (opts : Opts) (pid : Nat) : HandlerOn (Normalizer M) NState :=
  ⟨fun addr s => addUnknownAddr addr .unmapped s, handleEntryAddrOn cfg w opts pid⟩

/-- `src/normalize/normalizer.rs:246`: the `debug_assert_eq!` on the number of outputs. -/
def checkedOutput (addrs : List Nat) (s : NState) : Except Err (List UserMeta × List (Nat × Nat)) :=
  if s.outputs.length = addrs.length then .ok (s.metas, s.outputs) else .error .panic

/-- `src/normalize/normalizer.rs:231-248` (`normalize_user_addrs_impl`). -/
def normalizeImpl (cfg : Settings) (w : World M) (opts : Opts) (pid : Nat) (src : Source) (addrs : List Nat) :
    Act (Normalizer M) (List UserMeta × List (Nat × Nat)) :=
  (walkOn (handlerOn cfg w opts pid) addrs src NState.init).bind fun s => .lift (checkedOutput addrs s)

/-- What the kernel says about a process. -/
def setupOf (cfg : Settings) (w : World M) (pid : Nat) : Setup :=
  ⟨cfg.useProcmapQuery, cfg.cacheVmas, cfg.buildIds, pid, w.procMaps pid, w.procmap pid⟩

/-- `src/normalize/normalizer.rs:250-304` (`normalize_user_addrs_iter`): the mappings to use. -/
def sourceOn (cfg : Settings) (w : World M) (pid : Nat) : Act (Normalizer M) Source := fun s =>
  match entriesFor (setupOf cfg w pid) (w.budget pid) (s.vmas pid) with
  | .error e => (.error e, s)
  | .ok (src, cached) => (.ok src, { s with vmas := fun p => if p = pid then cached else s.vmas p })

/-- `src/normalize/normalizer.rs:250-304` (`normalize_user_addrs_iter`). -/
def normalizeIter (cfg : Settings) (w : World M) (opts : Opts) (pid : Nat) (addrs : List Nat) :
    Act (Normalizer M) (List UserMeta × List (Nat × Nat)) :=
  (sourceOn cfg w pid).bind fun src => normalizeImpl cfg w opts pid src addrs

/-- The result of `with_ordered_elems`. -/
def orderedResult : OrderedResult Err (List UserMeta) (Nat × Nat) → NResult
  | .err e => .err e
  | .ok m o => .ok m o
  | .panicked => .err .panic
  | .diverged => .err .panic

/-- The result if nothing is to be put in order. -/
def plainResult : Except Err (List UserMeta × List (Nat × Nat)) → NResult
  | .error e => .err e
  | .ok (m, o) => .ok m o

/-- `src/normalize/normalizer.rs:325-340` (`normalize_user_addrs_opts`). -/
def Normalizer.normalize (cfg : Settings) (w : World M) (opts : Opts) (pid : Nat) (addrs : List Nat)
    (s : Normalizer M) : NResult × Normalizer M :=
  if opts.sortedAddrs then
    match normalizeIter cfg w opts pid addrs s with
    | (r, s) => (plainResult r, s)
  else
    match normalizeIter cfg w opts pid ((sortWithIdx addrs).map Prod.fst) s with
    | (r, s) => (orderedResult (withOrderedElems addrs fun _ => r), s)

end Blazesym.Normalize
