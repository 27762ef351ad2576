import Verif.Kernel.Ksym

/-!
# Model of the system calls about BPF programs

`src/kernel/bpf/sys.rs`, and the parts of `src/kernel/bpf/prog.rs` and `src/kernel/bpf/btf.rs` that
use it.  Programs come and go while calls are made: call number `n` is answered by the system as it is
then.  (Calls that are not made because an earlier one failed are counted as well.)  A program or BTF
object that a descriptor refers to stays as it is.
-/

set_option autoImplicit false

namespace Blazesym.Kernel
open Blazesym.Util Blazesym.Symbolize

/-- A loaded program: the fields of `src/kernel/bpf/sys.rs:45-86` (`bpf_prog_info`) that are used, with
the arrays they refer to. -/
structure Program where
  id : Nat
  tag : Bytes
  progTags : List Bytes
  btfId : Nat
  lineInfo : List BpfLineInfo
  jited : List Nat
  lineRecSize : Nat
  jitedRecSize : Nat

/-- What system calls see: the programs by increasing id, BTF data by id, and the error calls fail with if
they are not permitted. -/
structure BpfSystem where
  programs : List Program
  btf : Nat → Option Bytes
  denied : Option Err

/-- The system at the time of every call. -/
abbrev BpfHistory := Nat → BpfSystem

/-- A call that may not be permitted. -/
def BpfSystem.permit {α : Type} (s : BpfSystem) (r : Except Err α) : Except Err α :=
  match s.denied with
  | some e => .error e
  | none => r

/-- `ENOENT` if there is nothing. -/
def orNotFound {α : Type} : Option α → Except Err α
  | some a => .ok a
  | none => .error .notFound

/-- `src/kernel/bpf/sys.rs:161-173` (`bpf_prog_get_next_id`). -/
def BpfSystem.nextId (s : BpfSystem) (start : Nat) : Except Err Nat :=
  s.permit (orNotFound ((s.programs.find? (fun p => decide (start < p.id))).map Program.id))

/-- `src/kernel/bpf/sys.rs:175-190` (`bpf_prog_get_fd_from_id`): the program the descriptor refers to. -/
def BpfSystem.progFd (s : BpfSystem) (id : Nat) : Except Err Program :=
  s.permit (orNotFound (s.programs.find? (fun p => decide (p.id = id))))

/-- `src/kernel/bpf/sys.rs:192-211`, `230-232` (`bpf_prog_get_info_from_fd`, `bpf_btf_get_info_from_fd`):
what they report is that of the program or BTF data, so this is only whether they succeed. -/
def BpfSystem.infoCall (s : BpfSystem) : Except Err Unit := s.permit (.ok ())

/-- `src/kernel/bpf/sys.rs:213-228` (`bpf_btf_get_fd_from_id`): the data the descriptor refers to. -/
def BpfSystem.btfFd (s : BpfSystem) (id : Nat) : Except Err Bytes := s.permit (orNotFound (s.btf id))

/-- What is remembered about a program. -/
def Program.info (p : Program) : ProgInfo := ⟨p.id, p.tag, p.progTags⟩

/-- `src/kernel/bpf/prog.rs:131-160`: information about a program, by calls starting at `t`. -/
def progInfo (sys : BpfHistory) (t id : Nat) : Except Err ProgInfo := do
  let p ← (sys t).progFd id
  (sys (t + 1)).infoCall
  (sys (t + 2)).infoCall
  return p.info

/-- The loop of `src/kernel/bpf/prog.rs:125-172`: the answers of the rounds, and when it is over.  Running
out of fuel is a panic. -/
def rounds (sys : BpfHistory) : Nat → Nat → Nat → List (Except Err ProgInfo) × Nat
  | 0, _, t => ([.error .panic], t)
  | fuel + 1, start, t =>
    match (sys t).nextId start with
    | .error .notFound => ([], t + 1)
    | .error e => ([.error e], t + 1)
    | .ok id =>
      match progInfo sys (t + 1) id with
      | .error e => ([.error e], t + 4)
      | .ok info =>
        match rounds sys fuel id (t + 4) with
        | (rest, t) => (.ok info :: rest, t)

/-- Ids are `u32`, so there are no more rounds than this. -/
def allRounds (sys : BpfHistory) (t : Nat) : List (Except Err ProgInfo) × Nat := rounds sys u32Size 0 t

/-- `src/kernel/bpf/prog.rs:110-174` (`lookup`), by calls starting at `t`. No calls are made if the tag is
known. -/
def InfoCache.lookupAt (sys : BpfHistory) (t : Nat) (cache : InfoCache) (tag : Bytes) :
    Except Err (Option ProgInfo) × InfoCache × Nat :=
  match cache.get tag with
  | some info => (.ok (some info), cache, t)
  | none =>
    match allRounds sys t with
    | (answers, t) =>
      match cache.lookup tag answers with
      | (r, cache) => (r, cache, t)

/-- A little endian number in data that is long enough. -/
def leAt (data : Bytes) (off n : Nat) : Nat :=
  leValue ((data.drop off).take n)

/-- `src/kernel/bpf/btf.rs:54-79`: BTF data with the header of `src/kernel/bpf/sys.rs:103-112`.  Data
shorter than the header would be read beyond their end; that is a panic here. -/
def parseBtf (data : Bytes) : Except Err Btf :=
  if data.length < 24 then .error .panic
  else if leAt data 0 2 ≠ 0xeb9f then .error .unsupported
  else if leAt data 2 1 ≠ 1 then .error .unsupported
  else .ok ⟨data, leAt data 4 4, leAt data 16 4, leAt data 20 4⟩

/-- `src/kernel/bpf/btf.rs:26-80` (`load_from_id`), by calls starting at `t`. -/
def loadBtf (sys : BpfHistory) (t id : Nat) : Except Err (Option Btf) := do
  if id = 0 then return none
  let data ← (sys t).btfFd id
  (sys (t + 1)).infoCall
  (sys (t + 2)).infoCall
  let btf ← parseBtf data
  return some btf

/-- `src/kernel/bpf/prog.rs:187-268` (`query_line_info`), by calls starting at `t`.  The numbers of records
are those of the program the descriptor refers to: that an id is used again for another program is not
modelled. -/
def queryAt (sys : BpfHistory) (t : Nat) (p : Program) : Except Err (Option (List LineInfoRecord)) := do
  if p.lineRecSize ≠ 16 then throw .panic
  if p.jitedRecSize ≠ 8 then throw .panic
  (sys t).infoCall
  match ← loadBtf sys (t + 1) p.btfId with
  | none => return none
  | some btf =>
    let records ← queryLineInfo btf p.lineInfo p.jited
    return some records

/-- `src/kernel/bpf/prog.rs:308-330`: the line records of the program with a tag, by calls starting at
`t`, and when they are over. -/
def retrieveLines (sys : BpfHistory) (t : Nat) (cache : InfoCache) (tag : Bytes) :
    Except Err (Option (List LineInfoRecord)) × InfoCache × Nat :=
  match cache.lookupAt sys t tag with
  | (.error e, cache, t) => (.error e, cache, t)
  | (.ok none, cache, t) => (.error .notFound, cache, t)
  | (.ok (some info), cache, t) =>
    match (sys t).progFd info.id with
    | .error e => (.error e, cache, t + 1)
    | .ok p => (queryAt sys (t + 1) p, cache, t + 6)

/-- `src/kernel/ksym.rs:176-182` (`KsymResolver`): what changes in it, the cells by the position of the
symbol, and how many calls were made. -/
structure BpfState where
  cache : InfoCache
  cells : Nat → Option (Option (List LineInfoRecord))
  time : Nat

/-- `src/kernel/ksym.rs:228-233`: no program is known. -/
def BpfState.new (t : Nat) : BpfState := ⟨[], fun _ => none, t⟩

/-- `src/kernel/bpf/prog.rs:308-330`: `get_or_try_init_` on the cell of a program. -/
def BpfState.lines (sys : BpfHistory) (st : BpfState) (idx : Nat) (tag : Bytes) :
    Except Err (Option (List LineInfoRecord)) × BpfState :=
  match st.cells idx with
  | some lines => (.ok lines, st)
  | none =>
    match retrieveLines sys st.time st.cache tag with
    | (.error e, cache, time) => (.error e, { st with cache, time })
    | (.ok lines, cache, time) =>
      (.ok lines, { cache, time, cells := fun i => if i = idx then some lines else st.cells i })

/-- `src/kernel/bpf/prog.rs:359-389` (`resolve`) of a program at a position. -/
def BpfState.resolve (sys : BpfHistory) (st : BpfState) (idx : Nat) (prog : BpfProg) (addr : Nat)
    (opts : FindSymOpts) : Except Err ResolvedSym × BpfState :=
  if opts.wantsCodeInfo then
    match st.lines sys idx prog.tag with
    | (lines, st) => (prog.resolve addr opts lines, st)
  else (prog.resolve addr opts (.ok none), st)

/-- `src/kernel/ksym.rs:254-292` (`find_sym`), with the system calls it makes. -/
def BpfState.findSym (sys : BpfHistory) (st : BpfState) (syms : List Ksym) (addr : Nat) (opts : FindSymOpts) :
    Except Err (Except Reason ResolvedSym) × BpfState :=
  match findMatchOrLowerBoundByKey syms addr Ksym.addr with
  | none => (.ok (.error (if syms.isEmpty then .missingSyms else .unknownAddr)), st)
  | some idx =>
    match syms[idx]? with
    | none => (.ok (.error (if syms.isEmpty then .missingSyms else .unknownAddr)), st)
    | some (.kfunc symAddr name) =>
      (.ok (.ok { name, module := none, addr := symAddr, size := none, lang := .unknown, codeInfo := none, inlined := [] }), st)
    | some (.bpfProg prog) =>
      match st.resolve sys idx prog addr opts with
      | (.error e, st) => (.error e, st)
      | (.ok sym, st) => (.ok (.ok sym), st)

/-- Requests one after another, and the answers. -/
def BpfState.run (sys : BpfHistory) (syms : List Ksym) : BpfState → List (Nat × FindSymOpts) →
    List (Except Err (Except Reason ResolvedSym)) × BpfState
  | st, [] => ([], st)
  | st, (addr, opts) :: rest =>
    match st.findSym sys syms addr opts with
    | (r, st) =>
      match BpfState.run sys syms st rest with
      | (rs, st) => (r :: rs, st)

end Blazesym.Kernel
