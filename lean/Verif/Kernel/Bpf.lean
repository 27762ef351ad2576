import Verif.Symbolize.Types
import Verif.Elf.Symtab
import Verif.Util.Search
import Verif.Util.StableSort
import Verif.Util.Text

/-! # Model of BPF program handling (`src/kernel/bpf/prog.rs`, `src/kernel/bpf/btf.rs`) -/

set_option autoImplicit false

namespace Blazesym.Kernel
open Blazesym.Util Blazesym.Symbolize

/-- `src/kernel/bpf/prog.rs:52-59` (`Display for BpfTag`); a tag is eight bytes. -/
def tagDisplay (tag : Bytes) : Bytes :=
  tag.flatMap (fun b => let d := fmtHex b.toNat; List.replicate (2 - d.length) 48 ++ d)

/-- `str::is_char_boundary` for valid UTF-8. -/
def isCharBoundary (s : Bytes) (i : Nat) : Bool :=
  match s[i]? with
  | some b => decide (i = 0) || !(decide (128 ≤ b.toNat) && decide (b.toNat < 192))
  | none => decide (i = s.length)

/-- The loop of `src/kernel/bpf/prog.rs:76-82`; the inner `none` is `Err(())`. Slicing a string
elsewhere than at a character boundary panics. -/
def tagLoop (s : Bytes) : Nat → Nat → Bytes → Except Err (Option Bytes)
  | 0, _, tag => .ok (some tag)
  | fuel + 1, idx, tag =>
    if isCharBoundary s idx && isCharBoundary s (idx + 2) then
      match fromStrRadix 256 16 ((s.drop idx).take 2) with
      | none => .ok none
      | some v => tagLoop s fuel (idx + 2) (tag ++ [UInt8.ofNat v])
    else .error .panic

/-- `src/kernel/bpf/prog.rs:67-86` (`FromStr for BpfTag`). -/
def tagFromStr (s : Bytes) : Except Err (Option Bytes) :=
  if s.length ≠ 2 * 8 then .ok none else tagLoop s 8 0 []

/-- `src/kernel/bpf/prog.rs:271-278` (`BpfProg`), without the cached line information. -/
structure BpfProg where
  addr : Nat
  name : Bytes
  tag : Bytes
  deriving DecidableEq, Repr

/-- `src/kernel/bpf/prog.rs:286-291`: the tag part of a name without its prefix. -/
def tagPart (noPrefix : Bytes) : Bytes :=
  match position (fun b => b == 95) noPrefix with
  | some idx => noPrefix.take idx
  | none => noPrefix

/-- `src/kernel/bpf/prog.rs:283-301` (`BpfProg::parse`). -/
def BpfProg.parse (s : Bytes) (addr : Nat) : Except Err (Option BpfProg) :=
  match stripPrefix s (ascii "bpf_prog_") with
  | none => .ok none
  | some noPrefix =>
    match tagFromStr (tagPart noPrefix) with
    | .error e => .error e
    | .ok none => .ok none
    | .ok (some tag) => .ok (some { addr, name := s, tag })

/-- The parts of `bpf_prog_info` that are used, with the tags of all subprograms. -/
structure ProgInfo where
  id : Nat
  tag : Bytes
  progTags : List Bytes
  deriving DecidableEq, Repr

/-- The map `BpfInfoCache::cache`, the entry inserted last first. -/
abbrev InfoCache := List (Bytes × ProgInfo)

/-- `HashMap::get`. -/
def InfoCache.get (c : InfoCache) (tag : Bytes) : Option ProgInfo :=
  (c.find? (fun e => e.1 == tag)).map Prod.snd

/-- The inner loop of `src/kernel/bpf/prog.rs:164-169`. -/
def insertTags (tag : Bytes) (info : ProgInfo) : List Bytes → Option ProgInfo → InfoCache →
    Option ProgInfo × InfoCache
  | [], found, cache => (found, cache)
  | t :: rest, found, cache =>
    let found := if found.isNone && tag == t then some info else found
    insertTags tag info rest found ((t, info) :: cache)

/-- The loop of `src/kernel/bpf/prog.rs:125-172`.  What the kernel answers in each round is a
parameter: the information about the next program, or the error of one of the system calls of
the round; `[]` is the `NotFound` that ends the iteration. -/
def lookupLoop (tag : Bytes) : List (Except Err ProgInfo) → Option ProgInfo → InfoCache →
    Except Err (Option ProgInfo) × InfoCache
  | [], found, cache => (.ok found, cache)
  | .error e :: _, _, cache => (.error e, cache)
  | .ok info :: rest, found, cache =>
    let r := insertTags tag info (info.tag :: info.progTags) found cache
    lookupLoop tag rest r.1 r.2

/-- `src/kernel/bpf/prog.rs:110-174` (`lookup`). -/
def InfoCache.lookup (cache : InfoCache) (tag : Bytes) (rounds : List (Except Err ProgInfo)) :
    Except Err (Option ProgInfo) × InfoCache :=
  match cache.get tag with
  | some info => (.ok (some info), cache)
  | none => lookupLoop tag rounds none []

/-- BTF data: the header fields that are used, and the bytes (`src/kernel/bpf/btf.rs`). -/
structure Btf where
  data : Bytes
  hdrLen : Nat
  strOff : Nat
  strLen : Nat

/-- `src/kernel/bpf/btf.rs:83-89` (`raw_strs`). -/
def Btf.rawStrs (btf : Btf) : Except Err Bytes :=
  if btf.hdrLen + btf.strOff + btf.strLen ≤ btf.data.length then
    .ok ((btf.data.drop (btf.hdrLen + btf.strOff)).take btf.strLen)
  else .error .panic

/-- `src/kernel/bpf/btf.rs:92-98` (`name`). -/
def Btf.name (btf : Btf) (offset : Nat) : Except Err (Option Bytes) :=
  match btf.rawStrs with
  | .error e => .error e
  | .ok strs =>
    if offset ≤ strs.length then
      match position (fun b => b == 0) (strs.drop offset) with
      | some n => .ok (some ((strs.drop offset).take n))
      | none => .error .panic
    else .ok none

/-- `src/kernel/bpf/sys.rs` (`bpf_line_info`): the two fields that are used. -/
structure BpfLineInfo where
  fileNameOff : Nat
  lineCol : Nat
  deriving DecidableEq, Repr

/-- `src/kernel/bpf/sys.rs:33-35` (`bpf_line_info::line`). -/
def BpfLineInfo.line (l : BpfLineInfo) : Nat := l.lineCol >>> 10

/-- `src/kernel/bpf/sys.rs:37-39` (`bpf_line_info::column`). -/
def BpfLineInfo.column (l : BpfLineInfo) : Nat := l.lineCol &&& 0x3ff

/-- `src/kernel/bpf/prog.rs:178-183` (`LineInfoRecord`), with its address. -/
structure LineInfoRecord where
  addr : Nat
  path : Bytes
  line : Nat
  col : Nat
  deriving DecidableEq, Repr

/-- The closure of `src/kernel/bpf/prog.rs:236-263` for every address; sharing equal paths is
not observable. -/
def lineRecords (btf : Btf) (lineInfo : List BpfLineInfo) : List Nat → Nat →
    Except Err (List LineInfoRecord)
  | [], _ => .ok []
  | addr :: rest, i =>
    match lineInfo[i]? with
    | none => .error .invalidData
    | some info =>
      match btf.name info.fileNameOff with
      | .error e => .error e
      | .ok none => .error .invalidData
      | .ok (some file) =>
        match lineRecords btf lineInfo rest (i + 1) with
        | .error e => .error e
        | .ok l => .ok ({ addr, path := file, line := info.line, col := info.column } :: l)

/-- `src/kernel/bpf/prog.rs:187-268` (`query_line_info`), from what the kernel reports about a
program that has BTF information. -/
def queryLineInfo (btf : Btf) (lineInfo : List BpfLineInfo) (jited : List Nat) :
    Except Err (List LineInfoRecord) :=
  match lineRecords btf lineInfo jited 0 with
  | .error e => .error e
  | .ok records => .ok (sortByKey (fun r => r.addr) records)

/-- `src/kernel/bpf/prog.rs:332-354` in `retrieve_code_info`: `none` if there is no BTF. -/
def bpfCodeInfo (records : Option (List LineInfoRecord)) (addr : Nat) : Option CodeInfo :=
  match records with
  | none => none
  | some lineInfo =>
    match findMatchOrLowerBoundByKey lineInfo addr (fun r => r.addr) with
    | none => none
    | some idx =>
      match lineInfo[idx]? with
      | none => none
      | some record =>
        some { dir := none, file := record.path, line := some record.line, column := some record.col }

/-- `src/kernel/bpf/prog.rs:359-389` (`resolve`).  The line records of the program, from
`src/kernel/bpf/prog.rs:308-330`, are a parameter and may be an error. -/
def BpfProg.resolve (prog : BpfProg) (addr : Nat) (opts : FindSymOpts)
    (lineInfo : Except Err (Option (List LineInfoRecord))) : Except Err ResolvedSym :=
  let codeInfo : Except Err (Option CodeInfo) :=
    if opts.wantsCodeInfo then
      match lineInfo with
      | .error e => .error e
      | .ok records => .ok (bpfCodeInfo records addr)
    else .ok none
  match codeInfo with
  | .error e => .error e
  | .ok codeInfo =>
    .ok { name := prog.name, module := some (ascii "[bpf]"), addr := prog.addr, size := none,
          lang := .unknown, codeInfo, inlined := [] }

end Blazesym.Kernel
