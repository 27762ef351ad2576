import Verif.Util.Layout
import Verif.Util.Search
import Verif.Util.Sort

/-! # Model of the GSYM parser (`src/gsym/parser.rs`, `src/gsym/types.rs`)

A `&[u8]` is a `Cursor`: its bytes and the address of the first one, which matters for
alignment. -/

set_option autoImplicit false

namespace Blazesym.Gsym
open Blazesym.Util

/-- `src/gsym/types.rs:3`. -/
def GSYM_MAGIC : Nat := 0x4753594d

/-- `src/gsym/types.rs:4`. -/
def GSYM_VERSION : Nat := 1

/-- `src/gsym/types.rs:20-25` (`FileInfo`). -/
structure FileInfo where
  directory : Nat
  filename : Nat
  deriving DecidableEq, Repr

/-- `src/gsym/types.rs:22-25`: the layout of `FileInfo`. -/
def decodeFileInfo (b : Bytes) : FileInfo := ⟨field b 0 4, field b 4 4⟩

/-- `src/gsym/parser.rs:63-70` (`GsymContext`), with the members of
`src/gsym/types.rs:8-18` (`Header`) that are used. -/
structure Context where
  addrOffSize : Nat
  baseAddress : Nat
  numAddrs : Nat
  addrTab : Cursor
  addrDataOffTab : List Nat
  fileTab : List FileInfo
  strTab : Bytes
  rawData : Cursor
  deriving DecidableEq, Repr

/-- `&slice[off..]` by `get`. -/
def sliceFrom (c : Cursor) (off : Nat) : Option Cursor :=
  if off ≤ c.data.length then some ⟨c.addr + off, c.data.drop off⟩ else none

/-- Rust's `Option` out of a fallible read that cannot panic; a panic is mapped to `none`
(the fixed size reads it is used with never panic, `C11_read_uint`). -/
def toOption {α : Type} : Except Fail α → Option α
  | .ok a => some a
  | .error _ => none

/-- `src/gsym/parser.rs:101-130`: the part of `parse_header_impl` after the fixed size
header. -/
def parseTables (head : Cursor) (addrOffSize baseAddress numAddrs strtabOffset strtabSize : Nat) :
    Rd Context := do
  let tabAddr ← (fun c => (.ok c.addr, c) : Rd Nat)
  let addrTab ← readSlice (numAddrs * addrOffSize)
  align 4
  let offTab ← readPodSliceRef 4 4 numAddrs
  let fileNum ← readU32
  align 4
  let fileTab ← readPodSliceRef 8 4 fileNum
  let strs ← Rd.ofOption (sliceFrom head strtabOffset)
  let strTab ← Rd.ofOption (toOption (readSlice strtabSize strs).1)
  pure { addrOffSize, baseAddress, numAddrs, addrTab := ⟨tabAddr, addrTab⟩,
         addrDataOffTab := records leValue 4 numAddrs offTab,
         fileTab := records decodeFileInfo 8 fileNum fileTab, strTab, rawData := head }

/-- `src/gsym/parser.rs:82-131` (`parse_header_impl`). -/
def parseHeaderImpl (head : Cursor) : Rd (Except Err Context) := do
  let magic ← readU32
  if magic ≠ GSYM_MAGIC then return .error .invalidData
  let version ← readU16
  if version ≠ GSYM_VERSION then return .error .invalidData
  let addrOffSize ← readU8
  let _uuidSize ← readU8
  let baseAddress ← readU64
  let numAddrs ← readU32
  let strtabOffset ← readU32
  let strtabSize ← readU32
  let _uuid ← readArray 20
  let ctx ← parseTables head addrOffSize baseAddress numAddrs strtabOffset strtabSize
  return .ok ctx

/-- `src/gsym/parser.rs:134`: `ok_or_invalid_data(..)?`. -/
def headerResult : Except Fail (Except Err Context) → Except Err Context
  | .ok r => r
  | .error .none => .error .invalidData
  | .error .panic => .error .panic

/-- `src/gsym/parser.rs:81-135` (`parse_header`). -/
def parseHeader (data : Cursor) : Except Err Context := headerResult (parseHeaderImpl data data).1

/-- `src/gsym/parser.rs:143-149` (`find_addr_impl`) for an integer type of `size` bytes. -/
def findAddrImpl (size : Nat) (addrTab : Cursor) (numAddrs addr : Nat) : Option Nat :=
  match (readPodSliceRef size size numAddrs addrTab).1 with
  | .ok table => findMatchOrLowerBoundByKey (records leValue size numAddrs table) addr id
  | .error _ => none

/-- `src/gsym/parser.rs:142-162` (`find_addr`). -/
def Context.findAddr (ctx : Context) (addr : Nat) : Option Nat :=
  if ctx.baseAddress ≤ addr then
    let relative := addr - ctx.baseAddress
    match ctx.addrOffSize with
    | 1 => findAddrImpl 1 ctx.addrTab ctx.numAddrs relative
    | 2 => findAddrImpl 2 ctx.addrTab ctx.numAddrs relative
    | 4 => findAddrImpl 4 ctx.addrTab ctx.numAddrs relative
    | 8 => findAddrImpl 8 ctx.addrTab ctx.numAddrs relative
    | _ => none
  else none

/-- `u64::checked_add`. -/
def checkedAdd (a b : Nat) : Option Nat := if a + b < u64Size then some (a + b) else none

/-- `usize::checked_mul`. -/
def checkedMul (a b : Nat) : Option Nat := if a * b < u64Size then some (a * b) else none

/-- `src/gsym/parser.rs:165-176` (`addr_at`). -/
def Context.addrAt (ctx : Context) (idx : Nat) : Option Nat := do
  let off ← checkedMul idx ctx.addrOffSize
  let data ← sliceFrom ctx.addrTab off
  let addr ← (match ctx.addrOffSize with
    | 1 => toOption (readU8 data).1
    | 2 => toOption (readU16 data).1
    | 4 => toOption (readU32 data).1
    | 8 => toOption (readU64 data).1
    | _ => none)
  checkedAdd ctx.baseAddress addr

/-- `src/gsym/types.rs:30-35` (`AddrInfo`). -/
structure AddrInfo where
  size : Nat
  name : Nat
  data : Cursor
  deriving DecidableEq, Repr

/-- `src/gsym/parser.rs:182-184`. -/
def readAddrInfo (data : Cursor) : Option AddrInfo :=
  match readU32 data with
  | (.ok size, data) =>
    match readU32 data with
    | (.ok name, data) => some ⟨size, name, data⟩
    | (.error _, _) => none
  | (.error _, _) => none

/-- `src/gsym/parser.rs:179-187` (`addr_info`). -/
def Context.addrInfo (ctx : Context) (idx : Nat) : Option AddrInfo := do
  let offset ← ctx.addrDataOffTab[idx]?
  let data ← sliceFrom ctx.rawData offset
  readAddrInfo data

/-- `src/gsym/parser.rs:191-194` (`get_str`); `bytes_to_os_str` accepts everything on Unix. -/
def Context.getStr (ctx : Context) (offset : Nat) : Option Bytes :=
  if offset ≤ ctx.strTab.length then toOption (readCstr ⟨offset, ctx.strTab.drop offset⟩).1 else none

/-- `self.ctx.get_str(..).and_then(|s| s.to_str())` as used at
`src/gsym/resolver.rs:198-201, 284-287, 295-298`. -/
def Context.getUtf8 (ctx : Context) (offset : Nat) : Option Bytes :=
  match ctx.getStr offset with
  | some s => if isUtf8 s then some s else none
  | none => none

/-- `src/gsym/parser.rs:197-199` (`file_info`). -/
def Context.fileInfo (ctx : Context) (idx : Nat) : Option FileInfo := ctx.fileTab[idx]?

/-- `src/gsym/types.rs:37-41` (`AddrData`). -/
structure AddrData where
  typ : Nat
  data : Cursor
  deriving DecidableEq, Repr

/-- `src/gsym/types.rs:43-45`. -/
def INFO_TYPE_END_OF_LIST : Nat := 0
def INFO_TYPE_LINE_TABLE_INFO : Nat := 1
def INFO_TYPE_INLINE_INFO : Nat := 2

/-- `src/gsym/parser.rs:213-227`: one step of the iterator of `parse_address_data`. -/
def nextAddressData : Rd (Option AddrData) := do
  let typ ← readU32
  if typ = INFO_TYPE_END_OF_LIST then return none
  let len ← readU32
  let addr ← (fun c => (.ok c.addr, c) : Rd Nat)
  let d ← readSlice len
  return some ⟨typ, ⟨addr, d⟩⟩

/-- `src/gsym/parser.rs:212-228` (`parse_address_data`): everything the iterator yields.
Each item takes at least eight bytes, so `data.length` steps suffice. -/
def addressDataLoop : Nat → Cursor → List AddrData
  | 0, _ => []
  | fuel + 1, c =>
    match nextAddressData c with
    | (.ok (some d), c') => d :: addressDataLoop fuel c'
    | _ => []

/-- `src/gsym/parser.rs:212-228` (`parse_address_data`). -/
def parseAddressData (c : Cursor) : List AddrData := addressDataLoop c.data.length c

end Blazesym.Gsym
