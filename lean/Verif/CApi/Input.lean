import Verif.CApi.Convert
import Verif.Error.Error
import Verif.Symbolize.Symbolizer

/-!
# Model of how the C interface reads its arguments

Input structures carry their own size (`type_size`), so that programs built against another version of the
header keep working.  Memory that is `none` cannot be read: reading it is a `Fault`.  So are reading
through a misaligned pointer and a `bool` other than 0 and 1 (undefined behaviour in Rust).
-/

set_option autoImplicit false

namespace Blazesym.CApi

open Blazesym.Error Blazesym.Symbolize Blazesym.Util

/-- Reading a byte. -/
def readByte (m : Mem) (a : Nat) : Except Fault UInt8 :=
  match m a with
  | some b => .ok b
  | none => .error .outOfBounds

/-- Reading an integer of `k` bytes. -/
def readNum (m : Mem) (a k : Nat) : Except Fault Nat :=
  match m.num a k with
  | some n => .ok n
  | none => .error .outOfBounds

/-- Copying `n` bytes. -/
def readBytes (m : Mem) (a : Nat) : Nat → Except Fault Bytes
  | 0 => .ok []
  | n + 1 => do
    let b ← readByte m a
    let bs ← readBytes m (a + 1) n
    return b :: bs

/-- `capi/src/util.rs:152-161` (`is_mem_zero`). -/
def isMemZero (m : Mem) (a : Nat) : Nat → Except Fault Bool
  | 0 => .ok true
  | n + 1 => do
    let b ← readByte m a
    if b ≠ 0 then return false
    isMemZero m (a + 1) n

/-- Reading `type_size`, the first member of every input structure. -/
def typeSize (m : Mem) (p : Nat) : Except Fault Nat :=
  if p % 8 ≠ 0 then .error .misaligned else readNum m p 8

/-- `capi/src/lib.rs:36-52` (`input_zeroed!`); `reserved` is the offset of the member of that name. -/
def inputZeroed (m : Mem) (p reserved : Nat) : Except Fault Bool := do
  let userSize ← typeSize m p
  if userSize < 8 then return false
  isMemZero m (p + reserved) (userSize - reserved)

/-- `capi/src/lib.rs:55-77` (`input_sanitize!`); `size` is the size of the type. -/
def inputSanitize (m : Mem) (p size : Nat) : Except Fault Bytes := do
  let userSize ← typeSize m p
  if userSize < size then
    let bs ← readBytes m p userSize
    return bs ++ List.replicate (size - userSize) 0
  else readBytes m p size

/-- A `bool` member. -/
def boolField (bs : Bytes) (off : Nat) : Except Fault Bool :=
  match field bs off 1 with
  | 0 => .ok false
  | 1 => .ok true
  | _ => .error .badValue

/-- `CStr::from_ptr(..).to_bytes()`: the bytes up to the first NUL.  `fuel` bounds the search to the address
space. -/
def cstrBytes (m : Mem) : Nat → Nat → Except Fault Bytes
  | 0, _ => .error .outOfBounds
  | fuel + 1, a => do
    let b ← readByte m a
    if b = 0 then return []
    let bs ← cstrBytes m fuel (a + 1)
    return b :: bs

/-- `capi/src/symbolize.rs:645-650` (`from_cstr`). -/
def fromCStr (m : Mem) (a : Nat) : Except Fault Bytes := cstrBytes m (2 ^ 64 - a) a

/-- Reading `n` elements of `k` bytes. -/
def readArray (m : Mem) (a k : Nat) : Nat → Except Fault (List Nat)
  | 0 => .ok []
  | n + 1 => do
    let x ← readNum m a k
    let xs ← readArray m (a + k) k n
    return x :: xs

/-- `capi/src/util.rs:164-176` (`slice_from_aligned_user_array`): the null pointer stands for a dangling
one, from which nothing can be read. -/
def alignedUserArray (m : Mem) (a k n : Nat) : Except Fault (List Nat) :=
  if a = 0 then readArray (fun _ => none) k k n else readArray m a k n

/-- `capi/src/util.rs:179-212` (`slice_from_user_array`) for elements of `k` bytes and alignment `k`. -/
def userArray (m : Mem) (a k n : Nat) : Except Fault (List Nat) :=
  if a % k = 0 then alignedUserArray m a k n
  else if a = 0 then .ok []
  else readArray m a k n

/-- The input structures. -/
inductive InputType where
  | cacheElf
  | cacheProcess
  | srcElf
  | srcKernel
  | srcProcess
  | srcGsymData
  | srcGsymFile
  | symbolizerOpts
  | normalizerOpts
  | normalizeOpts
  | inspectElf
  deriving DecidableEq, Repr

/-- `size_of` of the structures (`capi/src/symbolize.rs:48-59, 89-119, 152-174, 203-245, 294-327, 368-382, 413-425,
684-736`, `capi/src/normalize.rs:38-91, 109-141`, `capi/src/inspect.rs:46-59`) on 64 bit targets. -/
def InputType.size : InputType → Nat
  | .cacheElf => 32
  | .cacheProcess => 32
  | .srcElf => 40
  | .srcKernel => 48
  | .srcProcess => 32
  | .srcGsymData => 40
  | .srcGsymFile => 32
  | .symbolizerOpts => 48
  | .normalizerOpts => 32
  | .normalizeOpts => 32
  | .inspectElf => 40

/-- `offset_of!(.., reserved)` of the structures. -/
def InputType.reserved : InputType → Nat
  | .cacheElf => 16
  | .cacheProcess => 13
  | .srcElf => 17
  | .srcKernel => 25
  | .srcProcess => 16
  | .srcGsymData => 24
  | .srcGsymFile => 16
  | .symbolizerOpts => 40
  | .normalizerOpts => 12
  | .normalizeOpts => 11
  | .inspectElf => 17

/-- The beginning of every function with an input structure, for example `capi/src/symbolize.rs:1185-1189`:
the error reported, or the structure. -/
def input (m : Mem) (p : Nat) (type : InputType) : Except Fault (Except ErrorKind Bytes) := do
  if !(← inputZeroed m p type.reserved) then return .error .invalidInput
  let bs ← inputSanitize m p type.size
  return .ok bs

/-- `capi/src/symbolize.rs:71-83` (`From<blaze_cache_src_elf>`). -/
def cacheElf (m : Mem) (bs : Bytes) : Except Fault Bytes := fromCStr m (field bs 8 8)

/-- `capi/src/symbolize.rs:132-146` (`From<blaze_cache_src_process>`): process and whether to cache its
mappings. -/
def cacheProcess (bs : Bytes) : Except Fault (Nat × Bool) := do
  let cacheVmas ← boolField bs 12
  return (field bs 8 4, cacheVmas)

/-- `capi/src/symbolize.rs:187-201` (`From<blaze_symbolize_src_elf>`). -/
def srcElf (m : Mem) (bs : Bytes) : Except Fault Source := do
  let debugSyms ← boolField bs 16
  let path ← fromCStr m (field bs 8 8)
  return .elf path debugSyms

/-- `capi/src/symbolize.rs:261-272` (`to_maybe_path`). -/
def maybePath (m : Mem) (a : Nat) : Except Fault (Kernel.MaybeDefault Bytes) :=
  if a ≠ 0 then do
    let path ← fromCStr m a
    return if path.isEmpty then .none else .some path
  else .ok .default

/-- `capi/src/symbolize.rs:259-289` (`From<blaze_symbolize_src_kernel>`). -/
def srcKernel (m : Mem) (bs : Bytes) : Except Fault Source := do
  let debugSyms ← boolField bs 24
  let kallsyms ← maybePath m (field bs 8 8)
  let vmlinux ← maybePath m (field bs 16 8)
  return .kernel { kallsyms, vmlinux, kaslr := none, debugSyms }

/-- `capi/src/symbolize.rs:343-363` (`From<blaze_symbolize_src_process>`). -/
def srcProcess (bs : Bytes) : Except Fault Source := do
  let debugSyms ← boolField bs 12
  let perfMap ← boolField bs 13
  let noMapFiles ← boolField bs 14
  let noVdso ← boolField bs 15
  return .process { pid := field bs 8 4, debugSyms, perfMap, mapFiles := !noMapFiles, vdso := !noVdso }

/-- `capi/src/symbolize.rs:395-407` (`From<blaze_symbolize_src_gsym_data>`). -/
def srcGsymData (m : Mem) (bs : Bytes) : Except Fault Source := do
  let data ← alignedUserArray m (field bs 8 8) 1 (field bs 16 8)
  return .gsymData (data.map UInt8.ofNat)

/-- `capi/src/symbolize.rs:437-448` (`From<blaze_symbolize_src_gsym_file>`). -/
def srcGsymFile (m : Mem) (bs : Bytes) : Except Fault Source := do
  let path ← fromCStr m (field bs 8 8)
  return .gsymFile path

/-- `capi/src/inspect.rs:112-126` (`From<blaze_inspect_elf_src>`). -/
def inspectElf (m : Mem) (bs : Bytes) : Except Fault (Bytes × Bool) := do
  let debugSyms ← boolField bs 16
  let path ← fromCStr m (field bs 8 8)
  return (path, debugSyms)

/-- What `blaze_symbolizer_new_opts` builds a symbolizer with. -/
structure SymbolizerOpts where
  debugDirs : Option (List Bytes)
  autoReload : Bool
  codeInfo : Bool
  inlinedFns : Bool
  demangle : Bool
  dispatch : Option Nat
  deriving DecidableEq, Repr

/-- Reading the C strings an array of pointers leads to. -/
def cstrings (m : Mem) : List Nat → Except Fault (List Bytes)
  | [] => .ok []
  | a :: as => do
    let s ← fromCStr m a
    let ss ← cstrings m as
    return s :: ss

/-- `capi/src/symbolize.rs:798-842, 844, 877-879` (`blaze_symbolizer_new_opts`). -/
def symbolizerOpts (m : Mem) (bs : Bytes) : Except Fault SymbolizerOpts := do
  let autoReload ← boolField bs 24
  let codeInfo ← boolField bs 25
  let inlinedFns ← boolField bs 26
  let demangle ← boolField bs 27
  let dirs := field bs 8 8
  let debugDirs ←
    if dirs = 0 then pure none
    else do
      let ptrs ← userArray m dirs 8 (field bs 16 8)
      let dirs ← cstrings m ptrs
      pure (some dirs)
  let dispatch := field bs 32 8
  return { debugDirs, autoReload, codeInfo, inlinedFns, demangle,
           dispatch := if dispatch = 0 then none else some dispatch }

/-- What `blaze_normalizer_new_opts` builds a normalizer with. -/
structure NormalizerOpts where
  procmapQuery : Bool
  cacheVmas : Bool
  buildIds : Bool
  cacheBuildIds : Bool
  deriving DecidableEq, Repr

/-- `capi/src/normalize.rs:218-233` (`blaze_normalizer_new_opts`). -/
def normalizerOpts (bs : Bytes) : Except Fault NormalizerOpts := do
  let procmapQuery ← boolField bs 8
  let cacheVmas ← boolField bs 9
  let buildIds ← boolField bs 10
  let cacheBuildIds ← boolField bs 11
  return { procmapQuery, cacheVmas, buildIds, cacheBuildIds }

/-- `src/normalize/normalizer.rs` (`NormalizeOpts`). -/
structure NormalizeOpts where
  sortedAddrs : Bool
  mapFiles : Bool
  apkToElf : Bool
  deriving DecidableEq, Repr

/-- `capi/src/normalize.rs:155-171` (`From<blaze_normalize_opts>`). -/
def normalizeOpts (bs : Bytes) : Except Fault NormalizeOpts := do
  let sortedAddrs ← boolField bs 8
  let mapFiles ← boolField bs 9
  let apkToElf ← boolField bs 10
  return { sortedAddrs, mapFiles, apkToElf }

/-- Reading the arguments of a function that takes an input structure and converting it. -/
def inputAs {α : Type} (m : Mem) (p : Nat) (type : InputType) (convert : Bytes → Except Fault α) :
    Except Fault (Except ErrorKind α) := do
  match ← input m p type with
  | .error e => return .error e
  | .ok bs =>
    let x ← convert bs
    return .ok x

end Blazesym.CApi
