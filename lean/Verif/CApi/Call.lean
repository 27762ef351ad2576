import Verif.CApi.Codes
import Verif.CApi.Input
import Verif.CApi.Inspect
import Verif.Gsym.Parser

/-!
# Model of the functions of the C interface and of the error they leave behind

What the functions of the Rust library do is arbitrary (`Core`); creating objects with `Box::new` does not
fail.  The process dispatcher and tracing are not modelled.
-/

set_option autoImplicit false

namespace Blazesym.CApi

open Blazesym.Error Blazesym.Symbolize Blazesym.Util

/-- The functions of the Rust library the C interface calls. -/
structure Core where
  symbolize : Source → Input (List Nat) → Except ErrorKind (List Symbolized)
  cacheElf : Bytes → Except ErrorKind Unit
  cacheProcess : Nat × Bool → Except ErrorKind Unit
  normalize : Nat → List Nat → NormalizeOpts → Except ErrorKind Unit
  lookup : Bytes × Bool → List Bytes → Except ErrorKind (List (List SymInfo))
  buildId : Bytes → Except ErrorKind (Option Bytes)
  procmapQuery : Except ErrorKind Bool

/-- The functions `blaze_symbolize_*`. -/
inductive SymbolizeFn where
  | process
  | kernel
  | elfVirt
  | elfFile
  | gsymData
  | gsymFile
  deriving DecidableEq, Repr

/-- The fallible functions with their arguments (pointers are addresses). -/
inductive Call where
  | symbolizerNew
  | symbolizerNewOpts (opts : Nat)
  | symbolize (fn : SymbolizeFn) (src addrs cnt : Nat)
  | cacheElf (src : Nat)
  | cacheProcess (src : Nat)
  | normalizerNew
  | normalizerNewOpts (opts : Nat)
  | normalize (pid addrs cnt : Nat)
  | normalizeOpts (pid addrs cnt opts : Nat)
  | inspectorNew
  | inspect (src names cnt : Nat)
  | buildId (path : Nat)
  | procmapQuery
  deriving DecidableEq, Repr

/-- What a function returns. -/
inductive Ret where
  | void
  | null
  | object
  | bool (b : Bool)
  | buffer (p : Nat) (st : Cur)
  | bytes (bs : Bytes)

/-- `blaze_err::OK`. -/
abbrev ok : Int := 0

/-- `err.kind().into()`. -/
def errOf {α : Type} : Except ErrorKind α → Int
  | .ok _ => ok
  | .error e => errCode e

/-- `capi/src/symbolize.rs:1146-1154`, `capi/src/inspect.rs:312-320`: reporting a buffer. -/
def reportBuffer : Option (Nat × Cur) → Ret × Int
  | none => (.null, errCode .outOfMemory)
  | some (p, st) => (.buffer p st, ok)

/-- `capi/src/symbolize.rs:1122-1160` (`blaze_symbolize_impl`). -/
def symbolizeImpl (core : Core) (alloc : Nat → Option Nat) (m : Mem) (src : Source)
    (kind : List Nat → Input (List Nat)) (addrs cnt : Nat) : Except Fault (Ret × Int) := do
  let addrs ← userArray m addrs 8 cnt
  match core.symbolize src (kind addrs) with
  | .ok [] => return (.null, ok)
  | .ok results =>
    let buf ← convertResults alloc results
    return reportBuffer buf
  | .error e => return (.null, errCode e)

/-- The structure each function takes and how it is converted: `capi/src/symbolize.rs:1185-1190, 1218-1223,
1251-1256, 1290-1295, 1330-1335, 1369-1374`. -/
def sourceOf (m : Mem) (src : Nat) : SymbolizeFn → Except Fault (Except ErrorKind Source)
  | .process => inputAs m src .srcProcess srcProcess
  | .kernel => inputAs m src .srcKernel (srcKernel m)
  | .elfVirt => inputAs m src .srcElf (srcElf m)
  | .elfFile => inputAs m src .srcElf (srcElf m)
  | .gsymData => inputAs m src .srcGsymData (srcGsymData m)
  | .gsymFile => inputAs m src .srcGsymFile (srcGsymFile m)

/-- What the addresses of each function are: `capi/src/symbolize.rs:1192, 1225, 1259-1266, 1298-1305, 1336-1343,
1376-1383`. -/
def kindOf : SymbolizeFn → List Nat → Input (List Nat)
  | .process => .absAddr
  | .kernel => .absAddr
  | .elfVirt => .virtOffset
  | .elfFile => .fileOffset
  | .gsymData => .virtOffset
  | .gsymFile => .virtOffset

/-- `capi/src/normalize.rs:731-758` (`blaze_normalize_user_addrs_impl`). -/
def normalizeImpl (core : Core) (m : Mem) (pid addrs cnt : Nat) (opts : NormalizeOpts) : Except Fault (Ret × Int) := do
  let addrs ← userArray m addrs 8 cnt
  match core.normalize pid addrs opts with
  | .ok _ => return (.object, ok)
  | .error e => return (.null, errCode e)

/-- `CStr::to_str().unwrap()`: a string that is not UTF-8 is a panic, which aborts the program. -/
def utf8Strings : List Bytes → Except Fault (List Bytes)
  | [] => .ok []
  | s :: ss => do
    if !isUtf8 s then throw .abort
    let ss ← utf8Strings ss
    return s :: ss

/-- A call: what is returned and the error that is set. -/
def run (core : Core) (alloc : Nat → Option Nat) (m : Mem) : Call → Except Fault (Ret × Int)
  -- `capi/src/symbolize.rs:769-774`
  | .symbolizerNew => .ok (.object, ok)
  -- `capi/src/symbolize.rs:789-887`
  | .symbolizerNewOpts opts => do
    match ← inputAs m opts .symbolizerOpts (symbolizerOpts m) with
    | .error e => return (.null, errCode e)
    | .ok _ => return (.object, ok)
  -- `capi/src/symbolize.rs:1179-1384`
  | .symbolize fn src addrs cnt => do
    match ← sourceOf m src fn with
    | .error e => return (.null, errCode e)
    | .ok src => symbolizeImpl core alloc m src (kindOf fn) addrs cnt
  -- `capi/src/symbolize.rs:915-933`
  | .cacheElf src => do
    match ← inputAs m src .cacheElf (cacheElf m) with
    | .error e => return (.void, errCode e)
    | .ok path => return (.void, errOf (core.cacheElf path))
  -- `capi/src/symbolize.rs:956-974`
  | .cacheProcess src => do
    match ← inputAs m src .cacheProcess cacheProcess with
    | .error e => return (.void, errCode e)
    | .ok process => return (.void, errOf (core.cacheProcess process))
  -- `capi/src/normalize.rs:188-193`
  | .normalizerNew => .ok (.object, ok)
  -- `capi/src/normalize.rs:209-236`
  | .normalizerNewOpts opts => do
    match ← inputAs m opts .normalizerOpts normalizerOpts with
    | .error e => return (.null, errCode e)
    | .ok _ => return (.object, ok)
  -- `capi/src/normalize.rs:779-788`
  | .normalize pid addrs cnt => normalizeImpl core m pid addrs cnt ⟨false, false, false⟩
  -- `capi/src/normalize.rs:811-826`
  | .normalizeOpts pid addrs cnt opts => do
    match ← inputAs m opts .normalizeOpts normalizeOpts with
    | .error e => return (.null, errCode e)
    | .ok opts => normalizeImpl core m pid addrs cnt opts
  -- `capi/src/inspect.rs:360-365`
  | .inspectorNew => .ok (.object, ok)
  -- `capi/src/inspect.rs:284-326`
  | .inspect src names cnt => do
    match ← inputAs m src .inspectElf (inspectElf m) with
    | .error e => return (.null, errCode e)
    | .ok src =>
      let names ← userArray m names 8 cnt
      let names ← cstrings m names
      let names ← utf8Strings names
      match core.lookup src names with
      | .ok lists =>
        let buf ← convertSymLists alloc lists
        return reportBuffer buf
      | .error e => return (.null, errCode e)
  -- `capi/src/helper.rs:57-107`
  | .buildId path => do
    let path ← fromCStr m path
    match core.buildId path with
    | .ok none => return (.null, ok)
    | .ok (some id) =>
      match alloc id.length with
      | none => return (.null, errCode .outOfMemory)
      | some _ => return (.bytes id, ok)
    | .error e => return (.null, errCode e)
  -- `capi/src/helper.rs:24-32`
  | .procmapQuery =>
    .ok (.bool (match core.procmapQuery with
        | .ok b => b
        | .error _ => false), errOf core.procmapQuery)

/-- `capi/src/error.rs:73-87`: the last error of every thread. -/
abbrev LastErr := Nat → Int

/-- `capi/src/error.rs:75`: the initial value. -/
def LastErr.init : LastErr := fun _ => ok

/-- `capi/src/error.rs:85-87` (`set_last_err`) by a thread. -/
def LastErr.set (l : LastErr) (thread : Nat) (err : Int) : LastErr := fun t => if t = thread then err else l t

/-- One step of a program: a thread makes a call.  The Rust library, the allocator and the memory may be
different every time. -/
structure Step where
  thread : Nat
  core : Core
  alloc : Nat → Option Nat
  mem : Mem
  call : Call

/-- A program runs: the last errors in the end, and what the calls returned. -/
def runAll (l : LastErr) : List Step → Except Fault (LastErr × List Ret)
  | [] => .ok (l, [])
  | s :: rest => do
    let (ret, err) ← run s.core s.alloc s.mem s.call
    let (l, rets) ← runAll (l.set s.thread err) rest
    return (l, ret :: rets)

end Blazesym.CApi
