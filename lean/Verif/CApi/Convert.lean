import Verif.CApi.Memory
import Verif.CApi.Codes
import Verif.Symbolize.Convert

/-!
# Model of the conversion of results to C structures (`capi/src/symbolize.rs`, `capi/src/util.rs`)

Sizes and offsets of the structures are those of the C ABI of 64 bit targets:
* `blaze_symbolize_code_info` (`capi/src/symbolize.rs:534-551`), 32 bytes: `dir` 0, `file` 8, `line` 16,
  `column` 20, `reserved` 22;
* `blaze_symbolize_inlined_fn` (`:557-564`), 48 bytes: `name` 0, `code_info` 8, `reserved` 40;
* `blaze_sym` (`:573-623`), 104 bytes: `name` 0, `module` 8, `addr` 16, `offset` 24, `size` 32,
  `code_info` 40, `inlined_cnt` 72, `inlined` 80, `reason` 88, `reserved` 89;
* `blaze_syms` (`:631-639`), 8 bytes: `cnt` 0, `syms` 8.

Sums of sizes are not truncated: inputs that overflow `usize` cannot be in memory.
-/

set_option autoImplicit false

namespace Blazesym.CApi

open Blazesym.Symbolize

/-- `size_of::<blaze_symbolize_inlined_fn>()`. -/
abbrev inlinedSize : Nat := 48

/-- `size_of::<blaze_sym>()`. -/
abbrev symSize : Nat := 104

/-- `size_of::<blaze_syms>()`. -/
abbrev symsSize : Nat := 8

/-- `capi/src/util.rs:21-37` (`c_str_size` of a string or path). -/
def strSize (s : Bytes) : Nat := s.length + 1

/-- `capi/src/util.rs:39-46` (`c_str_size` of an `Option`). -/
def optSize {α : Type} (f : α → Nat) (o : Option α) : Nat := (o.map f).getD 0

/-- `capi/src/util.rs:87-99` (`c_str_size` of a `CodeInfo`). -/
def codeInfoSize (info : CodeInfo) : Nat := optSize strSize info.dir + strSize info.file

/-- `capi/src/util.rs:101-111` (`c_str_size` of an `InlinedFn`). -/
def inlinedStrSize (fn : InlinedFn) : Nat := strSize fn.name + optSize codeInfoSize fn.codeInfo

/-- `capi/src/util.rs:113-128` (`c_str_size` of a `Sym`), with the slice instance of `:57-64`. -/
def symStrSize (sym : Sym) : Nat :=
  strSize sym.name + optSize strSize sym.module + optSize codeInfoSize sym.codeInfo
    + (sym.inlined.map inlinedStrSize).sum

/-- The allocation and the cursors `cstr_last`, `inlined_last` and `syms_last`. -/
structure Cur where
  heap : Heap
  cstr : Nat
  inl : Nat

/-- `capi/src/symbolize.rs:976-983` (`make_cstr`). -/
def makeCStr (st : Cur) (src : Bytes) : Except Fault (Nat × Cur) := do
  let cstr := st.cstr
  let heap ← st.heap.store cstr src
  let heap ← heap.store (cstr + src.length) [0]
  return (cstr, { st with heap, cstr := st.cstr + (src.length + 1) })

/-- `make_cstr` of an optional string, else `NULL`. -/
def makeOptCStr (st : Cur) (src : Option Bytes) : Except Fault (Nat × Cur) :=
  match src with
  | none => .ok (0, st)
  | some s => makeCStr st s

/-- Writing a field of a structure. -/
def put (st : Cur) (a k n : Nat) : Except Fault Cur := do
  let heap ← st.heap.storeNum a k n
  return { st with heap }

/-- `capi/src/symbolize.rs:985-1010` (`convert_code_info`); the output structure is at `out`. -/
def convertCodeInfo (st : Cur) (info : Option CodeInfo) (out : Nat) : Except Fault Cur := do
  let (dir, st) ← makeOptCStr st (info.bind fun info => info.dir)
  let st ← put st out 8 dir
  let (file, st) ← makeOptCStr st (info.map fun info => info.file)
  let st ← put st (out + 8) 8 file
  let st ← put st (out + 16) 4 ((info.bind fun info => info.line).getD 0)
  put st (out + 20) 2 ((info.bind fun info => info.column).getD 0)

/-- `isize::try_from(size).unwrap_or(isize::MAX)` or `-1`, as the bits of an `isize`
(`capi/src/symbolize.rs:1031-1034`, `capi/src/inspect.rs:237-239`). -/
def cSize (size : Option Nat) : Nat :=
  match size with
  | none => u64Size - 1
  | some size => if size < 9223372036854775808 then size else 9223372036854775807

/-- `capi/src/symbolize.rs:1040-1052`: the loop over inlined functions. -/
def convertInlined (st : Cur) : List InlinedFn → Except Fault Cur
  | [] => .ok st
  | fn :: fns => do
    st.heap.refMut st.inl inlinedSize
    let ref := st.inl
    let (name, st) ← makeCStr st fn.name
    let st ← put st ref 8 name
    let st ← convertCodeInfo st fn.codeInfo (ref + 8)
    convertInlined { st with inl := st.inl + inlinedSize } fns

/-- `capi/src/symbolize.rs:1014-1053` (`convert_sym`); the output structure is at `ref`. -/
def convertSymTo (st : Cur) (sym : Sym) (ref : Nat) : Except Fault Cur := do
  let (name, st) ← makeCStr st sym.name
  let (module, st) ← makeOptCStr st sym.module
  let st ← put st ref 8 name
  let st ← put st (ref + 8) 8 module
  let st ← put st (ref + 16) 8 sym.addr
  let st ← put st (ref + 24) 8 sym.offset
  let st ← put st (ref + 32) 8 (cSize sym.size)
  let st ← convertCodeInfo st sym.codeInfo (ref + 40)
  let st ← put st (ref + 72) 8 sym.inlined.length
  let st ← put st (ref + 80) 8 st.inl
  let st ← put st (ref + 88) 1 0
  convertInlined st sym.inlined

/-- `capi/src/symbolize.rs:1099-1117`: the loop over results; `last` is `syms_last`. -/
def convertLoop (st : Cur) (last : Nat) : List Symbolized → Except Fault Cur
  | [] => .ok st
  | .sym sym :: rest => do
    st.heap.refMut last symSize
    let st ← convertSymTo st sym last
    convertLoop st (last + symSize) rest
  | .unknown reason :: rest => do
    st.heap.refMut last symSize
    let heap ← st.heap.store last (List.replicate symSize 0)
    let st ← put { st with heap } (last + 88) 1 (symbolizeReason reason)
    convertLoop st (last + symSize) rest

/-- `capi/src/symbolize.rs:1063-1066`: the closure of the fold. -/
def addTotals (acc : Nat × Nat) (sym : Symbolized) : Nat × Nat :=
  match sym with
  | .sym sym => (acc.1 + symStrSize sym, acc.2 + sym.inlined.length)
  | .unknown _ => acc

/-- `capi/src/symbolize.rs:1063-1066`: the fold that sums up strings and inlined functions. -/
def totals (results : List Symbolized) : Nat × Nat := results.foldl addTotals (0, 0)

/-- `capi/src/symbolize.rs:1068-1072`: the size of the buffer. -/
def bufSize (results : List Symbolized) : Nat :=
  8 + (totals results).1 + symsSize + symSize * results.length + inlinedSize * (totals results).2

/-- `capi/src/symbolize.rs:1060-1120` (`convert_symbolizedresults_to_c`): `NULL` (`none`) if memory is
exhausted, else the address of the `blaze_syms` and the final state. -/
def convertResults (alloc : Nat → Option Nat) (results : List Symbolized) :
    Except Fault (Option (Nat × Cur)) := do
  match ← allocate alloc (bufSize results) with
  | none => return none
  | some heap =>
    let heap ← heap.storeNum heap.base 8 (bufSize results)
    let syms := heap.base + 8
    let inl := syms + (symsSize + symSize * results.length)
    let cstr := syms + (symsSize + symSize * results.length + inlinedSize * (totals results).2)
    let heap ← heap.storeNum syms 8 results.length
    let st ← convertLoop { heap, cstr, inl } (syms + symsSize) results
    return some (syms, st)

/-- The number of `k` bytes read through a pointer. -/
def Mem.num (m : Mem) (a : Nat) : Nat → Option Nat
  | 0 => some 0
  | k + 1 => do
    let b ← m a
    let n ← Mem.num m (a + 1) k
    return b.toNat + 256 * n

/-- `capi/src/symbolize.rs:1393-1402` (`blaze_syms_free`): what is given back to the allocator (address
and size), if anything. -/
def symsFree (m : Mem) (syms : Nat) : Option (Option (Nat × Nat)) :=
  if syms = 0 then some none
  else (m.num (syms - 8) 8).map fun size => some (syms - 8, size)

end Blazesym.CApi
