import Verif.CApi.Convert
import Verif.Elf.Types

/-!
# Model of the conversion of looked up symbols to C structures (`capi/src/inspect.rs`) and of a single
symbol (`capi/src/normalize.rs`)

`blaze_sym_info` (`capi/src/inspect.rs:158-180`) takes 64 bytes on 64 bit targets: `name` 0, `addr` 8,
`size` 16, `file_offset` 24, `module` 32, `sym_type` 40, `reserved` 41.
-/

set_option autoImplicit false

namespace Blazesym.CApi

open Blazesym.Symbolize

/-- `src/inspect/mod.rs` (`SymInfo`). -/
structure SymInfo where
  name : Bytes
  addr : Nat
  size : Option Nat
  symType : Elf.SymType
  fileOffset : Option Nat
  module : Option Bytes
  deriving DecidableEq, Repr

/-- `size_of::<blaze_sym_info>()`. -/
abbrev symInfoSize : Nat := 64

/-- `capi/src/inspect.rs:145-154` (`From<SymType>`) with the constants of `:132-143`. -/
def symTypeCode : Elf.SymType → Nat
  | .undefined => 0
  | .function => 1
  | .variable => 2

/-- `capi/src/util.rs:130-144` (`c_str_size` of a `SymInfo`). -/
def symInfoStrSize (info : SymInfo) : Nat := strSize info.name + optSize strSize info.module

/-- The bytes of a `blaze_sym_info`. -/
def symInfoBytes (name addr size fileOffset module symType : Nat) : Bytes :=
  leBytes 8 name ++ leBytes 8 addr ++ leBytes 8 size ++ leBytes 8 fileOffset ++ leBytes 8 module
    ++ leBytes 1 symType ++ List.replicate 23 0

/-- Assigning a whole structure of alignment 8. -/
def putAll (st : Cur) (a : Nat) (bs : Bytes) : Except Fault Cur :=
  if a % 8 ≠ 0 then .error .misaligned
  else do
    let heap ← st.heap.store a bs
    return { st with heap }

/-- `capi/src/inspect.rs:206-247`: the inner loop; `inl` of the state is `sym_ptr`, and copying a string and
its NUL is what `make_cstr` does. -/
def convertInfos (st : Cur) : List SymInfo → Except Fault Cur
  | [] => .ok st
  | info :: infos => do
    let (name, st) ← makeCStr st info.name
    let (module, st) ← makeOptCStr st info.module
    let st ← putAll st st.inl
      (symInfoBytes name info.addr (cSize info.size) (info.fileOffset.getD 0) module (symTypeCode info.symType))
    convertInfos { st with inl := st.inl + symInfoSize } infos

/-- `capi/src/inspect.rs:204-262`: the outer loop; `ptr` is `syms_ptr`. -/
def convertLists (st : Cur) (ptr : Nat) : List (List SymInfo) → Except Fault Cur
  | [] => .ok st
  | infos :: rest => do
    let st ← put st ptr 8 st.inl
    let st ← convertInfos st infos
    let st ← putAll st st.inl (symInfoBytes 0 0 0 0 0 (symTypeCode .undefined))
    convertLists { st with inl := st.inl + symInfoSize } (ptr + 8) rest

/-- `capi/src/inspect.rs:185`: the number of structures, including terminators. -/
def infoCount (lists : List (List SymInfo)) : Nat := (lists.map fun infos => infos.length + 1).sum

/-- `capi/src/inspect.rs:186`: the size of the strings. -/
def listsStrSize (lists : List (List SymInfo)) : Nat :=
  (lists.map fun infos => (infos.map symInfoStrSize).sum).sum

/-- `capi/src/inspect.rs:188-189`: the size of the array of pointers. -/
def arraySize (lists : List (List SymInfo)) : Nat := (8 * lists.length + 7) / 8 * 8

/-- `capi/src/inspect.rs:191`: the size of the buffer. -/
def listsBufSize (lists : List (List SymInfo)) : Nat :=
  8 + arraySize lists + symInfoSize * infoCount lists + listsStrSize lists

/-- `capi/src/inspect.rs:184-265` (`convert_syms_list_to_c`). -/
def convertSymLists (alloc : Nat → Option Nat) (lists : List (List SymInfo)) :
    Except Fault (Option (Nat × Cur)) := do
  match ← allocate alloc (listsBufSize lists) with
  | none => return none
  | some heap =>
    let heap ← heap.storeNum heap.base 8 (listsBufSize lists)
    let raw := heap.base + 8
    let st ← convertLists
      { heap, cstr := raw + (arraySize lists + symInfoSize * infoCount lists), inl := raw + arraySize lists } raw lists
    return some (raw, st)

/-- `capi/src/normalize.rs:441-444`: the size of the buffer of a single symbol. -/
def metaSymSize (sym : Sym) : Nat := 8 + symSize + sym.inlined.length * inlinedSize + symStrSize sym

/-- `capi/src/normalize.rs:439-465` (`blaze_user_meta_sym::from`): a failed allocation is a failed assertion
(`none`). -/
def convertMetaSym (alloc : Nat → Option Nat) (sym : Sym) : Except Fault (Option (Nat × Cur)) := do
  match ← allocate alloc (metaSymSize sym) with
  | none => return none
  | some heap =>
    let heap ← heap.storeNum heap.base 8 (metaSymSize sym)
    let buf := heap.base + 8
    let inl := buf + symSize
    let cstr := inl + inlinedSize * sym.inlined.length
    heap.refMut buf symSize
    let st ← convertSymTo { heap, cstr, inl } sym buf
    return some (buf, st)

end Blazesym.CApi
