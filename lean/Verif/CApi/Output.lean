import Verif.CApi.Input
import Verif.CApi.Inspect

/-!
# Model of the conversion of normalization results to C structures, and of freeing them
(`capi/src/normalize.rs`)

Sizes and offsets are those of the C ABI of 64 bit targets:
* `blaze_normalized_output` (`:256-269`), 32 bytes: `output` 0, `meta_idx` 8, `reserved` 16;
* `blaze_user_meta` (`:595-608`), 64 bytes: `kind` 0, `unused` 1, `variant` 8 (a union of 40 bytes), `reserved` 48;
* `blaze_user_meta_apk` (`:310-319`): `path` 0, `reserved` 8;
* `blaze_user_meta_elf` (`:351-371`): `path` 0, `build_id_len` 8, `build_id` 16, `reserved` 24;
* `blaze_user_meta_sym` (`:429-436`): `sym` 0, `reserved` 8;
* `blaze_user_meta_unknown` (`:541-552`): `reason` 0, `reserved` 1;
* `blaze_normalized_user_output` (`:670-685`), 48 bytes: `meta_cnt` 0, `metas` 8, `output_cnt` 16, `outputs` 24,
  `reserved` 32.

Memory that is freed and moved around while a vector is built is not modelled, only the final allocations.
-/

set_option autoImplicit false

namespace Blazesym.CApi

open Blazesym.Symbolize

/-- Memory that was allocated, with the layout it was allocated with. -/
structure Block where
  addr : Nat
  size : Nat
  align : Nat
  deriving DecidableEq, Repr

/-- The contents of memory, and what is allocated. -/
structure Store where
  mem : Mem
  blocks : List Block

/-- The allocator, by size and alignment. It is arbitrary, and may fail. -/
abbrev Allocator := Store → Nat → Nat → Option Nat

/-- Memory with other contents from `a` on. A byte that is not initialised is `none`. -/
def Mem.fill (m : Mem) (a : Nat) (content : List (Option UInt8)) : Mem :=
  fun x => if a ≤ x ∧ x < a + content.length then (content[x - a]?).join else m x

/-- `Box::into_raw` of a new box (`Box::new`, `into_boxed_slice`): nothing is allocated if its size is 0. A
failed allocation aborts the program. -/
def Store.box (alloc : Allocator) (s : Store) (align : Nat) (content : List (Option UInt8)) :
    Except Fault (Nat × Store) :=
  if content.isEmpty then .ok (align, s)
  else
    match alloc s content.length align with
    | none => .error .outOfMemory
    | some a => .ok (a, ⟨s.mem.fill a content, ⟨a, content.length, align⟩ :: s.blocks⟩)

/-- Giving memory back: undefined behaviour unless it was allocated with the same layout. It cannot be read
any more. -/
def Store.free (s : Store) (b : Block) : Except Fault Store :=
  if b.size = 0 then .ok s
  else if b ∈ s.blocks then
    .ok ⟨s.mem.fill b.addr (List.replicate b.size none), s.blocks.erase b⟩
  else .error .badLayout

/-- `src/normalize/meta.rs:110-127` (`UserMeta`). -/
inductive OutMeta where
  | apk (path : Bytes)
  | elf (path : Bytes) (buildId : Option Bytes)
  | sym (sym : Sym)
  | unknown (reason : Reason)
  deriving DecidableEq, Repr

/-- `src/normalize/user.rs:51-62` (`UserOutput`). -/
structure UserOutput where
  outputs : List (Nat × Nat)
  metas : List OutMeta

/-- Bytes that are initialised. -/
def init (bs : Bytes) : List (Option UInt8) := bs.map some

/-- `CString::new(..).expect(..).into_raw()` (`capi/src/normalize.rs:329-331`, `382-384`): a string with a
NUL is a panic, which aborts the program. -/
def cstringRaw (alloc : Allocator) (s : Store) (str : Bytes) : Except Fault (Nat × Store) :=
  if 0 ∈ str then .error .abort else s.box alloc 1 (init (str ++ [0]))

/-- The bytes of a `blaze_user_meta` (`capi/src/normalize.rs:611-647`). What the variant does not need of the
union is not initialised. -/
def metaBytes (kind : Nat) (variant : Bytes) : List (Option UInt8) :=
  init (leBytes 1 kind ++ List.replicate 7 0 ++ variant) ++ List.replicate (40 - variant.length) none
    ++ init (List.replicate 16 0)

/-- `capi/src/normalize.rs:390-403`: the build ID, `NULL` if there is none. -/
def buildIdRaw (alloc : Allocator) (s : Store) : Option Bytes → Except Fault (Nat × Store)
  | none => .ok (0, s)
  | some id => s.box alloc 1 (init id)

/-- `capi/src/normalize.rs:610-648` (`blaze_user_meta::from`), with `:322-335` (`blaze_user_meta_apk::from`),
`:374-409` (`blaze_user_meta_elf::from`), `:439-465` (`blaze_user_meta_sym::from`) and `:555-566`
(`blaze_user_meta_unknown::from`). -/
def convertMeta (alloc : Allocator) (s : Store) : OutMeta → Except Fault (List (Option UInt8) × Store)
  | .apk path => do
    let (path, s) ← cstringRaw alloc s path
    return (metaBytes 1 (leBytes 8 path ++ List.replicate 16 0), s)
  | .elf path id => do
    let (path, s) ← cstringRaw alloc s path
    let (raw, s) ← buildIdRaw alloc s id
    return (metaBytes 2 (leBytes 8 path ++ leBytes 8 ((id.map List.length).getD 0) ++ leBytes 8 raw
      ++ List.replicate 16 0), s)
  | .sym sym => do
    match ← convertMetaSym (fun size => alloc s size 8) sym with
    | none => throw .outOfMemory
    | some (p, st) =>
      let content := (List.range st.heap.size).map fun i => st.heap.mem (st.heap.base + i)
      return (metaBytes 3 (leBytes 8 p ++ List.replicate 16 0),
        ⟨s.mem.fill st.heap.base content, ⟨st.heap.base, st.heap.size, 8⟩ :: s.blocks⟩)
  | .unknown reason => .ok (metaBytes 0 (leBytes 1 (normalizeReason reason) ++ List.replicate 15 0), s)

/-- `capi/src/normalize.rs:693-698`: the elements of the array. -/
def convertMetas (alloc : Allocator) (s : Store) : List OutMeta → Except Fault (List (Option UInt8) × Store)
  | [] => .ok ([], s)
  | x :: xs => do
    let (bytes, s) ← convertMeta alloc s x
    let (rest, s) ← convertMetas alloc s xs
    return (bytes ++ rest, s)

/-- `capi/src/normalize.rs:271-279` (`From<(u64, usize)>`). -/
def outputBytes (out : Nat × Nat) : Bytes := leBytes 8 out.1 ++ leBytes 8 out.2 ++ List.replicate 16 0

/-- `capi/src/normalize.rs:687-727` (`blaze_normalized_user_output::from`) and `:746-750` (`Box::new`). -/
def convertOutput (alloc : Allocator) (s : Store) (out : UserOutput) : Except Fault (Nat × Store) := do
  let (elems, s) ← convertMetas alloc s out.metas
  let (metas, s) ← s.box alloc 8 elems
  let (outputs, s) ← s.box alloc 8 (init (out.outputs.flatMap outputBytes))
  s.box alloc 8 (init (leBytes 8 out.metas.length ++ leBytes 8 metas ++ leBytes 8 out.outputs.length
    ++ leBytes 8 outputs ++ List.replicate 16 0))

/-- `CString::from_raw(path).into_bytes()` and dropping it (`capi/src/normalize.rs:340-345`, `419-421`): its
length is that up to the NUL. -/
def freeCString (s : Store) (p : Nat) : Except Fault Store := do
  let str ← fromCStr s.mem p
  s.free ⟨p, str.length + 1, 1⟩

/-- `capi/src/normalize.rs:651-667` (`blaze_user_meta::free`) of the element at an address, with `:337-346`,
`:411-431`, `:467-473` and `:568-573`. A kind that is unknown fails an assertion. -/
def freeMeta (s : Store) (a : Nat) : Except Fault Store := do
  match ← readNum s.mem a 1 with
  | 1 =>
    let path ← readNum s.mem (a + 8) 8
    freeCString s path
  | 2 =>
    let path ← readNum s.mem (a + 8) 8
    let len ← readNum s.mem (a + 16) 8
    let id ← readNum s.mem (a + 24) 8
    let s ← freeCString s path
    if id = 0 then return s else s.free ⟨id, len, 1⟩
  | 3 =>
    let sym ← readNum s.mem (a + 8) 8
    let size ← readNum s.mem (sym - 8) 8
    s.free ⟨sym - 8, size, 8⟩
  | 0 => return s
  | _ => throw .abort

/-- `capi/src/normalize.rs:862-864`: the loop over the elements. -/
def freeMetas (s : Store) (a : Nat) : Nat → Except Fault Store
  | 0 => .ok s
  | n + 1 => do
    let s ← freeMeta s a
    freeMetas s (a + 64) n

/-- `capi/src/normalize.rs:838-865` (`blaze_user_output_free`). The arrays and the structure itself are freed in
the end. -/
def userOutputFree (s : Store) (p : Nat) : Except Fault Store := do
  if p = 0 then return s
  let metaCnt ← readNum s.mem p 8
  let metas ← readNum s.mem (p + 8) 8
  let outputCnt ← readNum s.mem (p + 16) 8
  let outputs ← readNum s.mem (p + 24) 8
  let s ← freeMetas s metas metaCnt
  let s ← s.free ⟨metas, metaCnt * 64, 8⟩
  let s ← s.free ⟨outputs, outputCnt * 32, 8⟩
  s.free ⟨p, 48, 8⟩

end Blazesym.CApi
