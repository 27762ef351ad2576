/-!
# Model of how the structures of the C interface are laid out

The library defines its structures in Rust, with `#[repr(C)]`; programs see those of the C header
`capi/include/blazesym.h`.  Both are laid out by the rules of the target's C ABI: each member is put at the next
multiple of its alignment, and the size is rounded up to the greatest alignment of a member.
-/

set_option autoImplicit false

namespace Blazesym.CApi.Abi

/-- Size and alignment of a type. -/
structure Shape where
  size : Nat
  align : Nat
  deriving DecidableEq, Repr

/-- What targets differ in: pointers and `usize`, and the alignments of integers. -/
structure Target where
  word : Shape
  align16 : Nat
  align32 : Nat
  align64 : Nat
  deriving DecidableEq, Repr

/-- A type. -/
abbrev Ty := Target → Shape

/-- The next multiple of an alignment. -/
def roundUp (n a : Nat) : Nat := (n + a - 1) / a * a

/-- The offsets of the members of a structure from a position on, and where the last one ends. -/
def place : Nat → List Shape → List Nat × Nat
  | pos, [] => ([], pos)
  | pos, s :: rest =>
    let off := roundUp pos s.align
    let r := place (off + s.size) rest
    (off :: r.1, r.2)

/-- The greatest alignment. -/
def maxAlign : List Shape → Nat
  | [] => 1
  | s :: rest => max s.align (maxAlign rest)

/-- The greatest size. -/
def maxSize : List Shape → Nat
  | [] => 0
  | s :: rest => max s.size (maxSize rest)

/-- The shape of a structure. -/
def structShape (ss : List Shape) : Shape := ⟨roundUp (place 0 ss).2 (maxAlign ss), maxAlign ss⟩

/-- The shape of a union. -/
def unionShape (ss : List Shape) : Shape := ⟨roundUp (maxSize ss) (maxAlign ss), maxAlign ss⟩

/-- Members, by name. -/
abbrev Members := List (String × Ty)

/-- The shapes of members. -/
def Members.shapes (ms : Members) (t : Target) : List Shape := ms.map fun m => m.2 t

/-- A structure as the type of a member. -/
def struct (ms : Members) : Ty := fun t => structShape (ms.shapes t)

/-- A union as the type of a member. -/
def union (ms : Members) : Ty := fun t => unionShape (ms.shapes t)

/-- `[T; n]` and `T x[n]`. -/
def array (n : Nat) (ty : Ty) : Ty := fun t => ⟨n * (ty t).size, (ty t).align⟩

/-- The offsets of members. -/
def Members.offsets (ms : Members) (t : Target) : List Nat := (place 0 (ms.shapes t)).1

/-! ### Rust -/

namespace Rust

/-- `u8`. -/
def u8 : Ty := fun _ => ⟨1, 1⟩

/-- `bool`. -/
def bool : Ty := fun _ => ⟨1, 1⟩

/-- `u16`. -/
def u16 : Ty := fun t => ⟨2, t.align16⟩

/-- `u32`. -/
def u32 : Ty := fun t => ⟨4, t.align32⟩

/-- `u64`, also `Addr` (`src/lib.rs:97-98`). -/
def u64 : Ty := fun t => ⟨8, t.align64⟩

/-- `usize` and `isize`. -/
def usize : Ty := fun t => t.word

/-- `*const T`, `*mut T` and `extern "C" fn`. -/
def ptr : Ty := fun t => t.word

/-- `capi/src/inspect.rs:128-130` (`blaze_sym_type`), `capi/src/normalize.rs:284-286, 482-484`
(`blaze_user_meta_kind`, `blaze_normalize_reason`) and `capi/src/symbolize.rs:464-466`
(`blaze_symbolize_reason`): all `repr(transparent)`. -/
def code : Ty := u8

/-- `capi/src/inspect.rs:43-59`. -/
def inspectElfSrc : Members :=
  [("type_size", usize), ("path", ptr), ("debug_syms", bool), ("reserved", array 23 u8)]

/-- `capi/src/inspect.rs:158-180`. -/
def symInfo : Members :=
  [("name", ptr), ("addr", u64), ("size", usize), ("file_offset", u64), ("module", ptr), ("sym_type", code),
   ("reserved", array 23 u8)]

/-- `capi/src/normalize.rs:45-91`. -/
def normalizerOpts : Members :=
  [("type_size", usize), ("use_procmap_query", bool), ("cache_vmas", bool), ("build_ids", bool),
   ("cache_build_ids", bool), ("reserved", array 20 u8)]

/-- `capi/src/normalize.rs:108-141`. -/
def normalizeOpts : Members :=
  [("type_size", usize), ("sorted_addrs", bool), ("map_files", bool), ("apk_to_elf", bool), ("reserved", array 21 u8)]

/-- `capi/src/normalize.rs:260-270`. -/
def normalizedOutput : Members := [("output", u64), ("meta_idx", usize), ("reserved", array 16 u8)]

/-- `capi/src/normalize.rs:312-320`. -/
def userMetaApk : Members := [("path", ptr), ("reserved", array 16 u8)]

/-- `capi/src/normalize.rs:352-369`. -/
def userMetaElf : Members :=
  [("path", ptr), ("build_id_len", usize), ("build_id", ptr), ("reserved", array 16 u8)]

/-- `capi/src/normalize.rs:429-436`. -/
def userMetaSym : Members := [("sym", ptr), ("reserved", array 16 u8)]

/-- `capi/src/normalize.rs:542-552`. -/
def userMetaUnknown : Members := [("reason", code), ("reserved", array 15 u8)]

/-- `capi/src/normalize.rs:578-588`; `ManuallyDrop` is transparent. -/
def userMetaVariant : Members :=
  [("apk", struct userMetaApk), ("elf", struct userMetaElf), ("sym", struct userMetaSym),
   ("unknown", struct userMetaUnknown)]

/-- `capi/src/normalize.rs:598-610`. -/
def userMeta : Members :=
  [("kind", code), ("unused", array 7 u8), ("variant", union userMetaVariant), ("reserved", array 16 u8)]

/-- `capi/src/normalize.rs:677-690`. -/
def normalizedUserOutput : Members :=
  [("meta_cnt", usize), ("metas", ptr), ("output_cnt", usize), ("outputs", ptr), ("reserved", array 16 u8)]

/-- `capi/src/symbolize.rs:46-59`. -/
def cacheSrcElf : Members := [("type_size", usize), ("path", ptr), ("reserved", array 16 u8)]

/-- `capi/src/symbolize.rs:87-119`. -/
def cacheSrcProcess : Members :=
  [("type_size", usize), ("pid", u32), ("cache_vmas", bool), ("reserved", array 19 u8)]

/-- `capi/src/symbolize.rs:153-174`. -/
def symbolizeSrcElf : Members :=
  [("type_size", usize), ("path", ptr), ("debug_syms", bool), ("reserved", array 23 u8)]

/-- `capi/src/symbolize.rs:205-245`. -/
def symbolizeSrcKernel : Members :=
  [("type_size", usize), ("kallsyms", ptr), ("vmlinux", ptr), ("debug_syms", bool), ("reserved", array 23 u8)]

/-- `capi/src/symbolize.rs:296-327`. -/
def symbolizeSrcProcess : Members :=
  [("type_size", usize), ("pid", u32), ("debug_syms", bool), ("perf_map", bool), ("no_map_files", bool),
   ("no_vdso", bool), ("reserved", array 16 u8)]

/-- `capi/src/symbolize.rs:367-382`. -/
def symbolizeSrcGsymData : Members :=
  [("type_size", usize), ("data", ptr), ("data_len", usize), ("reserved", array 16 u8)]

/-- `capi/src/symbolize.rs:412-425`. -/
def symbolizeSrcGsymFile : Members := [("type_size", usize), ("path", ptr), ("reserved", array 16 u8)]

/-- `capi/src/symbolize.rs:532-551`. -/
def codeInfo : Members :=
  [("dir", ptr), ("file", ptr), ("line", u32), ("column", u16), ("reserved", array 10 u8)]

/-- `capi/src/symbolize.rs:555-564`. -/
def inlinedFn : Members := [("name", ptr), ("code_info", struct codeInfo), ("reserved", array 8 u8)]

/-- `capi/src/symbolize.rs:571-623`. -/
def sym : Members :=
  [("name", ptr), ("module", ptr), ("addr", u64), ("offset", usize), ("size", usize), ("code_info", struct codeInfo),
   ("inlined_cnt", usize), ("inlined", ptr), ("reason", code), ("reserved", array 15 u8)]

/-- `capi/src/symbolize.rs:629-639`. -/
def syms : Members := [("cnt", usize), ("syms", array 0 (struct sym))]

/-- `capi/src/symbolize.rs:670-681`. -/
def symbolizerDispatch : Members := [("dispatch_cb", ptr), ("ctx", ptr)]

/-- `capi/src/symbolize.rs:684-736`. -/
def symbolizerOpts : Members :=
  [("type_size", usize), ("debug_dirs", ptr), ("debug_dirs_len", usize), ("auto_reload", bool), ("code_info", bool),
   ("inlined_fns", bool), ("demangle", bool), ("_reserved1", array 4 u8), ("process_dispatch", ptr),
   ("reserved", array 8 u8)]

/-- `capi/src/symbolize.rs:1068-1094`: where the arrays are in the buffer of `n` results: the `blaze_syms`, the
`blaze_sym` and the `blaze_symbolize_inlined_fn`. -/
def resultArrays (t : Target) (base n : Nat) : Nat × Nat × Nat :=
  let buf := base + 8
  (buf, buf + (syms.offsets t).getLastD 0, buf + (struct syms t).size + (struct sym t).size * n)

/-- `capi/src/inspect.rs:188-203`: where the arrays are in the buffer of `n` lists: the pointers and the
`blaze_sym_info`. -/
def inspectArrays (t : Target) (base n : Nat) : Nat × Nat :=
  let buf := base + 8
  (buf, buf + roundUp (t.word.size * n) 8)

/-- `capi/src/normalize.rs:441-462`: where the arrays are in the buffer of a symbol: the `blaze_sym` and the
`blaze_symbolize_inlined_fn`. -/
def metaSymArrays (t : Target) (base : Nat) : Nat × Nat :=
  let buf := base + 8
  (buf, buf + (struct sym t).size)

end Rust

/-! ### The header -/

namespace Header

/-- `uint8_t`. -/
def uint8 : Ty := fun _ => ⟨1, 1⟩

/-- `bool` (`stdbool.h`). -/
def bool : Ty := fun _ => ⟨1, 1⟩

/-- `uint16_t`. -/
def uint16 : Ty := fun t => ⟨2, t.align16⟩

/-- `uint32_t`. -/
def uint32 : Ty := fun t => ⟨4, t.align32⟩

/-- `uint64_t`. -/
def uint64 : Ty := fun t => ⟨8, t.align64⟩

/-- `size_t` and `ptrdiff_t`. -/
def size_t : Ty := fun t => t.word

/-- Pointers. -/
def pointer : Ty := fun t => t.word

/-- `capi/include/blazesym.h:156-178`. -/
def inspectElfSrc : Members :=
  [("type_size", size_t), ("path", pointer), ("debug_syms", bool), ("reserved", array 23 uint8)]

/-- `capi/include/blazesym.h:110-144`. -/
def symInfo : Members :=
  [("name", pointer), ("addr", uint64), ("size", size_t), ("file_offset", uint64), ("module", pointer),
   ("sym_type", uint8), ("reserved", array 23 uint8)]

/-- `capi/include/blazesym.h:188-244`. -/
def normalizerOpts : Members :=
  [("type_size", size_t), ("use_procmap_query", bool), ("cache_vmas", bool), ("build_ids", bool),
   ("cache_build_ids", bool), ("reserved", array 20 uint8)]

/-- `capi/include/blazesym.h:661-702`. -/
def normalizeOpts : Members :=
  [("type_size", size_t), ("sorted_addrs", bool), ("map_files", bool), ("apk_to_elf", bool),
   ("reserved", array 21 uint8)]

/-- `capi/include/blazesym.h:614-628`. -/
def normalizedOutput : Members := [("output", uint64), ("meta_idx", size_t), ("reserved", array 16 uint8)]

/-- `capi/include/blazesym.h:321-331`. -/
def userMetaApk : Members := [("path", pointer), ("reserved", array 16 uint8)]

/-- `capi/include/blazesym.h:336-359`. -/
def userMetaElf : Members :=
  [("path", pointer), ("build_id_len", size_t), ("build_id", pointer), ("reserved", array 16 uint8)]

/-- `capi/include/blazesym.h:536-545`. -/
def userMetaSym : Members := [("sym", pointer), ("reserved", array 16 uint8)]

/-- `capi/include/blazesym.h:550-562`. -/
def userMetaUnknown : Members := [("reason", uint8), ("reserved", array 15 uint8)]

/-- `capi/include/blazesym.h:567-584`. -/
def userMetaVariant : Members :=
  [("apk", struct userMetaApk), ("elf", struct userMetaElf), ("sym", struct userMetaSym),
   ("unknown", struct userMetaUnknown)]

/-- `capi/include/blazesym.h:589-607`. -/
def userMeta : Members :=
  [("kind", uint8), ("unused", array 7 uint8), ("variant", union userMetaVariant), ("reserved", array 16 uint8)]

/-- `capi/include/blazesym.h:635-656`. -/
def normalizedUserOutput : Members :=
  [("meta_cnt", size_t), ("metas", pointer), ("output_cnt", size_t), ("outputs", pointer),
   ("reserved", array 16 uint8)]

/-- `capi/include/blazesym.h:822-839`. -/
def cacheSrcElf : Members := [("type_size", size_t), ("path", pointer), ("reserved", array 16 uint8)]

/-- `capi/include/blazesym.h:844-882`. -/
def cacheSrcProcess : Members :=
  [("type_size", size_t), ("pid", uint32), ("cache_vmas", bool), ("reserved", array 19 uint8)]

/-- `capi/include/blazesym.h:1014-1041`. -/
def symbolizeSrcElf : Members :=
  [("type_size", size_t), ("path", pointer), ("debug_syms", bool), ("reserved", array 23 uint8)]

/-- `capi/include/blazesym.h:958-1006`. -/
def symbolizeSrcKernel : Members :=
  [("type_size", size_t), ("kallsyms", pointer), ("vmlinux", pointer), ("debug_syms", bool),
   ("reserved", array 23 uint8)]

/-- `capi/include/blazesym.h:910-953`. -/
def symbolizeSrcProcess : Members :=
  [("type_size", size_t), ("pid", uint32), ("debug_syms", bool), ("perf_map", bool), ("no_map_files", bool),
   ("no_vdso", bool), ("reserved", array 16 uint8)]

/-- `capi/include/blazesym.h:1046-1067`. -/
def symbolizeSrcGsymData : Members :=
  [("type_size", size_t), ("data", pointer), ("data_len", size_t), ("reserved", array 16 uint8)]

/-- `capi/include/blazesym.h:1072-1089`. -/
def symbolizeSrcGsymFile : Members := [("type_size", size_t), ("path", pointer), ("reserved", array 16 uint8)]

/-- `capi/include/blazesym.h:364-391`. -/
def codeInfo : Members :=
  [("dir", pointer), ("file", pointer), ("line", uint32), ("column", uint16), ("reserved", array 10 uint8)]

/-- `capi/include/blazesym.h:396-409`. -/
def inlinedFn : Members := [("name", pointer), ("code_info", struct codeInfo), ("reserved", array 8 uint8)]

/-- `capi/include/blazesym.h:461-531`. -/
def sym : Members :=
  [("name", pointer), ("module", pointer), ("addr", uint64), ("offset", size_t), ("size", size_t),
   ("code_info", struct codeInfo), ("inlined_cnt", size_t), ("inlined", pointer), ("reason", uint8),
   ("reserved", array 15 uint8)]

/-- `capi/include/blazesym.h:890-902`. -/
def syms : Members := [("cnt", size_t), ("syms", array 0 (struct sym))]

/-- `capi/include/blazesym.h:731-742`. -/
def symbolizerDispatch : Members := [("dispatch_cb", pointer), ("ctx", pointer)]

/-- `capi/include/blazesym.h:747-817`. -/
def symbolizerOpts : Members :=
  [("type_size", size_t), ("debug_dirs", pointer), ("debug_dirs_len", size_t), ("auto_reload", bool),
   ("code_info", bool), ("inlined_fns", bool), ("demangle", bool), ("_reserved1", array 4 uint8),
   ("process_dispatch", pointer), ("reserved", array 8 uint8)]

end Header

/-- The structures and unions of the interface: the name, what the library has and what the header has. -/
def structures : List (String × Members × Members) :=
  [("blaze_sym_info", Rust.symInfo, Header.symInfo),
   ("blaze_inspect_elf_src", Rust.inspectElfSrc, Header.inspectElfSrc),
   ("blaze_normalizer_opts", Rust.normalizerOpts, Header.normalizerOpts),
   ("blaze_user_meta_apk", Rust.userMetaApk, Header.userMetaApk),
   ("blaze_user_meta_elf", Rust.userMetaElf, Header.userMetaElf),
   ("blaze_symbolize_code_info", Rust.codeInfo, Header.codeInfo),
   ("blaze_symbolize_inlined_fn", Rust.inlinedFn, Header.inlinedFn),
   ("blaze_sym", Rust.sym, Header.sym),
   ("blaze_user_meta_sym", Rust.userMetaSym, Header.userMetaSym),
   ("blaze_user_meta_unknown", Rust.userMetaUnknown, Header.userMetaUnknown),
   ("blaze_user_meta", Rust.userMeta, Header.userMeta),
   ("blaze_normalized_output", Rust.normalizedOutput, Header.normalizedOutput),
   ("blaze_normalized_user_output", Rust.normalizedUserOutput, Header.normalizedUserOutput),
   ("blaze_normalize_opts", Rust.normalizeOpts, Header.normalizeOpts),
   ("blaze_symbolizer_dispatch", Rust.symbolizerDispatch, Header.symbolizerDispatch),
   ("blaze_symbolizer_opts", Rust.symbolizerOpts, Header.symbolizerOpts),
   ("blaze_cache_src_elf", Rust.cacheSrcElf, Header.cacheSrcElf),
   ("blaze_cache_src_process", Rust.cacheSrcProcess, Header.cacheSrcProcess),
   ("blaze_syms", Rust.syms, Header.syms),
   ("blaze_symbolize_src_process", Rust.symbolizeSrcProcess, Header.symbolizeSrcProcess),
   ("blaze_symbolize_src_kernel", Rust.symbolizeSrcKernel, Header.symbolizeSrcKernel),
   ("blaze_symbolize_src_elf", Rust.symbolizeSrcElf, Header.symbolizeSrcElf),
   ("blaze_symbolize_src_gsym_data", Rust.symbolizeSrcGsymData, Header.symbolizeSrcGsymData),
   ("blaze_symbolize_src_gsym_file", Rust.symbolizeSrcGsymFile, Header.symbolizeSrcGsymFile)]

end Blazesym.CApi.Abi
