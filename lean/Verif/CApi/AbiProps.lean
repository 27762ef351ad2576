import Verif.CApi.AbiLemmas
import Verif.CApi.InputProps
import Verif.CApi.Inspect

/-!
# C94: programs built against the header and the library agree on where members are

On every target, and across versions.
-/

set_option autoImplicit false

namespace Blazesym.CApi.Abi
open Blazesym.Util

/-! ### The rules of the C ABI -/

theorem laidOut_place {ss : List Shape} (h : ∀ s ∈ ss, IsAlign s.align) :
    LaidOut ss (place 0 ss).1 (structShape ss) := by
  have hp : ∀ s ∈ ss, 0 < s.align := fun s hs => (h s hs).pos
  have ha := isAlign_maxAlign h
  refine ⟨place_length 0 ss, fun i s off hs ho => ?_, fun i j s off off' => place_apart hp 0 i j s off off',
    structShape_ok h⟩
  obtain ⟨h1, _, h3⟩ := place_inside hp 0 i s off hs ho
  have hm := List.mem_of_getElem? hs
  exact ⟨h1, (h s hm).dvd_of_le ha (align_le_maxAlign hm), Nat.le_trans h3 (le_roundUp ha.pos)⟩

/-- **C94**.  In any structure, members are aligned, within it, in order and do not overlap, and no space is left
that alignment does not ask for. -/
theorem C94_layout (ss : List Shape) (h : ∀ s ∈ ss, s.Ok) :
    LaidOut ss (place 0 ss).1 (structShape ss) ∧ Tight ss (place 0 ss).1 (structShape ss) := by
  have ha : ∀ s ∈ ss, IsAlign s.align := fun s hs => (h s hs).1
  have hp : ∀ s ∈ ss, 0 < s.align := fun s hs => (ha s hs).pos
  refine ⟨laidOut_place ha, fun s hs => ?_, fun i s s' off off' => place_next hp 0 i s s' off off', fun s off hs ho => ?_⟩
  · cases ss with
    | nil => simp at hs
    | cons x rest =>
      simp only [place, List.getElem?_cons_zero]
      rw [roundUp_of_dvd (hp x (by simp)) (Nat.dvd_zero _)]
  · have := place_last 0 ss s off hs ho
    show roundUp (place 0 ss).2 (maxAlign ss) < _
    rw [this]
    exact roundUp_lt (isAlign_maxAlign ha).pos

/-- **C94**.  In an array, the members of every element are aligned if the array is. -/
theorem C94_elements (ss : List Shape) (h : ∀ s ∈ ss, s.Ok) (base k i : Nat) (s : Shape) (off : Nat)
    (hb : (structShape ss).align ∣ base) (hs : ss[i]? = some s) (ho : (place 0 ss).1[i]? = some off) :
    s.align ∣ base + k * (structShape ss).size + off := by
  obtain ⟨h1, h2, _⟩ := (C94_layout ss h).1.inside i s off hs ho
  have h3 := (C94_layout ss h).1.whole.2
  exact (Nat.dvd_add (Nat.dvd_add (h2.trans hb) ((h2.trans h3).mul_left k)) h1)

example : (∀ s ∈ (Header.sym.shapes bits32), s.Ok) ∧
    Header.sym.offsets bits32 = [0, 4, 8, 16, 20, 24, 48, 52, 56, 57] ∧ struct Header.sym bits32 = ⟨72, 8⟩ := by
  refine ⟨?_, by decide +kernel, by decide +kernel⟩
  have : ∀ s ∈ Header.sym.shapes bits32, (s.align = 1 ∨ s.align = 2 ∨ s.align = 4 ∨ s.align = 8) ∧ s.align ∣ s.size := by
    decide +kernel
  exact this

/-! ### The structures of the interface -/

/-- **C94**.  The header declares the members the library has, in this order, and on every target they have the
same sizes, alignments and offsets, and so have the structures. -/
theorem C94_agree (name : String) (lib hdr : Members) (hm : (name, lib, hdr) ∈ structures) (t : Target) :
    lib.map Prod.fst = hdr.map Prod.fst ∧ lib.shapes t = hdr.shapes t ∧ lib.offsets t = hdr.offsets t ∧
      struct lib t = struct hdr t := by
  simp only [structures, List.mem_cons, Prod.mk.injEq, List.not_mem_nil, or_false] at hm
  rcases hm with h | h | h | h | h | h | h | h | h | h | h | h | h | h | h | h | h | h | h | h | h | h | h | h <;>
    (obtain ⟨_, rfl, rfl⟩ := h; exact ⟨rfl, rfl, rfl, rfl⟩)

/-- **C94**.  So do the alternatives of the metadata of a normalized address. -/
theorem C94_agree_variant (t : Target) :
    Rust.userMetaVariant.map Prod.fst = Header.userMetaVariant.map Prod.fst ∧
      Rust.userMetaVariant.shapes t = Header.userMetaVariant.shapes t ∧
      union Rust.userMetaVariant t = union Header.userMetaVariant t ∧
      ∀ s ∈ Header.userMetaVariant.shapes t, s.size ≤ (union Rust.userMetaVariant t).size := by
  refine ⟨rfl, rfl, rfl, fun s hs => ?_⟩
  have h : ∀ (ss : List Shape), s ∈ ss → s.size ≤ maxSize ss := by
    intro ss
    induction ss with
    | nil => intro h; cases h
    | cons x rest ih =>
      intro h
      rw [maxSize]
      rcases List.mem_cons.mp h with rfl | h
      · exact Nat.le_max_left _ _
      · exact Nat.le_trans (ih h) (Nat.le_max_right _ _)
  refine Nat.le_trans (h _ hs) ?_
  show maxSize _ ≤ roundUp (maxSize _) (maxAlign _)
  refine le_roundUp ?_
  have : ∀ (ss : List Shape), 0 < maxAlign ss := by
    intro ss
    induction ss with
    | nil => exact Nat.one_pos
    | cons x rest ih => exact Nat.lt_of_lt_of_le ih (Nat.le_max_right _ _)
  exact this _

section shapes
variable {t : Target} (ht : Regular t)
include ht

theorem u8_ok : (Header.uint8 t).Ok := ⟨Or.inl rfl, Nat.one_dvd _⟩
theorem bool_ok : (Header.bool t).Ok := ⟨Or.inl rfl, Nat.one_dvd _⟩
theorem bytes_ok (n : Nat) : (array n Header.uint8 t).Ok := ⟨Or.inl rfl, Nat.one_dvd _⟩
theorem word_ok : (Header.pointer t).Ok := ht.word
theorem size_ok : (Header.size_t t).Ok := ht.word

theorem u16_ok : (Header.uint16 t).Ok := by
  constructor
  · rcases ht.align16 with h | h
    · exact Or.inl h
    · exact Or.inr (Or.inl h)
  · show t.align16 ∣ 2
    rcases ht.align16 with h | h <;> rw [h] <;> decide

theorem u32_ok : (Header.uint32 t).Ok := by
  constructor
  · rcases ht.align32 with h | h | h
    · exact Or.inl h
    · exact Or.inr (Or.inl h)
    · exact Or.inr (Or.inr (Or.inl h))
  · show t.align32 ∣ 4
    rcases ht.align32 with h | h | h <;> rw [h] <;> decide

theorem u64_ok : (Header.uint64 t).Ok := ⟨ht.align64, ht.align64.dvd8⟩

omit ht in
theorem struct_ok {ms : Members} (h : ∀ s ∈ ms.shapes t, s.Ok) : (struct ms t).Ok :=
  structShape_ok fun s hs => (h s hs).1

omit ht in
theorem union_ok {ms : Members} (h : ∀ s ∈ ms.shapes t, s.Ok) : (union ms t).Ok :=
  unionShape_ok fun s hs => (h s hs).1

omit ht in
theorem array_ok {ty : Ty} (n : Nat) (h : (ty t).Ok) : (array n ty t).Ok := ⟨h.1, h.2.mul_left n⟩

omit ht in
theorem shapes_nil : ∀ s ∈ Members.shapes ([] : Members) t, s.Ok := fun s hs => by cases hs

omit ht in
theorem shapes_cons {name : String} {ty : Ty} {ms : Members} (h : (ty t).Ok) (hr : ∀ s ∈ Members.shapes ms t, s.Ok) :
    ∀ s ∈ Members.shapes ((name, ty) :: ms : Members) t, s.Ok := by
  intro s hs
  rcases List.mem_cons.mp hs with rfl | hs
  · exact h
  · exact hr s hs

theorem codeInfo_ok : ∀ s ∈ Header.codeInfo.shapes t, s.Ok :=
  shapes_cons (word_ok ht) <| shapes_cons (word_ok ht) <| shapes_cons (u32_ok ht) <| shapes_cons (u16_ok ht) <|
    shapes_cons (bytes_ok ht 10) shapes_nil

theorem inlinedFn_ok : ∀ s ∈ Header.inlinedFn.shapes t, s.Ok :=
  shapes_cons (word_ok ht) <| shapes_cons (struct_ok (codeInfo_ok ht)) <| shapes_cons (bytes_ok ht 8) shapes_nil

theorem sym_ok : ∀ s ∈ Header.sym.shapes t, s.Ok :=
  shapes_cons (word_ok ht) <| shapes_cons (word_ok ht) <| shapes_cons (u64_ok ht) <| shapes_cons (size_ok ht) <|
    shapes_cons (size_ok ht) <| shapes_cons (struct_ok (codeInfo_ok ht)) <| shapes_cons (size_ok ht) <|
    shapes_cons (word_ok ht) <| shapes_cons (u8_ok ht) <| shapes_cons (bytes_ok ht 15) shapes_nil

theorem syms_ok : ∀ s ∈ Header.syms.shapes t, s.Ok :=
  shapes_cons (size_ok ht) <| shapes_cons (array_ok 0 (struct_ok (sym_ok ht))) shapes_nil

theorem symInfo_ok : ∀ s ∈ Header.symInfo.shapes t, s.Ok :=
  shapes_cons (word_ok ht) <| shapes_cons (u64_ok ht) <| shapes_cons (size_ok ht) <| shapes_cons (u64_ok ht) <|
    shapes_cons (word_ok ht) <| shapes_cons (u8_ok ht) <| shapes_cons (bytes_ok ht 23) shapes_nil

theorem apk_ok : ∀ s ∈ Header.userMetaApk.shapes t, s.Ok :=
  shapes_cons (word_ok ht) <| shapes_cons (bytes_ok ht 16) shapes_nil

theorem elf_ok : ∀ s ∈ Header.userMetaElf.shapes t, s.Ok :=
  shapes_cons (word_ok ht) <| shapes_cons (size_ok ht) <| shapes_cons (word_ok ht) <|
    shapes_cons (bytes_ok ht 16) shapes_nil

theorem unknown_ok : ∀ s ∈ Header.userMetaUnknown.shapes t, s.Ok :=
  shapes_cons (u8_ok ht) <| shapes_cons (bytes_ok ht 15) shapes_nil

theorem variant_ok : ∀ s ∈ Header.userMetaVariant.shapes t, s.Ok :=
  shapes_cons (struct_ok (apk_ok ht)) <| shapes_cons (struct_ok (elf_ok ht)) <| shapes_cons (struct_ok (apk_ok ht)) <|
    shapes_cons (struct_ok (unknown_ok ht)) shapes_nil

theorem structures_ok (name : String) (lib hdr : Members) (hm : (name, lib, hdr) ∈ structures) :
    ∀ s ∈ hdr.shapes t, s.Ok := by
  have w := word_ok ht
  have z := size_ok ht
  have b := bool_ok ht
  have n := bytes_ok ht
  simp only [structures, List.mem_cons, Prod.mk.injEq, List.not_mem_nil, or_false] at hm
  rcases hm with h | h | h | h | h | h | h | h | h | h | h | h | h | h | h | h | h | h | h | h | h | h | h | h <;>
    obtain ⟨_, rfl, rfl⟩ := h
  · exact symInfo_ok ht
  · exact shapes_cons z <| shapes_cons w <| shapes_cons b <| shapes_cons (n _) shapes_nil
  · exact shapes_cons z <| shapes_cons b <| shapes_cons b <| shapes_cons b <| shapes_cons b <| shapes_cons (n _) shapes_nil
  · exact apk_ok ht
  · exact elf_ok ht
  · exact codeInfo_ok ht
  · exact inlinedFn_ok ht
  · exact sym_ok ht
  · exact apk_ok ht
  · exact unknown_ok ht
  · exact shapes_cons (u8_ok ht) <| shapes_cons (n _) <| shapes_cons (union_ok (variant_ok ht)) <|
      shapes_cons (n _) shapes_nil
  · exact shapes_cons (u64_ok ht) <| shapes_cons z <| shapes_cons (n _) shapes_nil
  · exact shapes_cons z <| shapes_cons w <| shapes_cons z <| shapes_cons w <| shapes_cons (n _) shapes_nil
  · exact shapes_cons z <| shapes_cons b <| shapes_cons b <| shapes_cons b <| shapes_cons (n _) shapes_nil
  · exact shapes_cons w <| shapes_cons w shapes_nil
  · exact shapes_cons z <| shapes_cons w <| shapes_cons z <| shapes_cons b <| shapes_cons b <| shapes_cons b <|
      shapes_cons b <| shapes_cons (n _) <| shapes_cons w <| shapes_cons (n _) shapes_nil
  · exact shapes_cons z <| shapes_cons w <| shapes_cons (n _) shapes_nil
  · exact shapes_cons z <| shapes_cons (u32_ok ht) <| shapes_cons b <| shapes_cons (n _) shapes_nil
  · exact syms_ok ht
  · exact shapes_cons z <| shapes_cons (u32_ok ht) <| shapes_cons b <| shapes_cons b <| shapes_cons b <| shapes_cons b <|
      shapes_cons (n _) shapes_nil
  · exact shapes_cons z <| shapes_cons w <| shapes_cons w <| shapes_cons b <| shapes_cons (n _) shapes_nil
  · exact shapes_cons z <| shapes_cons w <| shapes_cons b <| shapes_cons (n _) shapes_nil
  · exact shapes_cons z <| shapes_cons w <| shapes_cons z <| shapes_cons (n _) shapes_nil
  · exact shapes_cons z <| shapes_cons w <| shapes_cons (n _) shapes_nil

end shapes

/-- **C94**.  On every target, the offsets the library uses are usable for the members the header declares. -/
theorem C94_usable (t : Target) (ht : Regular t) (name : String) (lib hdr : Members)
    (hm : (name, lib, hdr) ∈ structures) : LaidOut (hdr.shapes t) (lib.offsets t) (struct lib t) := by
  obtain ⟨_, _, h3, h4⟩ := C94_agree name lib hdr hm t
  rw [h3, h4]
  exact (C94_layout _ (structures_ok ht name lib hdr hm)).1

theorem bits64_regular : Regular bits64 :=
  ⟨⟨Or.inr (Or.inr (Or.inr rfl)), ⟨1, rfl⟩⟩, Or.inr rfl, Or.inr (Or.inr rfl), Or.inr (Or.inr (Or.inr rfl))⟩

theorem bits32_regular : Regular bits32 :=
  ⟨⟨Or.inr (Or.inr (Or.inl rfl)), ⟨1, rfl⟩⟩, Or.inr rfl, Or.inr (Or.inr rfl), Or.inr (Or.inr (Or.inr rfl))⟩

theorem i386_regular : Regular i386 :=
  ⟨⟨Or.inr (Or.inr (Or.inl rfl)), ⟨1, rfl⟩⟩, Or.inr rfl, Or.inr (Or.inr rfl), Or.inr (Or.inr (Or.inl rfl))⟩

example : Regular bits64 ∧ Regular bits32 ∧ Regular i386 ∧ structures.length = 24 :=
  ⟨bits64_regular, bits32_regular, i386_regular, rfl⟩

/-- **C94**.  In input structures every byte belongs to a member, on 32 and on 64 bit targets, the first of which is
`type_size` and the last `reserved`: initializing the members leaves no byte to the library that the program did
not set. -/
theorem C94_inputs_dense (type : InputType) (t : Target) (ht : t = bits64 ∨ t = bits32 ∨ t = i386) :
    Dense ((headerOf type).shapes t) ∧ ((headerOf type).map Prod.fst).head? = some "type_size" ∧
      ((headerOf type).map Prod.fst).getLast? = some "reserved" ∧ ((headerOf type).offsets t).head? = some 0 := by
  rcases ht with rfl | rfl | rfl <;> cases type <;> exact ⟨rfl, rfl, rfl, rfl⟩

/-- **C94**.  On 64 bit targets this holds of all structures. -/
theorem C94_dense64 (name : String) (lib hdr : Members) (hm : (name, lib, hdr) ∈ structures) :
    Dense (hdr.shapes bits64) := by
  simp only [structures, List.mem_cons, Prod.mk.injEq, List.not_mem_nil, or_false] at hm
  rcases hm with h | h | h | h | h | h | h | h | h | h | h | h | h | h | h | h | h | h | h | h | h | h | h | h <;>
    (obtain ⟨_, rfl, rfl⟩ := h; rfl)

/-- **C94**.  The sizes and positions used elsewhere (C46, C49, C60, C91) are those of the header. -/
theorem C94_numbers :
    (∀ (type : InputType), (struct (headerOf type) bits64).size = type.size ∧
      (headerOf type).at64 "reserved" = some type.reserved) ∧
    (struct Header.sym bits64).size = symSize ∧ (struct Header.inlinedFn bits64).size = inlinedSize ∧
    (struct Header.syms bits64).size = symsSize ∧ (struct Header.symInfo bits64).size = symInfoSize ∧
    (struct Header.userMeta bits64).size = 64 ∧ (struct Header.normalizedOutput bits64).size = 32 ∧
    (struct Header.normalizedUserOutput bits64).size = 48 := by
  refine ⟨fun type => ?_, rfl, rfl, rfl, rfl, rfl, rfl, rfl⟩
  cases type <;> exact ⟨rfl, by decide +kernel⟩

/-- **C94**.  So are the offsets of the members of results. -/
theorem C94_offsets :
    ["name", "module", "addr", "offset", "size", "code_info", "inlined_cnt", "inlined", "reason"].map Header.sym.at64
      = [0, 8, 16, 24, 32, 40, 72, 80, 88].map some ∧
    ["dir", "file", "line", "column"].map Header.codeInfo.at64 = [0, 8, 16, 20].map some ∧
    ["name", "code_info"].map Header.inlinedFn.at64 = [0, 8].map some ∧
    ["cnt", "syms"].map Header.syms.at64 = [0, 8].map some ∧
    ["name", "addr", "size", "file_offset", "module", "sym_type"].map Header.symInfo.at64
      = [0, 8, 16, 24, 32, 40].map some ∧
    ["kind", "variant"].map Header.userMeta.at64 = [0, 8].map some ∧
    ["path", "build_id_len", "build_id"].map Header.userMetaElf.at64 = [0, 8, 16].map some ∧
    ["output", "meta_idx"].map Header.normalizedOutput.at64 = [0, 8].map some ∧
    ["meta_cnt", "metas", "output_cnt", "outputs"].map Header.normalizedUserOutput.at64 = [0, 8, 16, 24].map some := by
  decide +kernel

/-- **C94**.  And those of inputs. -/
theorem C94_input_offsets :
    ["path"].map Header.cacheSrcElf.at64 = [some 8] ∧
    ["pid", "cache_vmas"].map Header.cacheSrcProcess.at64 = [8, 12].map some ∧
    ["path", "debug_syms"].map Header.symbolizeSrcElf.at64 = [8, 16].map some ∧
    ["kallsyms", "vmlinux", "debug_syms"].map Header.symbolizeSrcKernel.at64 = [8, 16, 24].map some ∧
    ["pid", "debug_syms", "perf_map", "no_map_files", "no_vdso"].map Header.symbolizeSrcProcess.at64
      = [8, 12, 13, 14, 15].map some ∧
    ["data", "data_len"].map Header.symbolizeSrcGsymData.at64 = [8, 16].map some ∧
    ["path"].map Header.symbolizeSrcGsymFile.at64 = [some 8] ∧
    ["debug_dirs", "debug_dirs_len", "auto_reload", "code_info", "inlined_fns", "demangle",
      "process_dispatch"].map Header.symbolizerOpts.at64 = [8, 16, 24, 25, 26, 27, 32].map some ∧
    ["use_procmap_query", "cache_vmas", "build_ids", "cache_build_ids"].map Header.normalizerOpts.at64
      = [8, 9, 10, 11].map some ∧
    ["sorted_addrs", "map_files", "apk_to_elf"].map Header.normalizeOpts.at64 = [8, 9, 10].map some ∧
    ["path", "debug_syms"].map Header.inspectElfSrc.at64 = [8, 16].map some ∧
    ["dispatch_cb", "ctx"].map Header.symbolizerDispatch.at64 = [0, 8].map some := by
  decide +kernel

/-! ### Versions -/

/-- **C94**.  Adding members at the end moves none of the others. -/
theorem C94_stable (common theirs ours : List Shape) :
    (place 0 (common ++ theirs)).1.take common.length = (place 0 common).1 ∧
      (place 0 (common ++ ours)).1.take common.length = (place 0 common).1 := by
  constructor <;>
    (rw [place_append]; simp only; rw [List.take_append_of_le_length (by rw [place_length]),
      List.take_of_length_le (by rw [place_length])])

theorem inputSanitize_view {m : Mem} {p n : Nat} (h : Struct m p n) (size : Nat) :
    ∃ (bs : Bytes), inputSanitize m p size = .ok bs ∧ bs.length = size ∧ Holds (view m p n) 0 bs := by
  rw [inputSanitize, typeSize_eq h]
  simp only [bind, Except.bind]
  by_cases hn : n < size
  · rw [if_pos hn]
    obtain ⟨bs, h1, h2, h3⟩ := readBytes_spec h.readable
    rw [h1]
    refine ⟨_, rfl, by simp [h2]; omega, fun i hi => ?_⟩
    rw [Nat.zero_add, view]
    by_cases hin : i < n
    · rw [if_pos hin, h3 i (by omega), List.getElem?_append_left (by omega)]
    · rw [if_neg hin, List.getElem?_append_right (by omega), List.getElem?_replicate, if_pos]
      simp only [List.length_append, List.length_replicate] at hi
      omega
  · rw [if_neg hn]
    obtain ⟨bs, h1, h2, h3⟩ := readBytes_spec (n := size) (fun i hi => h.readable i (by omega))
    rw [h1]
    refine ⟨bs, rfl, h2, fun i hi => ?_⟩
    rw [Nat.zero_add, view, if_pos (by omega), h3 i hi]

/-- **C94**.  A program and the library were built with different versions of a structure, which have some members in
common.  Of these the library sees what the program set, and members which begin beyond the structure of the program
it sees as zeros. -/
theorem C94_versions (common theirs ours : List Shape) (hc : ∀ s ∈ common ++ theirs, s.Ok)
    (ho : ∀ s ∈ common ++ ours, s.Ok) (m : Mem) (p : Nat) (h : Struct m p (structShape (common ++ theirs)).size) :
    ∃ (bs : Bytes), inputSanitize m p (structShape (common ++ ours)).size = .ok bs ∧
      (∀ (i : Nat) (s : Shape) (off : Nat), common[i]? = some s → (place 0 (common ++ theirs)).1[i]? = some off →
        (place 0 (common ++ ours)).1[i]? = some off ∧ ∀ (k : Nat), k < s.size → bs[off + k]? = m (p + off + k)) ∧
      ∀ (j : Nat) (s : Shape) (off : Nat), ours[j]? = some s →
        (place 0 (common ++ ours)).1[common.length + j]? = some off → (structShape (common ++ theirs)).size ≤ off →
        ∀ (k : Nat), k < s.size → bs[off + k]? = some 0 := by
  obtain ⟨bs, h1, h2, h3⟩ := inputSanitize_view h (structShape (common ++ ours)).size
  refine ⟨bs, h1, fun i s off hs hoff => ?_, fun j s off hs hoff hge k hk => ?_⟩
  · have hi : i < common.length := (List.getElem?_eq_some_iff.mp hs).1
    have hsame : (place 0 (common ++ ours)).1[i]? = some off := by
      rw [← hoff, place_append, place_append]
      simp only
      rw [List.getElem?_append_left (by rw [place_length]; exact hi),
        List.getElem?_append_left (by rw [place_length]; exact hi)]
    refine ⟨hsame, fun k hk => ?_⟩
    have hb1 := ((C94_layout _ hc).1.inside i s off (by rw [List.getElem?_append_left hi]; exact hs) hoff).2.2
    have hb2 := ((C94_layout _ ho).1.inside i s off (by rw [List.getElem?_append_left hi]; exact hs) hsame).2.2
    rw [← h3 (off + k) (by omega), Nat.zero_add, view, if_pos (by omega), Nat.add_assoc]
  · have hb := ((C94_layout _ ho).1.inside (common.length + j) s off
      (by rw [List.getElem?_append_right (by omega), Nat.add_sub_cancel_left]; exact hs) hoff).2.2
    rw [← h3 (off + k) (by omega), Nat.zero_add, view, if_neg (by omega)]

/-- The members of `blaze_symbolize_src_process` a first version could have had: the size and the process, and the
others later. -/
example : ∃ (m : Mem), Struct m 64 (structShape ([⟨8, 8⟩, ⟨4, 4⟩] ++ [⟨4, 1⟩])).size ∧
    (∀ s ∈ [(⟨8, 8⟩ : Shape), ⟨4, 4⟩] ++ [⟨4, 1⟩], s.Ok) ∧
    Header.symbolizeSrcProcess.shapes bits64 = [⟨8, 8⟩, ⟨4, 4⟩] ++ [⟨1, 1⟩, ⟨1, 1⟩, ⟨1, 1⟩, ⟨1, 1⟩, ⟨16, 1⟩] := by
  refine ⟨fun a => if a = 64 then some 16 else some 0, ⟨rfl, rfl, fun i _ => ?_⟩, ?_, by decide +kernel⟩
  · show (if 64 + i = 64 then some 16 else some 0 : Option UInt8).isSome = true
    split <;> rfl
  · have : ∀ s ∈ [(⟨8, 8⟩ : Shape), ⟨4, 4⟩] ++ [⟨4, 1⟩],
        (s.align = 1 ∨ s.align = 2 ∨ s.align = 4 ∨ s.align = 8) ∧ s.align ∣ s.size := by decide +kernel
    exact this

/-! ### Buffers -/

theorem sym_le_syms (t : Target) : (struct Header.sym t).align ≤ (struct Header.syms t).align :=
  align_le_maxAlign (s := array 0 (struct Header.sym) t) (by simp [Members.shapes, Header.syms])

theorem inl_le_sym (t : Target) : (struct Header.inlinedFn t).align ≤ (struct Header.sym t).align := by
  have h1 : (Header.pointer t).align ≤ (struct Header.sym t).align :=
    align_le_maxAlign (s := Header.pointer t) (by simp [Members.shapes, Header.sym])
  have h2 : (struct Header.codeInfo t).align ≤ (struct Header.sym t).align :=
    align_le_maxAlign (s := struct Header.codeInfo t) (by simp [Members.shapes, Header.sym])
  have h3 : 1 ≤ (struct Header.sym t).align :=
    align_le_maxAlign (s := Header.uint8 t) (by simp [Members.shapes, Header.sym])
  show max (Header.pointer t).align (max (struct Header.codeInfo t).align (max 1 1)) ≤ _
  omega

/-- **C94**.  On every target, what the library puts into a buffer that is aligned to 8 is aligned: the structures of
all results, which follow the counter directly, and those of all inlined functions. -/
theorem C94_results_aligned (t : Target) (ht : Regular t) (base n : Nat) (hb : 8 ∣ base) :
    (struct Header.syms t).align ∣ (Rust.resultArrays t base n).1 ∧
    (∀ (k : Nat), (struct Header.sym t).align ∣ (Rust.resultArrays t base n).2.1 + k * (struct Header.sym t).size) ∧
    (∀ (k : Nat), (struct Header.inlinedFn t).align ∣
      (Rust.resultArrays t base n).2.2 + k * (struct Header.inlinedFn t).size) ∧
    (Rust.resultArrays t base n).2.2 = (Rust.resultArrays t base n).2.1 + n * (struct Header.sym t).size := by
  have hs := struct_ok (sym_ok ht)
  have hss := struct_ok (syms_ok ht)
  have hi := struct_ok (inlinedFn_ok ht)
  have hb8 : 8 ∣ base + 8 := Nat.dvd_add hb (Nat.dvd_refl 8)
  have e1 : (Rust.resultArrays t base n).1 = base + 8 := rfl
  have e2 : (Rust.resultArrays t base n).2.1 = base + 8 + roundUp (roundUp 0 t.word.align + t.word.size)
    (struct Header.sym t).align := rfl
  have e3 : (Rust.resultArrays t base n).2.2 =
    base + 8 + (struct Header.syms t).size + (struct Header.sym t).size * n := rfl
  have hd1 : (struct Header.sym t).align ∣ (struct Header.syms t).align := hs.1.dvd_of_le hss.1 (sym_le_syms t)
  have hd2 : (struct Header.inlinedFn t).align ∣ (struct Header.sym t).align := hi.1.dvd_of_le hs.1 (inl_le_sym t)
  have hsz : (struct Header.syms t).size = roundUp (roundUp 0 t.word.align + t.word.size) (struct Header.sym t).align := by
    show roundUp (roundUp (roundUp 0 t.word.align + t.word.size) (struct Header.sym t).align + 0 * (struct Header.sym t).size)
      (struct Header.syms t).align = _
    have : (struct Header.syms t).align = (struct Header.sym t).align := by
      refine Nat.le_antisymm ?_ (sym_le_syms t)
      have h1 : (Header.pointer t).align ≤ (struct Header.sym t).align :=
        align_le_maxAlign (s := Header.pointer t) (by simp [Members.shapes, Header.sym])
      have h3 := hs.1.pos
      show max (Header.pointer t).align (max (struct Header.sym t).align 1) ≤ _
      omega
    rw [this, Nat.zero_mul, Nat.add_zero, roundUp_of_dvd hs.1.pos (dvd_roundUp _ _)]
  refine ⟨?_, fun k => ?_, fun k => ?_, ?_⟩
  · rw [e1]; exact hss.1.dvd8.trans hb8
  · rw [e2]
    exact Nat.dvd_add (Nat.dvd_add (hs.1.dvd8.trans hb8) (dvd_roundUp _ _)) (hs.2.mul_left k)
  · rw [e3]
    refine Nat.dvd_add (Nat.dvd_add (Nat.dvd_add (hi.1.dvd8.trans hb8) ?_) ?_) (hi.2.mul_left k)
    · exact hd2.trans (hd1.trans hss.2)
    · exact (hd2.trans hs.2).mul_right n
  · rw [e2, e3, hsz, Nat.mul_comm]

/-- **C94**.  So are the lists of symbols an inspector reports, and what their pointers lead to. -/
theorem C94_inspect_aligned (t : Target) (ht : Regular t) (base n : Nat) (hb : 8 ∣ base) :
    (∀ (k : Nat), t.word.align ∣ (Rust.inspectArrays t base n).1 + k * t.word.size) ∧
    (∀ (k : Nat), (struct Header.symInfo t).align ∣
      (Rust.inspectArrays t base n).2 + k * (struct Header.symInfo t).size) ∧
    (Rust.inspectArrays t base n).1 + n * t.word.size ≤ (Rust.inspectArrays t base n).2 := by
  have hs := struct_ok (symInfo_ok ht)
  have hb8 : 8 ∣ base + 8 := Nat.dvd_add hb (Nat.dvd_refl 8)
  refine ⟨fun k => ?_, fun k => ?_, ?_⟩
  · exact Nat.dvd_add (ht.word.1.dvd8.trans hb8) (ht.word.2.mul_left k)
  · exact Nat.dvd_add (Nat.dvd_add (hs.1.dvd8.trans hb8) (hs.1.dvd8.trans (dvd_roundUp _ _))) (hs.2.mul_left k)
  · show base + 8 + n * t.word.size ≤ base + 8 + roundUp (t.word.size * n) 8
    have := le_roundUp (n := t.word.size * n) (a := 8) (by decide)
    rw [Nat.mul_comm n]
    omega

/-- **C94**.  And the symbol in the metadata of a normalized address. -/
theorem C94_meta_aligned (t : Target) (ht : Regular t) (base : Nat) (hb : 8 ∣ base) :
    (struct Header.sym t).align ∣ (Rust.metaSymArrays t base).1 ∧
    (Rust.metaSymArrays t base).2 = (Rust.metaSymArrays t base).1 + (struct Header.sym t).size ∧
    ∀ (k : Nat), (struct Header.inlinedFn t).align ∣
      (Rust.metaSymArrays t base).2 + k * (struct Header.inlinedFn t).size := by
  have hs := struct_ok (sym_ok ht)
  have hi := struct_ok (inlinedFn_ok ht)
  have hb8 : 8 ∣ base + 8 := Nat.dvd_add hb (Nat.dvd_refl 8)
  have hd2 : (struct Header.inlinedFn t).align ∣ (struct Header.sym t).align := hi.1.dvd_of_le hs.1 (inl_le_sym t)
  refine ⟨hs.1.dvd8.trans hb8, rfl, fun k => ?_⟩
  exact Nat.dvd_add (Nat.dvd_add (hi.1.dvd8.trans hb8) (hd2.trans hs.2)) (hi.2.mul_left k)

example : 8 ∣ 4096 ∧ Rust.resultArrays bits32 4096 3 = (4104, 4112, 4328) ∧
    Rust.inspectArrays bits32 4096 3 = (4104, 4120) := by decide +kernel

end Blazesym.CApi.Abi
