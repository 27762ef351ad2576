import Verif.CApi.InputSpec
import Verif.CApi.ConvertLemmas

/-!
# C60: versioned input structures of the C interface
-/

set_option autoImplicit false

namespace Blazesym.CApi

open Blazesym.Error Blazesym.Symbolize Blazesym.Util

theorem readNum_of {m : Mem} {a k n : Nat} (h : NumAt m a k n) : readNum m a k = .ok n := by
  rw [readNum, show m.num a k = some n from h]

theorem readByte_of {m : Mem} {a : Nat} {b : UInt8} (h : m a = some b) : readByte m a = .ok b := by
  rw [readByte, h]

theorem readBytes_spec {m : Mem} {a n : Nat} (h : Readable m a n) :
    ∃ (bs : Bytes), readBytes m a n = .ok bs ∧ bs.length = n ∧ Holds m a bs := by
  induction n generalizing a with
  | zero => exact ⟨[], rfl, rfl, fun i hi => absurd hi (by simp)⟩
  | succ n ih =>
    obtain ⟨b, hb⟩ := Option.isSome_iff_exists.mp (h 0 (by omega))
    obtain ⟨bs, h1, h2, h3⟩ := ih (a := a + 1) (fun i hi => by
      rw [show a + 1 + i = a + (i + 1) by omega]; exact h _ (by omega))
    refine ⟨b :: bs, ?_, by simp [h2], fun i hi => ?_⟩
    · rw [readBytes, readByte_of (a := a) hb]; simp only [bind, Except.bind, h1, pure, Except.pure]
    · cases i with
      | zero => simpa using hb
      | succ i =>
        rw [show a + (i + 1) = a + 1 + i by omega, h3 i (by simpa using hi)]; simp

theorem isMemZero_true {m : Mem} {a n : Nat} (h : ∀ (i : Nat), i < n → m (a + i) = some 0) :
    isMemZero m a n = .ok true := by
  induction n generalizing a with
  | zero => rfl
  | succ n ih =>
    rw [isMemZero, readByte_of (a := a) (h 0 (by omega))]
    simp only [bind, Except.bind, ne_eq, not_true_eq_false, if_false]
    exact ih fun i hi => by rw [show a + 1 + i = a + (i + 1) by omega]; exact h _ (by omega)

theorem isMemZero_false {m : Mem} {a n : Nat} (hr : Readable m a n) (h : ∃ (i : Nat), i < n ∧ m (a + i) ≠ some 0) :
    isMemZero m a n = .ok false := by
  induction n generalizing a with
  | zero => obtain ⟨i, hi, _⟩ := h; omega
  | succ n ih =>
    obtain ⟨b, hb⟩ := Option.isSome_iff_exists.mp (hr 0 (by omega))
    rw [isMemZero, readByte_of (a := a) hb]
    simp only [bind, Except.bind]
    by_cases hz : b = 0
    · rw [if_neg (by simpa using hz)]
      refine ih (fun i hi => by rw [show a + 1 + i = a + (i + 1) by omega]; exact hr _ (by omega)) ?_
      obtain ⟨i, hi, hne⟩ := h
      cases i with
      | zero => rw [hz] at hb; exact absurd hb hne
      | succ i => exact ⟨i, by omega, by rw [show a + 1 + i = a + (i + 1) by omega]; exact hne⟩
    · rw [if_pos hz]; rfl

/-- **C60**.  Sizes and the position of the reserved member are those of the C header. -/
theorem C60_layout (type : InputType) : type.size = structSize 0 (members type) ∧ type.reserved = reservedOffset type := by
  cases type <;> exact ⟨rfl, rfl⟩

theorem typeSize_eq {m : Mem} {p n : Nat} (h : Struct m p n) : typeSize m p = .ok n := by
  rw [typeSize, if_neg (by simpa using h.aligned), readNum_of h.size]

/-- **C60**.  A structure that is not acceptable is refused as invalid input.
Partial: a reserved member in the middle of a structure is not looked at (`C60_reserved_wrong`). -/
theorem C60_refused_partial (type : InputType) (m : Mem) (p n : Nat) (h : Struct m p n) (ha : ¬Acceptable type m p n) :
    input m p type = .ok (.error .invalidInput) := by
  have hr := (C60_layout type).2
  have : inputZeroed m p type.reserved = .ok false := by
    rw [inputZeroed, typeSize_eq h]
    simp only [bind, Except.bind]
    by_cases h8 : n < 8
    · rw [if_pos h8]; rfl
    · rw [if_neg h8]
      have : ∃ (i : Nat), reservedOffset type ≤ i ∧ i < n ∧ m (p + i) ≠ some 0 := by
        by_contra hc
        push Not at hc
        exact ha ⟨by omega, hc⟩
      obtain ⟨i, h1, h2, h3⟩ := this
      refine isMemZero_false (fun j hj => ?_) ⟨i - type.reserved, by omega, ?_⟩
      · rw [Nat.add_assoc]; exact h.readable _ (by omega)
      · rw [show p + type.reserved + (i - type.reserved) = p + i by omega]; exact h3
  rw [input, this]; rfl

/-- **C60**.  A structure that is acceptable is taken as the structure known to the library, members that are
missing being zero.  Nothing beyond the structure is read. -/
theorem C60_taken (type : InputType) (m : Mem) (p n : Nat) (h : Struct m p n) (ha : Acceptable type m p n) :
    ∃ (bs : Bytes), input m p type = .ok (.ok bs) ∧ bs.length = structSize 0 (members type)
      ∧ Holds (view m p n) 0 bs := by
  obtain ⟨hl, hr⟩ := C60_layout type
  have hz : inputZeroed m p type.reserved = .ok true := by
    rw [inputZeroed, typeSize_eq h]
    simp only [bind, Except.bind]
    rw [if_neg (by have := ha.1; omega)]
    exact isMemZero_true fun i hi => by rw [Nat.add_assoc]; exact ha.2 _ (by omega) (by omega)
  rw [← hl, input, hz]
  simp only [bind, Except.bind, Bool.not_true, Bool.false_eq_true, if_false]
  rw [inputSanitize, typeSize_eq h]
  simp only [bind, Except.bind]
  by_cases hn : n < type.size
  · rw [if_pos hn]
    obtain ⟨bs, h1, h2, h3⟩ := readBytes_spec h.readable
    rw [h1]
    refine ⟨_, rfl, by simp [h2]; omega, fun i hi => ?_⟩
    rw [Nat.zero_add, view]
    by_cases hin : i < n
    · rw [if_pos hin, h3 i (by omega), List.getElem?_append_left (by omega)]
    · rw [if_neg hin, List.getElem?_append_right (by omega), List.getElem?_replicate, if_pos]
      simp only [List.length_append, List.length_replicate] at hi
      omega
  · rw [if_neg hn]
    obtain ⟨bs, h1, h2, h3⟩ := readBytes_spec (n := type.size) (fun i hi => h.readable i (by omega))
    rw [h1]
    refine ⟨bs, rfl, h2, fun i hi => ?_⟩
    rw [Nat.zero_add, view, if_pos (by omega), h3 i hi]

theorem field_of {v : Mem} {bs : Bytes} (h : Holds v 0 bs) {off k x : Nat} (hb : off + k ≤ bs.length)
    (hx : NumAt v off k x) : field bs off k = x := by
  induction k generalizing off x with
  | zero =>
    simp only [NumAt, Mem.num, Option.some.injEq] at hx
    simp [field, leValue, ← hx]
  | succ k ih =>
    have hv := h off (by omega)
    rw [Nat.zero_add] at hv
    rw [List.getElem?_eq_getElem (by omega)] at hv
    simp only [NumAt, Mem.num, Option.bind_eq_bind, hv, Option.bind_some, Option.bind_eq_some_iff, pure,
      Option.some.injEq] at hx
    obtain ⟨y, hy, rfl⟩ := hx
    have := ih (off := off + 1) (by omega) hy
    rw [field, List.drop_eq_getElem_cons (by omega), List.take_succ_cons, leValue]
    rw [field] at this
    rw [this]

theorem boolField_of {v : Mem} {bs : Bytes} (h : Holds v 0 bs) {off : Nat} {b : Bool} (hb : off + 1 ≤ bs.length)
    (hx : BoolAt v off b) : boolField bs off = .ok b := by
  rw [boolField, field_of h hb hx]
  cases b <;> rfl

theorem inputAs_of {α : Type} {type : InputType} {m : Mem} {p n : Nat} (h : Struct m p n) (ha : Acceptable type m p n)
    {convert : Bytes → Except Fault α} {x : α}
    (hc : ∀ (bs : Bytes), bs.length = structSize 0 (members type) → Holds (view m p n) 0 bs → convert bs = .ok x) :
    inputAs m p type convert = .ok (.ok x) := by
  obtain ⟨bs, h1, h2, h3⟩ := C60_taken type m p n h ha
  rw [inputAs, h1]
  simp only [bind, Except.bind, hc bs h2 h3]
  rfl

theorem cstrBytes_of {m : Mem} {s : Bytes} {a fuel : Nat} (h : Holds m a (s ++ [0])) (h0 : 0 ∉ s)
    (hf : s.length < fuel) : cstrBytes m fuel a = .ok s := by
  induction s generalizing a fuel with
  | nil =>
    obtain ⟨f, rfl⟩ : ∃ (f : Nat), fuel = f + 1 := ⟨fuel - 1, by simp at hf; omega⟩
    rw [cstrBytes, readByte_of (by simpa using h 0 (by simp))]
    rfl
  | cons b s ih =>
    obtain ⟨f, rfl⟩ : ∃ (f : Nat), fuel = f + 1 := ⟨fuel - 1, by simp at hf; omega⟩
    rw [cstrBytes, readByte_of (b := b) (by simpa using h 0 (by simp))]
    simp only [bind, Except.bind]
    rw [if_neg (by rintro rfl; simp at h0), ih (fun i hi => ?_) (by simp at h0; exact h0.2) (by simp at hf; omega)]
    · rfl
    · rw [show a + 1 + i = a + (i + 1) by omega, h (i + 1) (by simpa using hi)]; simp

theorem fromCStr_of {m : Mem} {s : Bytes} {a : Nat} (h : CStrAt m a s) : fromCStr m a = .ok s :=
  cstrBytes_of h.1 h.2.1 (by have := h.2.2; omega)

theorem maybePath_of {m : Mem} {a : Nat} {s : Kernel.MaybeDefault Bytes} (h : PathAt m a s) : maybePath m a = .ok s := by
  cases s with
  | default => rw [maybePath, if_neg (by simpa using show a = 0 from h)]
  | none => rw [maybePath, if_pos h.1, fromCStr_of h.2]; rfl
  | some s =>
    rw [maybePath, if_pos h.1, fromCStr_of h.2.2]
    cases s with
    | nil => exact absurd rfl h.2.1
    | cons b s => rfl

theorem readArray_of {m : Mem} {a k : Nat} {xs : List Nat} (h : NumsAt m a k xs) :
    readArray m a k xs.length = .ok xs := by
  induction xs generalizing a with
  | nil => rfl
  | cons x xs ih =>
    rw [List.length_cons, readArray, readNum_of h.1]
    simp only [bind, Except.bind, ih h.2]
    rfl

/-- **C60**.  Arrays of addresses need not be aligned, and an empty array may be `NULL`. -/
theorem C60_array (m : Mem) (a k : Nat) (xs : List Nat) (h : NumsAt m a k xs) (h0 : a = 0 → xs = []) :
    userArray m a k xs.length = .ok xs ∧ alignedUserArray m a k xs.length = .ok xs := by
  have : alignedUserArray m a k xs.length = .ok xs := by
    rw [alignedUserArray]
    split
    · rename_i h'; rw [h0 h']; rfl
    · exact readArray_of h
  refine ⟨?_, this⟩
  rw [userArray]
  split
  · exact this
  · split
    · rename_i h'; rw [h0 h']
    · exact readArray_of h

/-- **C60**.  A member that the caller's structure doesn't have counts as zero. -/
theorem C60_missing (m : Mem) (p n off k : Nat) (h : n ≤ off) : NumAt (view m p n) off k 0 := by
  induction k generalizing off with
  | zero => rfl
  | succ k ih =>
    have := ih (off + 1) (by omega)
    simp only [NumAt, Mem.num, Option.bind_eq_bind] at this ⊢
    rw [this, view, if_neg (by omega)]
    rfl

/-- **C60**.  A member that it has counts as what the caller put there. -/
theorem C60_present (m : Mem) (p n off k x : Nat) (h : off + k ≤ n) :
    NumAt (view m p n) off k x ↔ NumAt m (p + off) k x := by
  have : (view m p n).num off k = m.num (p + off) k := by
    clear x
    induction k generalizing off with
    | zero => rfl
    | succ k ih =>
      simp only [Mem.num]
      rw [ih (off + 1) (by omega), view, if_pos (by omega), Nat.add_assoc]
  rw [NumAt, NumAt, this]

section sources
variable {m : Mem} {p n : Nat} (h : Struct m p n)
include h

/-- **C60**.  The process to symbolize addresses of. -/
theorem C60_process (ha : Acceptable .srcProcess m p n) (pid : Nat) (debugSyms perfMap noMapFiles noVdso : Bool)
    (h1 : NumAt (view m p n) 8 4 pid) (h2 : BoolAt (view m p n) 12 debugSyms) (h3 : BoolAt (view m p n) 13 perfMap)
    (h4 : BoolAt (view m p n) 14 noMapFiles) (h5 : BoolAt (view m p n) 15 noVdso) :
    inputAs m p .srcProcess srcProcess = .ok (.ok (.process
      { pid, debugSyms, perfMap, mapFiles := !noMapFiles, vdso := !noVdso })) := by
  refine inputAs_of h ha fun bs hl hb => ?_
  have hl : bs.length = 32 := hl
  rw [srcProcess, boolField_of hb (by omega) h2, boolField_of hb (by omega) h3, boolField_of hb (by omega) h4,
    boolField_of hb (by omega) h5, field_of hb (by omega) h1]
  rfl

/-- **C60**.  A program built against the first version of the structure gets the defaults. -/
theorem C60_process_first (ha : Acceptable .srcProcess m p n) (hn : n ≤ 12) (pid : Nat)
    (h1 : NumAt (view m p n) 8 4 pid) :
    inputAs m p .srcProcess srcProcess = .ok (.ok (.process
      { pid, debugSyms := false, perfMap := false, mapFiles := true, vdso := true })) :=
  C60_process h ha pid false false false false h1 (C60_missing m p n 12 1 hn) (C60_missing m p n 13 1 (by omega))
    (C60_missing m p n 14 1 (by omega)) (C60_missing m p n 15 1 (by omega))

/-- **C60**.  The kernel to symbolize addresses of. -/
theorem C60_kernel (ha : Acceptable .srcKernel m p n) (kp vp : Nat) (kallsyms vmlinux : Kernel.MaybeDefault Bytes)
    (debugSyms : Bool) (h1 : NumAt (view m p n) 8 8 kp) (h1' : PathAt m kp kallsyms)
    (h2 : NumAt (view m p n) 16 8 vp) (h2' : PathAt m vp vmlinux) (h3 : BoolAt (view m p n) 24 debugSyms) :
    inputAs m p .srcKernel (srcKernel m) = .ok (.ok (.kernel { kallsyms, vmlinux, kaslr := none, debugSyms })) := by
  refine inputAs_of h ha fun bs hl hb => ?_
  have hl : bs.length = 48 := hl
  rw [srcKernel, boolField_of hb (by omega) h3, field_of hb (by omega) h1, field_of hb (by omega) h2, maybePath_of h1',
    maybePath_of h2']
  rfl

/-- **C60**.  The ELF file to symbolize addresses of. -/
theorem C60_elf (ha : Acceptable .srcElf m p n) (pp : Nat) (path : Bytes) (debugSyms : Bool)
    (h1 : NumAt (view m p n) 8 8 pp) (h1' : CStrAt m pp path) (h2 : BoolAt (view m p n) 16 debugSyms) :
    inputAs m p .srcElf (srcElf m) = .ok (.ok (.elf path debugSyms)) := by
  refine inputAs_of h ha fun bs hl hb => ?_
  have hl : bs.length = 40 := hl
  rw [srcElf, boolField_of hb (by omega) h2, field_of hb (by omega) h1, fromCStr_of h1']
  rfl

/-- **C60**.  The ELF file to look up symbols in. -/
theorem C60_inspect (ha : Acceptable .inspectElf m p n) (pp : Nat) (path : Bytes) (debugSyms : Bool)
    (h1 : NumAt (view m p n) 8 8 pp) (h1' : CStrAt m pp path) (h2 : BoolAt (view m p n) 16 debugSyms) :
    inputAs m p .inspectElf (inspectElf m) = .ok (.ok (path, debugSyms)) := by
  refine inputAs_of h ha fun bs hl hb => ?_
  have hl : bs.length = 40 := hl
  rw [inspectElf, boolField_of hb (by omega) h2, field_of hb (by omega) h1, fromCStr_of h1']
  rfl

/-- **C60**.  The Gsym file to symbolize addresses with. -/
theorem C60_gsym_file (ha : Acceptable .srcGsymFile m p n) (pp : Nat) (path : Bytes)
    (h1 : NumAt (view m p n) 8 8 pp) (h1' : CStrAt m pp path) :
    inputAs m p .srcGsymFile (srcGsymFile m) = .ok (.ok (.gsymFile path)) := by
  refine inputAs_of h ha fun bs hl hb => ?_
  have hl : bs.length = 32 := hl
  rw [srcGsymFile, field_of hb (by omega) h1, fromCStr_of h1']
  rfl

/-- **C60**.  The Gsym data to symbolize addresses with. -/
theorem C60_gsym_data (ha : Acceptable .srcGsymData m p n) (dp : Nat) (data : Bytes)
    (h1 : NumAt (view m p n) 8 8 dp) (h2 : NumAt (view m p n) 16 8 data.length) (h3 : Holds m dp data)
    (h0 : dp = 0 → data = []) :
    inputAs m p .srcGsymData (srcGsymData m) = .ok (.ok (.gsymData data)) := by
  refine inputAs_of h ha fun bs hl hb => ?_
  have hl : bs.length = 40 := hl
  have hn : NumsAt m dp 1 (data.map UInt8.toNat) := by
    clear h2 h0 h1
    induction data generalizing dp with
    | nil => trivial
    | cons b data ih =>
      refine ⟨?_, ih (dp + 1) fun i hi => ?_⟩
      · have : m dp = some b := by simpa using h3 0 (by simp)
        simp [NumAt, Mem.num, this]
      · rw [show dp + 1 + i = dp + (i + 1) by omega, h3 (i + 1) (by simpa using hi)]; simp
  have := (C60_array m dp 1 (data.map UInt8.toNat) hn (fun h => by simp [h0 h])).2
  rw [List.length_map] at this
  rw [srcGsymData, field_of hb (by omega) h1, field_of hb (by omega) h2, this]
  simp only [bind, Except.bind, List.map_map]
  rw [show (UInt8.ofNat ∘ UInt8.toNat) = id from funext fun x => by simp, List.map_id]
  rfl

/-- **C60**.  The ELF file to cache. -/
theorem C60_cache_elf (ha : Acceptable .cacheElf m p n) (pp : Nat) (path : Bytes)
    (h1 : NumAt (view m p n) 8 8 pp) (h1' : CStrAt m pp path) :
    inputAs m p .cacheElf (cacheElf m) = .ok (.ok path) := by
  refine inputAs_of h ha fun bs hl hb => ?_
  have hl : bs.length = 32 := hl
  rw [cacheElf, field_of hb (by omega) h1, fromCStr_of h1']

/-- **C60**.  The process to cache. -/
theorem C60_cache_process (ha : Acceptable .cacheProcess m p n) (pid : Nat) (cacheVmas : Bool)
    (h1 : NumAt (view m p n) 8 4 pid) (h2 : BoolAt (view m p n) 12 cacheVmas) :
    inputAs m p .cacheProcess cacheProcess = .ok (.ok (pid, cacheVmas)) := by
  refine inputAs_of h ha fun bs hl hb => ?_
  have hl : bs.length = 32 := hl
  rw [cacheProcess, boolField_of hb (by omega) h2, field_of hb (by omega) h1]
  rfl

/-- **C60**.  The options of a normalizer. -/
theorem C60_normalizer (ha : Acceptable .normalizerOpts m p n) (procmapQuery cacheVmas buildIds cacheBuildIds : Bool)
    (h1 : BoolAt (view m p n) 8 procmapQuery) (h2 : BoolAt (view m p n) 9 cacheVmas)
    (h3 : BoolAt (view m p n) 10 buildIds) (h4 : BoolAt (view m p n) 11 cacheBuildIds) :
    inputAs m p .normalizerOpts normalizerOpts = .ok (.ok ⟨procmapQuery, cacheVmas, buildIds, cacheBuildIds⟩) := by
  refine inputAs_of h ha fun bs hl hb => ?_
  have hl : bs.length = 32 := hl
  rw [normalizerOpts, boolField_of hb (by omega) h1, boolField_of hb (by omega) h2, boolField_of hb (by omega) h3,
    boolField_of hb (by omega) h4]
  rfl

/-- **C60**.  The options of a normalization request. -/
theorem C60_normalize (ha : Acceptable .normalizeOpts m p n) (sortedAddrs mapFiles apkToElf : Bool)
    (h1 : BoolAt (view m p n) 8 sortedAddrs) (h2 : BoolAt (view m p n) 9 mapFiles)
    (h3 : BoolAt (view m p n) 10 apkToElf) :
    inputAs m p .normalizeOpts normalizeOpts = .ok (.ok ⟨sortedAddrs, mapFiles, apkToElf⟩) := by
  refine inputAs_of h ha fun bs hl hb => ?_
  have hl : bs.length = 32 := hl
  rw [normalizeOpts, boolField_of hb (by omega) h1, boolField_of hb (by omega) h2, boolField_of hb (by omega) h3]
  rfl

omit h in
theorem cstrings_of {as : List Nat} {ss : List Bytes} (h : List.Forall₂ (CStrAt m) as ss) : cstrings m as = .ok ss := by
  induction h with
  | nil => rfl
  | cons h1 _ ih =>
    rw [cstrings, fromCStr_of h1]
    simp only [bind, Except.bind, ih]
    rfl

/-- **C60**.  The options of a symbolizer.  `NULL` stands for the default debug directories, and for no
dispatcher. -/
theorem C60_symbolizer (ha : Acceptable .symbolizerOpts m p n) (dirs dispatch : Nat) (ptrs : List Nat)
    (paths : List Bytes) (autoReload codeInfo inlinedFns demangle : Bool)
    (h1 : NumAt (view m p n) 8 8 dirs) (h2 : NumAt (view m p n) 16 8 ptrs.length)
    (h1' : dirs ≠ 0 → NumsAt m dirs 8 ptrs ∧ List.Forall₂ (CStrAt m) ptrs paths)
    (h3 : BoolAt (view m p n) 24 autoReload) (h4 : BoolAt (view m p n) 25 codeInfo)
    (h5 : BoolAt (view m p n) 26 inlinedFns) (h6 : BoolAt (view m p n) 27 demangle)
    (h7 : NumAt (view m p n) 32 8 dispatch) :
    ∃ (opts : SymbolizerOpts), inputAs m p .symbolizerOpts (symbolizerOpts m) = .ok (.ok opts)
      ∧ opts.autoReload = autoReload ∧ opts.codeInfo = codeInfo ∧ opts.inlinedFns = inlinedFns
      ∧ opts.demangle = demangle
      ∧ (dirs = 0 → opts.debugDirs = none) ∧ (dirs ≠ 0 → opts.debugDirs = some paths)
      ∧ (dispatch = 0 → opts.dispatch = none) ∧ (dispatch ≠ 0 → opts.dispatch = some dispatch) := by
  refine ⟨⟨if dirs = 0 then none else some paths, autoReload, codeInfo, inlinedFns, demangle,
    if dispatch = 0 then none else some dispatch⟩, inputAs_of h ha fun bs hl hb => ?_, rfl, rfl, rfl, rfl,
    fun h => if_pos h, fun h => if_neg h, fun h => if_pos h, fun h => if_neg h⟩
  have hl : bs.length = 48 := hl
  rw [symbolizerOpts, boolField_of hb (by omega) h3, boolField_of hb (by omega) h4, boolField_of hb (by omega) h5,
    boolField_of hb (by omega) h6, field_of hb (by omega) h1, field_of hb (by omega) h2, field_of hb (by omega) h7]
  by_cases h0 : dirs = 0
  · simp only [h0, if_true, bind, Except.bind, pure, Except.pure]
  · obtain ⟨hn, hf⟩ := h1' h0
    simp only [if_neg h0, bind, Except.bind, pure, Except.pure]
    rw [(C60_array m dirs 8 ptrs hn fun h => absurd h h0).1]
    simp only
    rw [cstrings_of hf]

end sources

/-- Memory with a `blaze_symbolizer_opts` at 4096 whose first reserved member, documented to have to be zero,
is not. -/
def reservedMem : Mem :=
  Mem.set (fun _ => none) 4096 (leBytes 8 48 ++ leBytes 8 0 ++ leBytes 8 0 ++ [0, 0, 0, 0, 7, 0, 0, 0] ++ leBytes 8 0 ++ leBytes 8 0)

/-- The full property would be that reserved members other than zero are always refused.  The one in the middle
of the symbolizer options is not looked at. -/
theorem C60_reserved_wrong : ∃ (m : Mem) (p n : Nat) (opts : SymbolizerOpts), Struct m p n ∧ NumAt m (p + 28) 4 7
    ∧ inputAs m p .symbolizerOpts (symbolizerOpts m) = .ok (.ok opts) := by
  refine ⟨reservedMem, 4096, 48, ⟨none, false, false, false, false, none⟩, ⟨rfl, rfl, fun i hi => ?_⟩, rfl, rfl⟩
  rw [reservedMem, Mem.set, if_pos ⟨by omega, by simp [leBytes_length]; omega⟩]
  rw [Nat.add_sub_cancel_left, List.getElem?_eq_getElem (by simp [leBytes_length]; omega)]
  rfl

/-- Memory with a `blaze_symbolize_src_process` as it was before `no_map_files` came up. -/
def oldProcess : Mem := Mem.set (fun _ => none) 4096 (leBytes 8 14 ++ leBytes 4 77 ++ [1, 0])

/-- The hypotheses of the theorems above are met. -/
example : Struct oldProcess 4096 14 ∧ Acceptable .srcProcess oldProcess 4096 14
    ∧ NumAt (view oldProcess 4096 14) 8 4 77 ∧ BoolAt (view oldProcess 4096 14) 12 true
    ∧ BoolAt (view oldProcess 4096 14) 13 false ∧ BoolAt (view oldProcess 4096 14) 14 false
    ∧ BoolAt (view oldProcess 4096 14) 15 false := by
  refine ⟨⟨rfl, rfl, fun i hi => ?_⟩, ⟨by omega, fun i h1 h2 => ?_⟩, rfl, rfl, rfl, rfl, rfl⟩
  · rw [oldProcess, Mem.set, if_pos ⟨by omega, by simp [leBytes_length]; omega⟩, Nat.add_sub_cancel_left,
      List.getElem?_eq_getElem (by simp [leBytes_length]; omega)]
    rfl
  · have : reservedOffset .srcProcess = 16 := rfl
    omega

end Blazesym.CApi
