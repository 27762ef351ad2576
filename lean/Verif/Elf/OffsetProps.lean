import Verif.Elf.NameProps

/-! Property theorem C09: translation between file offsets and virtual offsets. -/

set_option autoImplicit false

namespace Blazesym.Spec.Elf
open Blazesym.Elf

/-- The loadable segment `p` provides the byte at file offset `off`. -/
def InFile (p : Phdr) (off : Nat) : Prop :=
  p.type = 1 ∧ p.offset ≤ off ∧ off < p.offset + p.filesz

/-- `p` is the first loadable segment providing the byte at file offset `off`. -/
def FirstInFile (phdrs : List Phdr) (off : Nat) (p : Phdr) : Prop :=
  ∃ pre post, phdrs = pre ++ p :: post ∧ InFile p off ∧ ∀ q ∈ pre, ¬ InFile q off

/-- The loadable segment `p` maps the virtual address `addr` from the file; an object of size
zero may also sit at its very end. -/
def InMem (p : Phdr) (addr size : Nat) : Prop :=
  p.type = 1 ∧ p.vaddr ≤ addr ∧ (addr < p.vaddr + p.filesz ∨ (addr = p.vaddr + p.filesz ∧ size = 0))

/-- Loadable segments stay within 64 bits, in the file and in memory. -/
def SegmentsFit (phdrs : List Phdr) : Prop :=
  ∀ p ∈ phdrs, p.type = 1 → p.offset + p.filesz < 2 ^ 64 ∧ p.vaddr + p.filesz < 2 ^ 64

/-- The offset in the file that belongs to a symbol: as far from the start of the contents of its section as the
symbol is from the address of the section, if that is not behind the contents (a symbol of size zero may be at
their end).  There is none for reserved section numbers, and for sections without contents. -/
inductive SymbolOffset (shdrs : List Shdr) (s : Sym) : Option Nat → Prop
  | reserved : 0xff00 ≤ s.shndx → SymbolOffset shdrs s none
  | noContents (sec : Shdr) : s.shndx < 0xff00 → shdrs[s.shndx]? = some sec → sec.type = 8 → SymbolOffset shdrs s none
  | inside (sec : Shdr) (off : Nat) : s.shndx < 0xff00 → shdrs[s.shndx]? = some sec → sec.type ≠ 8 →
      off < 2 ^ 64 → (sec.addr + off) % 2 ^ 64 = (s.value + sec.offset) % 2 ^ 64 →
      (off < sec.offset + sec.size ∨ (off = sec.offset + sec.size ∧ s.size = 0)) → SymbolOffset shdrs s (some off)
  | behind (sec : Shdr) (off : Nat) : s.shndx < 0xff00 → shdrs[s.shndx]? = some sec → sec.type ≠ 8 →
      off < 2 ^ 64 → (sec.addr + off) % 2 ^ 64 = (s.value + sec.offset) % 2 ^ 64 →
      (sec.offset + sec.size < off ∨ (off = sec.offset + sec.size ∧ s.size ≠ 0)) → SymbolOffset shdrs s none

/-- Sections have addresses and do not end beyond the address space. -/
def SectionsFit (shdrs : List Shdr) : Prop := ∀ sec ∈ shdrs, sec.addr < 2 ^ 64 ∧ sec.offset + sec.size < 2 ^ 64

end Blazesym.Spec.Elf

namespace Blazesym.Elf
open Blazesym.Util Blazesym.Spec Blazesym.Spec.Elf

theorem addU64_ok {a b : Nat} (h : a + b < 2 ^ 64) : addU64 a b = .ok (a + b) := by
  unfold addU64; rw [if_pos]; unfold u64Size; omega

theorem addU64_panic {a b : Nat} (h : 2 ^ 64 ≤ a + b) : addU64 a b = .error .panic := by
  unfold addU64; rw [if_neg]; unfold u64Size; omega

/-- **C09** a file offset inside of some loadable segment translates to `p_vaddr + (offset -
p_offset)` of the first such segment. -/
theorem C09_virt_offset_found (file : File) (phdrs : List Phdr) (hp : file.phdrs = .ok phdrs)
    (hfit : SegmentsFit phdrs) (off : Nat) (p : Phdr) (h : FirstInFile phdrs off p) :
    file.fileOffsetToVirtOffset off = .ok (some (p.vaddr + (off - p.offset))) := by
  unfold File.fileOffsetToVirtOffset
  rw [hp]
  simp only [bind, Except.bind]
  obtain ⟨pre, post, rfl, hin, hpre⟩ := h
  clear hp
  induction pre with
  | nil =>
    obtain ⟨h1, h2, h3⟩ := hin
    obtain ⟨f1, f2⟩ := hfit p (by simp) h1
    simp only [List.nil_append, fileOffsetToVirtLoop]
    rw [if_pos (show p.type = PT_LOAD from h1), addU64_ok f1]
    simp only
    rw [if_pos ⟨h2, h3⟩, addU64_ok (by omega)]
    simp only [Nat.add_comm]
  | cons q pre ih =>
    have ih := ih (fun x hx => hfit x (by simp at hx ⊢; tauto)) (fun x hx => hpre x (by simp [hx]))
    simp only [List.cons_append, fileOffsetToVirtLoop]
    by_cases hq : q.type = 1
    · obtain ⟨f1, f2⟩ := hfit q (by simp) hq
      rw [if_pos (show q.type = PT_LOAD from hq), addU64_ok f1]
      simp only
      rw [if_neg (fun hc => hpre q (by simp) ⟨hq, hc⟩)]
      exact ih
    · rw [if_neg (show ¬ q.type = PT_LOAD from hq)]; exact ih

/-- **C09** a file offset outside of all loadable segments translates to nothing. -/
theorem C09_virt_offset_none (file : File) (phdrs : List Phdr) (hp : file.phdrs = .ok phdrs)
    (hfit : SegmentsFit phdrs) (off : Nat) (h : ∀ p ∈ phdrs, ¬ InFile p off) :
    file.fileOffsetToVirtOffset off = .ok none := by
  unfold File.fileOffsetToVirtOffset
  rw [hp]
  simp only [bind, Except.bind]
  clear hp
  induction phdrs with
  | nil => rfl
  | cons q rest ih =>
    have ih := ih (fun x hx => hfit x (by simp [hx])) (fun x hx => h x (by simp [hx]))
    simp only [fileOffsetToVirtLoop]
    by_cases hq : q.type = 1
    · obtain ⟨f1, f2⟩ := hfit q (by simp) hq
      rw [if_pos (show q.type = PT_LOAD from hq), addU64_ok f1]
      simp only
      rw [if_neg (fun hc => h q (by simp) ⟨hq, hc⟩)]
      exact ih
    · rw [if_neg (show ¬ q.type = PT_LOAD from hq)]; exact ih

/-- **C09** (malformed headers): the translation errs only because the headers could not be
read, or panics because a loadable segment runs out of the 64 bit range. -/
theorem C09_virt_offset_error (file : File) (off : Nat) (e : Err)
    (h : file.fileOffsetToVirtOffset off = .error e) :
    file.phdrs = .error e ∨
    (e = .panic ∧ ∃ phdrs, file.phdrs = .ok phdrs ∧ ∃ p ∈ phdrs, p.type = 1 ∧
      (2 ^ 64 ≤ p.offset + p.filesz ∨ 2 ^ 64 ≤ p.vaddr + p.filesz)) := by
  unfold File.fileOffsetToVirtOffset at h
  cases hp : file.phdrs with
  | error e' => rw [hp] at h; simp [bind, Except.bind] at h; rw [h]; exact Or.inl rfl
  | ok phdrs =>
    right
    rw [hp] at h
    simp only [bind, Except.bind] at h
    have hkey : ∀ l : List Phdr, fileOffsetToVirtLoop off l = .error e → e = .panic ∧
        ∃ p ∈ l, p.type = 1 ∧ (2 ^ 64 ≤ p.offset + p.filesz ∨ 2 ^ 64 ≤ p.vaddr + p.filesz) := by
      intro l
      induction l with
      | nil => simp [fileOffsetToVirtLoop]
      | cons q rest ih =>
        intro h
        have lift : (e = .panic ∧ ∃ p ∈ rest, p.type = 1 ∧
            (2 ^ 64 ≤ p.offset + p.filesz ∨ 2 ^ 64 ≤ p.vaddr + p.filesz)) → e = .panic ∧
            ∃ p ∈ q :: rest, p.type = 1 ∧
              (2 ^ 64 ≤ p.offset + p.filesz ∨ 2 ^ 64 ≤ p.vaddr + p.filesz) := by
          rintro ⟨a, p, b, c⟩; exact ⟨a, p, by simp [b], c⟩
        simp only [fileOffsetToVirtLoop] at h
        by_cases hq : q.type = 1
        · rw [if_pos (show q.type = PT_LOAD from hq)] at h
          by_cases h1 : q.offset + q.filesz < 2 ^ 64
          · rw [addU64_ok h1] at h
            simp only at h
            split at h
            · rename_i hc
              by_cases h2 : off - q.offset + q.vaddr < 2 ^ 64
              · rw [addU64_ok h2] at h; simp at h
              · rw [addU64_panic (by omega)] at h
                cases h
                exact ⟨rfl, q, by simp, hq, Or.inr (by omega)⟩
            · exact lift (ih h)
          · rw [addU64_panic (by omega)] at h
            cases h
            exact ⟨rfl, q, by simp, hq, Or.inl (by omega)⟩
        · rw [if_neg (show ¬ q.type = PT_LOAD from hq)] at h; exact lift (ih h)
    obtain ⟨a, b⟩ := hkey phdrs h
    exact ⟨a, phdrs, rfl, b⟩

/-- **C09** the reverse direction through segments (`find_file_offset`): the address of an
object is translated through the first loadable segment mapping it. -/
theorem C09_find_file_offset (file : File) (phdrs : List Phdr) (hp : file.phdrs = .ok phdrs)
    (hfit : SegmentsFit phdrs) (addr size : Nat) :
    (∀ pre p post, phdrs = pre ++ p :: post → InMem p addr size → (∀ q ∈ pre, ¬ InMem q addr size) →
      file.findFileOffset addr size = .ok (some (p.offset + (addr - p.vaddr)))) ∧
    ((∀ p ∈ phdrs, ¬ InMem p addr size) → file.findFileOffset addr size = .ok none) := by
  unfold File.findFileOffset
  rw [hp]
  simp only [bind, Except.bind]
  clear hp
  have step : ∀ q rest, (q.type = 1 → q.vaddr + q.filesz < 2 ^ 64) → ¬ InMem q addr size →
      findFileOffsetLoop addr size (q :: rest) = findFileOffsetLoop addr size rest := by
    intro q rest f2 hn
    rw [findFileOffsetLoop]
    by_cases hq : q.type = 1
    · rw [if_pos (show q.type = PT_LOAD from hq), addU64_ok (f2 hq)]
      simp only
      rw [if_neg]
      intro hc
      apply hn
      refine ⟨hq, ?_⟩
      rcases hc with ⟨a, b⟩ | ⟨a, b⟩
      · exact ⟨a, Or.inl b⟩
      · exact ⟨by omega, Or.inr ⟨a, b⟩⟩
    · rw [if_neg (show ¬ q.type = PT_LOAD from hq)]
  constructor
  · rintro pre p post rfl hin hpre
    induction pre with
    | nil =>
      obtain ⟨h1, h2, h3⟩ := hin
      obtain ⟨f1, f2⟩ := hfit p (by simp) h1
      simp only [List.nil_append, findFileOffsetLoop]
      rw [if_pos (show p.type = PT_LOAD from h1), addU64_ok f2]
      simp only
      rw [if_pos (by rcases h3 with h3 | h3; exact Or.inl ⟨h2, h3⟩; exact Or.inr h3), subU,
        if_pos h2]
      simp only
      rw [addU64_ok (by omega)]
      simp only [Nat.add_comm]
    | cons q pre ih =>
      rw [List.cons_append, step q _ (fun hq => (hfit q (by simp) hq).2) (hpre q (by simp))]
      exact ih (fun x hx => hfit x (by simp at hx ⊢; tauto)) (fun x hx => hpre x (by simp [hx]))
  · intro h
    induction phdrs with
    | nil => rfl
    | cons q rest ih =>
      rw [step q _ (fun hq => (hfit q (by simp) hq).2) (h q (by simp))]
      exact ih (fun x hx => hfit x (by simp [hx])) (fun x hx => h x (by simp [hx]))

/-- **C09** the file offset of a symbol, through its section: for a symbol that lies in a
section with file contents it is `sh_offset + (st_value - sh_addr)`; a symbol beyond the
section (or exactly at its end, unless it has size zero) has none. -/
theorem C09_symbol_file_offset (shdrs : List Shdr) (sym : Sym) (sec : Shdr)
    (hsec : shdrs[sym.shndx]? = some sec) (hres : sym.shndx < 0xff00) (hbits : sec.type ≠ 8)
    (hfit : sec.offset + sec.size < 2 ^ 64) (hv : sym.value < 2 ^ 64) (hge : sec.addr ≤ sym.value) :
    (sym.value < sec.addr + sec.size ∨ (sym.value = sec.addr + sec.size ∧ sym.size = 0) →
      fileOffset shdrs sym = .ok (some (sec.offset + (sym.value - sec.addr)))) ∧
    (sec.addr + sec.size < sym.value ∨ (sym.value = sec.addr + sec.size ∧ sym.size ≠ 0) →
      (sec.offset + (sym.value - sec.addr) < 2 ^ 64) → fileOffset shdrs sym = .ok none) := by
  have hoff : sec.offset + (sym.value - sec.addr) < 2 ^ 64 →
      wrappingAdd (wrappingSub sym.value sec.addr) sec.offset =
      sec.offset + (sym.value - sec.addr) := by
    intro h
    unfold wrappingAdd wrappingSub u64Size
    omega
  unfold fileOffset
  rw [if_neg (by unfold SHN_LORESERVE; omega), if_neg (by unfold SHN_ABS; omega)]
  simp only [hsec]
  rw [if_neg (show ¬ sec.type = SHT_NOBITS from hbits), addU64_ok hfit]
  simp only
  constructor
  · intro h
    rw [hoff (by omega), if_pos (by omega)]
  · intro h hlt
    rw [hoff hlt, if_neg (by omega)]

/-- **C09** undefined locations: absolute, common and other reserved section indexes and
sections without file contents have no file offset; a section index beyond the table is an
error. -/
theorem C09_symbol_no_file_offset (shdrs : List Shdr) (sym : Sym) :
    (0xff00 ≤ sym.shndx → fileOffset shdrs sym = .ok none) ∧
    (sym.shndx < 0xff00 → shdrs[sym.shndx]? = none → fileOffset shdrs sym = .error .invalidInput) ∧
    (∀ sec, shdrs[sym.shndx]? = some sec → sec.type = 8 → fileOffset shdrs sym = .ok none) := by
  unfold fileOffset
  refine ⟨fun h => ?_, fun h hn => ?_, fun sec hs ht => ?_⟩
  · rw [if_pos (show sym.shndx ≥ SHN_LORESERVE from h)]
  · rw [if_neg (by unfold SHN_LORESERVE; omega), if_neg (by unfold SHN_ABS; omega)]; simp [hn]
  · by_cases h1 : sym.shndx ≥ SHN_LORESERVE
    · rw [if_pos h1]
    · rw [if_neg h1]
      by_cases h2 : sym.shndx = SHN_ABS
      · rw [if_pos h2]
      · rw [if_neg h2]; simp [hs, ht, SHT_NOBITS]

/-- **C09** the file offset of a symbol, in all cases: it is that of `SymbolOffset`, and a section number beyond the table
is an error. -/
theorem C09_symbol_offset (shdrs : List Shdr) (hfit : SectionsFit shdrs) (sym : Sym) :
    (∀ o, fileOffset shdrs sym = .ok o ↔ SymbolOffset shdrs sym o) ∧
    (∀ e, fileOffset shdrs sym = .error e ↔ e = .invalidInput ∧ sym.shndx < 0xff00 ∧ shdrs.length ≤ sym.shndx) := by
  obtain ⟨h1, h2, h3⟩ := C09_symbol_no_file_offset shdrs sym
  by_cases hr : 0xff00 ≤ sym.shndx
  · rw [h1 hr]
    refine ⟨fun o => ⟨fun h => ?_, fun h => ?_⟩, fun e => ⟨fun h => (by cases h), fun h => by omega⟩⟩
    · cases h; exact .reserved hr
    · cases h <;> first | rfl | omega
  · rw [Nat.not_le] at hr
    cases hs : shdrs[sym.shndx]? with
    | none =>
      rw [h2 hr hs]
      have hlen := List.getElem?_eq_none_iff.mp hs
      refine ⟨fun o => ⟨fun h => (by cases h), fun h => ?_⟩, fun e => ⟨fun h => ?_, fun h => by rw [h.1]⟩⟩
      · cases h with
        | reserved h => omega
        | noContents sec _ h => rw [hs] at h; cases h
        | inside sec _ _ h => rw [hs] at h; cases h
        | behind sec _ _ h => rw [hs] at h; cases h
      · cases h; exact ⟨rfl, hr, hlen⟩
    | some sec =>
      have hlen : sym.shndx < shdrs.length := by
        rw [List.getElem?_eq_some_iff] at hs
        exact hs.1
      by_cases hb : sec.type = 8
      · rw [h3 sec hs hb]
        refine ⟨fun o => ⟨fun h => ?_, fun h => ?_⟩, fun e => ⟨fun h => (by cases h), fun h => by omega⟩⟩
        · cases h; exact .noContents sec hr hs hb
        · cases h with
          | reserved | noContents | behind => rfl
          | inside sec' _ _ h hn =>
            rw [hs] at h
            cases h
            exact absurd hb hn
      · obtain ⟨f1, f2⟩ := hfit sec (List.mem_of_getElem? hs)
        have hoff : ∀ off, off < 2 ^ 64 → (sec.addr + off) % 2 ^ 64 = (sym.value + sec.offset) % 2 ^ 64 →
            wrappingAdd (wrappingSub sym.value sec.addr) sec.offset = off := by
          intro off k1 k2
          unfold wrappingAdd wrappingSub u64Size
          omega
        have hok : (sec.addr + wrappingAdd (wrappingSub sym.value sec.addr) sec.offset) % 2 ^ 64 =
            (sym.value + sec.offset) % 2 ^ 64 := by
          unfold wrappingAdd wrappingSub u64Size
          omega
        have hlt : wrappingAdd (wrappingSub sym.value sec.addr) sec.offset < 2 ^ 64 := Nat.mod_lt _ (by decide)
        have hval : fileOffset shdrs sym =
            if wrappingAdd (wrappingSub sym.value sec.addr) sec.offset < sec.offset + sec.size ∨
              (wrappingAdd (wrappingSub sym.value sec.addr) sec.offset = sec.offset + sec.size ∧ sym.size = 0)
            then .ok (some (wrappingAdd (wrappingSub sym.value sec.addr) sec.offset)) else .ok none := by
          unfold fileOffset
          rw [if_neg (by unfold SHN_LORESERVE; omega), if_neg (by unfold SHN_ABS; omega)]
          simp only [hs]
          rw [if_neg (show ¬ sec.type = SHT_NOBITS from hb), addU64_ok f2]
        generalize wrappingAdd (wrappingSub sym.value sec.addr) sec.offset = off at *
        refine ⟨fun o => ?_, fun e => ⟨fun h => ?_, fun h => by omega⟩⟩
        · rw [hval]
          split
          · rename_i hin
            constructor
            · intro h
              cases h
              exact .inside sec off hr hs hb hlt hok hin
            · intro h
              cases h with
              | reserved h => omega
              | noContents sec' _ h hn => rw [hs] at h; cases h; exact absurd hn hb
              | inside sec' off' _ h _ k1 k2 _ =>
                rw [hs] at h
                cases h
                rw [hoff off' k1 k2]
              | behind sec' off' _ h _ k1 k2 k3 =>
                rw [hs] at h
                cases h
                have := hoff off' k1 k2
                omega
          · rename_i hin
            constructor
            · intro h
              cases h
              exact .behind sec off hr hs hb hlt hok (by omega)
            · intro h
              cases h with
              | reserved | noContents | behind => rfl
              | inside sec' off' _ h _ k1 k2 k3 =>
                rw [hs] at h
                cases h
                have := hoff off' k1 k2
                omega
        · rw [hval] at h
          split at h <;> cases h

/-- **C09** (a symbol before the start of its section) is given an offset in the file, too, which is not in the
section: here 0x800, of a section that has the bytes from 0x1000 to 0x1200. -/
theorem C09_before_section :
    fileOffset [⟨0, 0, 0, 0, 0, 0, 0, 0, 0, 0⟩, ⟨1, 1, 6, 0x401000, 0x1000, 0x200, 0, 0, 16, 0⟩]
      ⟨1, 2, 0, 1, 0x400800, 16⟩ = .ok (some 0x800) := by decide

/-- What the theorem says about a symbol in a section. -/
example : fileOffset [⟨0, 0, 0, 0, 0, 0, 0, 0, 0, 0⟩, ⟨1, 1, 6, 0x401000, 0x1000, 0x200, 0, 0, 16, 0⟩]
    ⟨1, 2, 0, 1, 0x401010, 16⟩ = .ok (some 0x1010) :=
  ((C09_symbol_offset _ (by simp [SectionsFit]) _).1 _).mpr
    (.inside ⟨1, 1, 6, 0x401000, 0x1000, 0x200, 0, 0, 16, 0⟩ _ (by decide) rfl (by decide) (by decide) (by decide)
      (by decide))

/-- **C09** round trip: a symbol's file offset (through its section), translated back through
the loadable segment that contains the section, is the symbol's address. -/
theorem C09_roundtrip (file : File) (shdrs : List Shdr) (phdrs : List Phdr)
    (hp : file.phdrs = .ok phdrs) (hfit : SegmentsFit phdrs) (sym : Sym) (sec : Shdr) (seg : Phdr)
    (hsec : shdrs[sym.shndx]? = some sec) (hres : sym.shndx < 0xff00) (hbits : sec.type ≠ 8)
    (hge : sec.addr ≤ sym.value) (hlt : sym.value < sec.addr + sec.size)
    (hseg : seg.offset ≤ sec.offset) (hcong : sec.addr = seg.vaddr + (sec.offset - seg.offset))
    (hin : sec.offset + sec.size ≤ seg.offset + seg.filesz)
    (hfirst : FirstInFile phdrs (sec.offset + (sym.value - sec.addr)) seg) :
    ∃ off, fileOffset shdrs sym = .ok (some off) ∧
      file.fileOffsetToVirtOffset off = .ok (some sym.value) := by
  have hseg1 := hfirst
  obtain ⟨pre, post, rfl, ⟨ht, _, _⟩, _⟩ := hfirst
  obtain ⟨f1, f2⟩ := hfit seg (by simp) ht
  refine ⟨_, (C09_symbol_file_offset shdrs sym sec hsec hres hbits (by omega) (by omega) hge).1
    (Or.inl hlt), ?_⟩
  rw [C09_virt_offset_found file _ hp hfit _ seg hseg1]
  congr 2
  omega

/-- A text segment with one section: `.text` at file offset 0x1000, mapped at 0x401000. -/
example : ∃ off, fileOffset [⟨0, 0, 0, 0, 0, 0, 0, 0, 0, 0⟩, ⟨1, 1, 6, 0x401020, 0x1020, 0x200, 0, 0, 16, 0⟩]
      ⟨1, 2, 0, 1, 0x401100, 16⟩ = .ok (some off) ∧
    (File.mk (.ok []) (.ok [⟨1, 5, 0x1000, 0x401000, 0x401000, 0x800, 0x800, 0x1000⟩])
      (.ok ⟨[], []⟩) (.ok ⟨[], []⟩)).fileOffsetToVirtOffset off = .ok (some 0x401100) :=
  C09_roundtrip _ _ _ rfl (by simp [SegmentsFit]) _ _ ⟨1, 5, 0x1000, 0x401000, 0x401000, 0x800, 0x800, 0x1000⟩
    rfl (by norm_num) (by norm_num) (by norm_num) (by norm_num) (by norm_num) (by norm_num) (by norm_num)
    ⟨[], [], rfl, by simp [InFile], by simp⟩

end Blazesym.Elf
