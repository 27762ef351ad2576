import Verif.Dwarf.Reader
import Verif.Elf.RelocProps

/-! Property theorems C54: what is read from the debug sections of a file. -/

set_option autoImplicit false

namespace Blazesym.Dwarf
open Blazesym.Util Blazesym.Elf Blazesym.Spec Blazesym.Spec.Elf

/-- What the section with header `s` stands for: its part of the file, decompressed if it is flagged as
compressed. -/
def DataIs (c : Codec) (b : Backend) (bit32 : Bool) (s : Shdr) (data : Bytes) : Prop :=
  if s.flags / 2048 % 2 = 1 ∧ s.type ≠ 8 then
    ∃ raw, ContentsAre b.data s raw ∧ Decompresses c bit32 raw data
  else ContentsAre b.data s data

/-- `j` is the first section of the name, `data` what it stands for. -/
def FirstNamed (c : Codec) (b : Backend) (h : EhdrExt) (l : List Shdr) (name : Bytes) (j : Nat) (data : Bytes) : Prop :=
  1 ≤ j ∧ j < h.shnum ∧ sectionName b j = .ok name ∧
  (∀ k, 1 ≤ k → k < j → ∃ s, sectionName b k = .ok s ∧ s ≠ name) ∧
  ∃ s, l[j]? = some s ∧ DataIs c b h.ehdr.bit32 s data

/-- There is no section of the name. -/
def NoneNamed (b : Backend) (h : EhdrExt) (name : Bytes) : Prop :=
  ∀ k, 1 ≤ k → k < h.shnum → ∃ s, sectionName b k = .ok s ∧ s ≠ name

theorem readAddress_num {r : Reader} {off size v : Nat} (hs : size = 1 ∨ size = 2 ∨ size = 4 ∨ size = 8)
    (hv : Num r.data off size v) : r.readAddress off size = .ok (r.relocs.relocate off v) := by
  obtain ⟨h1, rfl⟩ := (num_iff _ _ _ _).mp hv
  unfold Reader.readAddress readStored
  rw [if_neg (by omega), if_pos h1]
  rfl

theorem sectionData_hdr {c : Codec} {b : Backend} {h : EhdrExt} {l : List Shdr} {idx : Nat} {data : Bytes}
    (hh : parseEhdr b = .ok h) (hl : parseShdrs b = .ok l) (hd : sectionData c b idx = .ok data) :
    ∃ s, l[idx]? = some s ∧ DataIs c b h.ehdr.bit32 s data := by
  obtain ⟨h', l', s, k1, k2, k3, k4⟩ := C10_section_data c b idx data hd
  rw [hh] at k1; cases k1
  rw [hl] at k2; cases k2
  exact ⟨s, k3, k4⟩

theorem loadSection_cases {c : Codec} {b : Backend} {m : SectionRelocs} {name : Bytes} {r : Reader} {h : EhdrExt}
    (hr : loadSection c b m name = .ok r) (hh : parseEhdr b = .ok h) :
    (NoneNamed b h name ∧ r.data = []) ∨
    ∃ j l, parseShdrs b = .ok l ∧ FirstNamed c b h l name j r.data ∧ r.relocs = m j := by
  obtain ⟨o, h1, hr⟩ := (bind_ok_iff _ _ _).mp hr
  cases o with
  | none =>
    cases hr
    obtain ⟨h', k1, k2⟩ := C10_find_section_none b name h1
    rw [hh] at k1; cases k1
    exact Or.inl ⟨k2, rfl⟩
  | some j =>
    obtain ⟨data, h2, hr⟩ := (bind_ok_iff _ _ _).mp hr
    cases hr
    obtain ⟨h', k1, k2, k3, k4, k5⟩ := C10_find_section b name j h1
    rw [hh] at k1; cases k1
    obtain ⟨l, h3, _⟩ : ∃ l, parseShdrs b = .ok l ∧ True := by
      obtain ⟨_, g, _⟩ := (bind_ok_iff _ _ _).mp h2
      obtain ⟨l, g1, _⟩ := sectionHdr_ok g
      exact ⟨l, g1, trivial⟩
    obtain ⟨s, h4, h5⟩ := sectionData_hdr hh h3 h2
    exact Or.inr ⟨j, l, h3, ⟨k2, k3, k4, k5, s, h4, h5⟩, rfl⟩

theorem relocs_of_shdrs {b : Backend} {m : SectionRelocs} {h : EhdrExt} {l : List Shdr}
    (hr : parseSectionRelocs b = .ok m) (hh : parseEhdr b = .ok h) (ht : h.ehdr.type = 1)
    (hl : parseShdrs b = .ok l) :
    ∃ rss, List.Forall₂ (RelocsOf (fun i => i / 2 ^ 32) h.ehdr.bit32 b.data l) l rss ∧ Holds m rss.flatten := by
  unfold parseSectionRelocs at hr
  rw [hh] at hr
  simp only [bind, Except.bind] at hr
  rw [if_neg (show ¬ h.ehdr.type ≠ ET_REL from fun x => x ht)] at hr
  obtain ⟨h', k1, k2, _⟩ := C10_section_headers b l hl
  rw [hh] at k1; cases k1
  obtain ⟨rss, f1, f2⟩ := relocsLoop_ok hh hl _ 0 holds_empty hr (by omega)
  exact ⟨rss, by simpa using f1, by simpa using f2⟩

/-- **C54** what is read from a debug section of a 64 bit relocatable object: the section is the first one of its
name, decompressed if it is compressed, and an address or offset that is read from it is the number stored there
relocated as the relocation tables of the file say for that section.  Without a section of that name there is
nothing to read.  Partial: 64 bit files only, as for `C54_relocations_64_partial`. -/
theorem C54_debug_section_partial (c : Codec) (b : Backend) (m : SectionRelocs) (h : EhdrExt) (name : Bytes)
    (r : Reader) (hm : parseSectionRelocs b = .ok m) (hh : parseEhdr b = .ok h) (ht : h.ehdr.type = 1)
    (h64 : h.ehdr.bit32 = false) (hr : loadSection c b m name = .ok r) :
    (NoneNamed b h name ∧ r.data = []) ∨
    ∃ j l rss, FirstNamed c b h l name j r.data ∧ l.length = h.shnum ∧
      (∀ i s, l[i]? = some s → ShdrAt false b.data (h.ehdr.shoff + i * 64) s) ∧
      List.Forall₂ (RelocsOf (symbolIndex false) false b.data l) l rss ∧
      ∀ off size v : Nat, size = 1 ∨ size = 2 ∨ size = 4 ∨ size = 8 → Num r.data off size v →
        r.readAddress off size = .ok (relocated rss.flatten j off v) := by
  rcases loadSection_cases hr hh with hn | ⟨j, l, h1, h2, h3⟩
  · exact Or.inl hn
  · right
    obtain ⟨rss, k3, k4⟩ := relocs_of_shdrs hm hh ht h1
    obtain ⟨h', g1, g2, g3⟩ := C10_section_headers b l h1
    rw [hh] at g1; cases g1
    rw [h64] at g3 k3
    exact ⟨j, l, rss, h2, g2, g3, k3, fun off size v hs hv => by rw [readAddress_num hs hv, h3, k4]⟩

/-- **C54** what is read from a debug section of a file that is not a relocatable object is what is stored in the
first section of that name, decompressed if it is compressed. -/
theorem C54_debug_section_other (c : Codec) (b : Backend) (m : SectionRelocs) (h : EhdrExt) (name : Bytes)
    (r : Reader) (hm : parseSectionRelocs b = .ok m) (hh : parseEhdr b = .ok h) (ht : h.ehdr.type ≠ 1)
    (hr : loadSection c b m name = .ok r) :
    (NoneNamed b h name ∧ r.data = []) ∨
    ∃ j l, FirstNamed c b h l name j r.data ∧ l.length = h.shnum ∧
      (∀ i s, l[i]? = some s →
        ShdrAt h.ehdr.bit32 b.data (h.ehdr.shoff + i * shdrSize h.ehdr.bit32) s) ∧
      ∀ off size v : Nat, size = 1 ∨ size = 2 ∨ size = 4 ∨ size = 8 → Num r.data off size v →
        r.readAddress off size = .ok v := by
  rcases loadSection_cases hr hh with hn | ⟨j, l, h1, h2, h3⟩
  · exact Or.inl hn
  · right
    obtain ⟨m', k1, k2⟩ := C54_other_files b h hh ht
    rw [hm] at k1; cases k1
    obtain ⟨h', g1, g2, g3⟩ := C10_section_headers b l h1
    rw [hh] at g1; cases g1
    exact ⟨j, l, h2, g2, g3, fun off size v hs hv => by rw [readAddress_num hs hv, h3, k2]⟩

/-- No relocation applies to section number 2^64 - 1: the number of the section a table applies to has 32
bits. -/
theorem relocated_max {b : Backend} {l : List Shdr} {rss : List (List Reloc)} {bit32 : Bool} {index : Nat → Nat}
    {ss : List Shdr} (hi : ∀ s ∈ ss, s.info < 2 ^ 32)
    (hf : List.Forall₂ (RelocsOf index bit32 b.data l) ss rss) (off v : Nat) :
    relocated rss.flatten (2 ^ 64 - 1) off v = v := by
  have key : ∀ r ∈ rss.flatten, r.target < 2 ^ 32 := by
    clear off v
    induction hf with
    | nil => simp
    | @cons s rs ss rss h1 h2 ih =>
      intro r hr
      rw [List.flatten_cons, List.mem_append] at hr
      rcases hr with hr | hr
      · have hs := hi s (by simp)
        obtain ⟨k, hk⟩ := List.mem_iff_getElem?.mp hr
        unfold RelocsOf at h1
        split at h1
        · obtain ⟨_, _, _, h3⟩ := h1
          obtain ⟨h4, _⟩ := h3 k r hk
          omega
        · split at h1
          · obtain ⟨_, _, _, h3⟩ := h1
            obtain ⟨h4, _⟩ := h3 k r hk
            omega
          · subst h1; simp at hr
      · exact ih (fun s hs => hi s (List.mem_cons_of_mem _ hs)) r hr
  unfold relocated
  rw [List.filter_eq_nil_iff.mpr]
  · rfl
  · intro r hr
    have := key r hr
    simp only [decide_eq_true_eq]
    omega

theorem num4_lt {d : Bytes} {o v : Nat} (h : Num d o 4 v) : v < 2 ^ 32 := by
  obtain ⟨_, rfl⟩ := (num_iff _ _ _ _).mp h
  exact field_lt4 _ _

/-- The relocations of a file say nothing about a section number 2^64 - 1. -/
theorem relocate_max {b : Backend} {m : SectionRelocs} (hm : parseSectionRelocs b = .ok m) (off v : Nat) :
    (m (2 ^ 64 - 1)).relocate off v = v := by
  obtain ⟨h, hh, _⟩ := (bind_ok_iff _ _ _).mp hm
  by_cases ht : h.ehdr.type = 1
  · obtain ⟨l, rss, k1, k2, k3, k4⟩ := relocs_ok hm hh ht
    rw [k4]
    refine relocated_max (fun s hs => ?_) k3 off v
    obtain ⟨i, hi⟩ := List.mem_iff_getElem?.mp hs
    have := k2 i s hi
    unfold ShdrAt at this
    split at this
    · exact num4_lt this.2.2.2.2.2.2.2.1
    · exact num4_lt this.2.2.2.2.2.2.2.1
  · obtain ⟨m', k1, k2⟩ := C54_other_files b h hh ht
    rw [hm] at k1; cases k1
    exact k2 _ _ _

/-- **C54** sections of split debug information are read as they are stored, decompressed if they are
compressed: the relocations of the file that refers to them (`b'`) do not apply. -/
theorem C54_dwo_section (c : Codec) (b b' : Backend) (m : SectionRelocs) (h : EhdrExt) (name : Option Bytes)
    (r : Reader) (hm : parseSectionRelocs b' = .ok m) (hh : parseEhdr b = .ok h)
    (hr : loadDwoSection c b m name = .ok r) :
    (r.data = [] ∧ ∀ n, name = some n → NoneNamed b h n) ∨
    ∃ n j l, name = some n ∧ FirstNamed c b h l n j r.data ∧ l.length = h.shnum ∧
      (∀ i s, l[i]? = some s →
        ShdrAt h.ehdr.bit32 b.data (h.ehdr.shoff + i * shdrSize h.ehdr.bit32) s) ∧
      ∀ off size v : Nat, size = 1 ∨ size = 2 ∨ size = 4 ∨ size = 8 → Num r.data off size v →
        r.readAddress off size = .ok v := by
  cases name with
  | none => cases hr; exact Or.inl ⟨rfl, by simp⟩
  | some n =>
    have hl : loadSection c b (fun _ => m (2 ^ 64 - 1)) n = .ok r := hr
    rcases loadSection_cases hl hh with ⟨hn, hd⟩ | ⟨j, l, h1, h2, h3⟩
    · exact Or.inl ⟨hd, by rintro _ ⟨⟩; exact hn⟩
    · right
      obtain ⟨h', g1, g2, g3⟩ := C10_section_headers b l h1
      rw [hh] at g1; cases g1
      exact ⟨n, j, l, rfl, h2, g2, g3, fun off size v hs hv => by
        rw [readAddress_num hs hv, h3, relocate_max hm]⟩

/-- **C54** reading beyond the end of a section, or a number of a size that does not exist, is reported as an
error. -/
theorem C54_beyond_end (r : Reader) (off size : Nat)
    (h : r.data.length < off + size ∨ (size ≠ 1 ∧ size ≠ 2 ∧ size ≠ 4 ∧ size ≠ 8)) :
    r.readAddress off size = .error .invalidDwarf := by
  unfold Reader.readAddress readStored
  by_cases hs : size ≠ 1 ∧ size ≠ 2 ∧ size ≠ 4 ∧ size ≠ 8
  · rw [if_pos hs]; rfl
  · rw [if_neg hs, if_neg (by omega)]; rfl

/-! ### Examples -/

/-- A 64 bit object with a debug section (number 3, `.d`) that holds two numbers; the first one is relocated by
symbol 1 (value 0x40) plus 2. -/
def debugObject : Bytes :=
  -- header
  [127, 69, 76, 70, 2] ++ List.replicate 11 0 ++ [1, 0] ++ List.replicate 22 0 ++
  [64, 0, 0, 0, 0, 0, 0, 0] ++ List.replicate 12 0 ++ [5, 0, 4, 0] ++
  -- section headers
  List.replicate 64 0 ++
  [0, 0, 0, 0, 2, 0, 0, 0] ++ List.replicate 16 0 ++ [128, 1, 0, 0, 0, 0, 0, 0] ++
    [48, 0, 0, 0, 0, 0, 0, 0] ++ List.replicate 24 0 ++
  [0, 0, 0, 0, 4, 0, 0, 0] ++ List.replicate 16 0 ++ [176, 1, 0, 0, 0, 0, 0, 0] ++
    [24, 0, 0, 0, 0, 0, 0, 0] ++ [1, 0, 0, 0, 3, 0, 0, 0] ++ List.replicate 16 0 ++
  [1, 0, 0, 0, 1, 0, 0, 0] ++ List.replicate 16 0 ++ [200, 1, 0, 0, 0, 0, 0, 0] ++
    [16, 0, 0, 0, 0, 0, 0, 0] ++ List.replicate 24 0 ++
  [0, 0, 0, 0, 3, 0, 0, 0] ++ List.replicate 16 0 ++ [216, 1, 0, 0, 0, 0, 0, 0] ++
    [4, 0, 0, 0, 0, 0, 0, 0] ++ List.replicate 24 0 ++
  -- symbols, at 384
  List.replicate 24 0 ++ List.replicate 8 0 ++ [64, 0, 0, 0, 0, 0, 0, 0] ++ List.replicate 8 0 ++
  -- entry, at 432
  [0, 0, 0, 0, 0, 0, 0, 0] ++ [1, 0, 0, 0, 1, 0, 0, 0] ++ [2, 0, 0, 0, 0, 0, 0, 0] ++
  -- data, at 456
  [7, 0, 0, 0, 0, 0, 0, 0, 9, 0, 0, 0, 0, 0, 0, 0] ++
  -- names, at 472
  [0, 46, 100, 0]

/-- No compression. -/
def noCodec : Codec := ⟨fun _ => .error .unsupported, fun _ => .error .unsupported, fun _ => .error .unsupported, 0⟩

set_option maxRecDepth 40000 in
example : ∃ m h r, parseSectionRelocs (.mem 4096 debugObject) = .ok m ∧
    parseEhdr (.mem 4096 debugObject) = .ok h ∧ h.ehdr.type = 1 ∧ h.ehdr.bit32 = false ∧
    loadSection noCodec (.mem 4096 debugObject) m [46, 100] = .ok r ∧
    r.readAddress 0 8 = .ok 0x42 ∧ r.readAddress 8 8 = .ok 9 ∧ r.readAddress 16 8 = .error .invalidDwarf :=
  ⟨_, ⟨⟨false, 1, 0, 64, 0, 5, 4⟩, 5, 0⟩, _, rfl, by decide +kernel, rfl, rfl, rfl, by decide +kernel,
    by decide +kernel, by decide +kernel⟩

set_option maxRecDepth 40000 in
/-- As split debug information, the same file is read without relocations. -/
example : ∃ m r, parseSectionRelocs (.mem 4096 debugObject) = .ok m ∧
    loadDwoSection noCodec (.mem 4096 debugObject) m (some [46, 100]) = .ok r ∧
    r.readAddress 0 8 = .ok 7 ∧ r.readAddress 8 8 = .ok 9 :=
  ⟨_, _, rfl, rfl, by decide +kernel, by decide +kernel⟩

end Blazesym.Dwarf
