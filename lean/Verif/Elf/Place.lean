import Verif.Elf.Notes

/-! Lemmas: where in memory an ELF image is stored makes no difference beyond its alignment. -/

set_option autoImplicit false

namespace Blazesym.Elf
open Blazesym.Util

theorem alignOffset_zero_iff {a n : Nat} (hn : 0 < n) : alignOffset a n = 0 ↔ n ∣ a := by
  unfold alignOffset
  have := Nat.mod_lt a hn
  rw [Nat.dvd_iff_mod_eq_zero]
  constructor
  · intro h
    by_contra hne
    rw [Nat.mod_eq_of_lt (by omega)] at h
    omega
  · intro h
    rw [h, Nat.sub_zero, Nat.mod_self]

/-- Two backends that read the same. -/
structure SameReads (b b' : Backend) : Prop where
  obj : ∀ off size al, al ∣ 8 → b.readObj off size al = b'.readObj off size al
  slice : ∀ off size al count, al ∣ 8 → b.readSlice off size al count = b'.readSlice off size al count

theorem dvd_place {a a' al : Nat} (h : a % 8 = a' % 8) (hal : al ∣ 8) (off : Nat) : al ∣ a + off ↔ al ∣ a' + off := by
  obtain ⟨k, hk⟩ := hal
  have h1 : a % al = a' % al := by
    rw [← Nat.mod_mod_of_dvd a ⟨k, hk⟩, ← Nat.mod_mod_of_dvd a' ⟨k, hk⟩, h]
  rw [Nat.dvd_iff_mod_eq_zero, Nat.dvd_iff_mod_eq_zero, Nat.add_mod, h1, ← Nat.add_mod]

theorem podRef_place {a a' al : Nat} (h : a % 8 = a' % 8) (hal : al ∣ 8) (off size : Nat) (d : Bytes) :
    (readPodRef size al ⟨a + off, d⟩).1 = (readPodRef size al ⟨a' + off, d⟩).1 := by
  have hpos : 0 < al := Nat.pos_of_dvd_of_pos hal (by decide)
  have := dvd_place h hal off
  unfold readPodRef readSlice ensure
  simp only [alignOffset_zero_iff hpos, this]
  by_cases hl : size > d.length
  · simp only [if_pos hl]
  · simp only [if_neg hl]
    split <;> rfl

theorem sameReads_mem {a a' : Nat} (h : a % 8 = a' % 8) (d : Bytes) : SameReads (.mem a d) (.mem a' d) := by
  have key : ∀ {α : Type} (x y : Except Fail Bytes × Cursor) (f : Bytes → α) (e : α), x.1 = y.1 →
      (match x with | (.ok s, _) => f s | (.error _, _) => e) = (match y with | (.ok s, _) => f s | (.error _, _) => e) := by
    intro α x y f e hxy
    obtain ⟨x, c⟩ := x
    obtain ⟨y, c'⟩ := y
    cases hxy
    cases x <;> rfl
  constructor
  · intro off size al hal
    unfold Backend.readObj
    simp only
    split
    · exact key _ _ (fun s => (.ok s : Except Err Bytes)) _ (podRef_place h hal off size _)
    · rfl
  · intro off size al count hal
    unfold Backend.readSlice
    simp only
    split
    · refine key _ _ (fun s => (.ok s : Except Err Bytes)) _ ?_
      unfold readPodSliceRef
      split
      · exact podRef_place h hal off _ _
      · rfl
    · rfl

section
variable {b b' : Backend} (h : SameReads b b')
include h

theorem SameReads.record {α : Type} (l : Layout α) (bit32 : Bool) (off : Nat) :
    b.readRecord l bit32 off = b'.readRecord l bit32 off := by
  unfold Backend.readRecord
  rw [h.obj _ _ _ (by unfold Layout.align; split <;> decide)]

theorem SameReads.table {α : Type} (l : Layout α) (bit32 : Bool) (off count : Nat) :
    b.readTable l bit32 off count = b'.readTable l bit32 off count := by
  unfold Backend.readTable
  rw [h.slice _ _ _ _ (by unfold Layout.align; split <;> decide)]

theorem SameReads.bytes (off count : Nat) : b.readSlice off 1 1 count = b'.readSlice off 1 1 count :=
  h.slice _ _ _ _ (by decide)

theorem SameReads.first (e : Ehdr) : readFirstShdr b e = readFirstShdr b' e := h.record _ _ _

theorem SameReads.ehdr : parseEhdr b = parseEhdr b' := by
  unfold parseEhdr realShnum realPhnum
  simp only [h.bytes, h.record, h.first]

theorem SameReads.shdrs : parseShdrs b = parseShdrs b' := by
  unfold parseShdrs
  simp only [h.ehdr, h.table]

theorem SameReads.phdrs : parsePhdrs b = parsePhdrs b' := by
  unfold parsePhdrs
  simp only [h.ehdr, h.table]

theorem SameReads.hdr (i : Nat) : sectionHdr b i = sectionHdr b' i := by
  unfold sectionHdr
  simp only [h.shdrs]

theorem SameReads.raw (i : Nat) : sectionDataRaw b i = sectionDataRaw b' i := by
  unfold sectionDataRaw
  simp only [h.hdr, h.bytes]

theorem SameReads.data (c : Codec) (i : Nat) : sectionData c b i = sectionData c b' i := by
  unfold sectionData
  simp only [h.hdr, h.bytes, h.ehdr]

theorem SameReads.shstrtab : parseShstrtab b = parseShstrtab b' := by
  unfold parseShstrtab shstrndx
  simp only [h.ehdr, h.first, h.raw]

theorem SameReads.name (i : Nat) : sectionName b i = sectionName b' i := by
  unfold sectionName
  simp only [h.hdr, h.shstrtab]

theorem SameReads.findLoop (name : Bytes) : ∀ n i : Nat, findSectionLoop b name n i = findSectionLoop b' name n i
  | 0, _ => rfl
  | n + 1, i => by
    unfold findSectionLoop
    rw [h.name, SameReads.findLoop name n (i + 1)]

theorem SameReads.find (name : Bytes) : findSection b name = findSection b' name := by
  unfold findSection
  simp only [h.ehdr, h.findLoop]

theorem SameReads.section {α : Type} (l : Layout α) (i : Nat) : parseSectionData l b i = parseSectionData l b' i := by
  unfold parseSectionData
  simp only [h.ehdr, h.hdr, h.table]

theorem SameReads.syms (sec : Bytes) : parseSyms b sec = parseSyms b' sec := by
  unfold parseSyms
  simp only [h.ehdr, h.find, h.section]

theorem SameReads.strs (sec : Bytes) : parseStrs b sec = parseStrs b' sec := by
  unfold parseStrs
  simp only [h.find, h.raw]

theorem SameReads.symtab (c : Codec) : parseSymtab c b = parseSymtab c b' := by
  unfold parseSymtab parseDebugdata
  simp only [h.syms, h.strs, h.find, h.raw]

theorem SameReads.dynsym : parseDynsym b = parseDynsym b' := by
  unfold parseDynsym
  simp only [h.syms, h.strs]

theorem SameReads.file (c : Codec) : File.ofImage c b = File.ofImage c b' := by
  unfold File.ofImage
  rw [h.shdrs, h.phdrs, h.symtab, h.dynsym]

theorem SameReads.debugLink (c : Codec) : readDebugLink c b = readDebugLink c b' := by
  unfold readDebugLink
  simp only [h.find, h.data]

end

theorem notes_place : ∀ (fuel : Nat) {a a' : Nat} (d : Bytes), a % 4 = a' % 4 →
    notesLoop fuel ⟨a, d⟩ = notesLoop fuel ⟨a', d⟩
  | 0, _, _, _, _ => rfl
  | fuel + 1, a, a', d, h => by
    have h4 : alignOffset a 4 = 0 ↔ alignOffset a' 4 = 0 := by
      rw [alignOffset_zero_iff (by decide), alignOffset_zero_iff (by decide)]
      omega
    have ih : ∀ (k : Nat) (d : Bytes), notesLoop fuel ⟨a + k, d⟩ = notesLoop fuel ⟨a' + k, d⟩ :=
      fun k d => notes_place fuel d (by omega)
    unfold notesLoop
    simp only
    by_cases hl : d.length ≥ 12
    · rw [if_pos hl, if_pos hl]
      by_cases ha : alignOffset a' 4 = 0
      · have r : ∀ x, alignOffset x 4 = 0 → readPodRef 12 4 ⟨x, d⟩ = (.ok (d.take 12), ⟨x + 12, d.drop 12⟩) := by
          intro x hx
          have : ¬ 12 > d.length := by omega
          simp only [readPodRef, readSlice, ensure, if_neg this, if_pos hx]
        rw [r a (h4.mpr ha), r a' ha]
        simp only
        cases alignUp u32Size (field (d.take 12) 0 4) 4 with
        | error e => rfl
        | ok skip =>
          simp only [advance, readSlice, ensure]
          by_cases h1 : skip > (d.drop 12).length
          · simp only [if_pos h1]
          · simp only [if_neg h1]
            split
            · by_cases h2 : field (d.take 12) 4 4 > ((d.drop 12).drop skip).length
              · simp only [if_pos h2]
              · simp only [if_neg h2]
            · cases alignUp u32Size (field (d.take 12) 4 4) 4 with
              | error e => rfl
              | ok skip' =>
                simp only
                by_cases h2 : skip' > ((d.drop 12).drop skip).length
                · simp only [if_pos h2]
                · simp only [if_neg h2, Nat.add_assoc]
                  exact ih _ _
      · have r : ∀ x, ¬ alignOffset x 4 = 0 → readPodRef 12 4 ⟨x, d⟩ = (.error .none, ⟨x + 12, d.drop 12⟩) := by
          intro x hx
          have : ¬ 12 > d.length := by omega
          simp only [readPodRef, readSlice, ensure, if_neg this, if_neg hx]
        rw [r a (fun hh => ha (h4.mp hh)), r a' ha]
    · rw [if_neg hl, if_neg hl]

theorem buildId_loop_place {a a' : Nat} (h : a % 8 = a' % 8) (c : Codec) (d : Bytes) :
    ∀ (shdrs : List Shdr) (i : Nat), buildIdLoop c (.mem a d) i shdrs = buildIdLoop c (.mem a' d) i shdrs
  | [], _ => rfl
  | s :: rest, i => by
    unfold buildIdLoop
    rw [(sameReads_mem h d).data, buildId_loop_place h c d rest]
    have : ∀ data, readNotes (sectionAddr c (.mem a d) s) data = readNotes (sectionAddr c (.mem a' d) s) data := by
      intro data
      unfold readNotes sectionAddr
      simp only
      split
      · rfl
      · exact notes_place _ _ (by omega)
    simp only [this]

/-- The build ID of an image does not depend on where it is. -/
theorem buildId_place {a a' : Nat} (h : a % 8 = a' % 8) (c : Codec) (d : Bytes) :
    readBuildId c (.mem a d) = readBuildId c (.mem a' d) := by
  unfold readBuildId
  rw [(sameReads_mem h d).shdrs]
  simp only [buildId_loop_place h]

end Blazesym.Elf
